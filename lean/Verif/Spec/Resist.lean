import Verif.Model.Resist
import Verif.Spec.Diffusion
import Mathlib.Algebra.BigOperators.Group.Finset.Basic
import Mathlib.Algebra.Group.End
import Mathlib.Data.Fintype.BigOperators

/-! # Specification vocabulary for resistivity and ambipolar diffusion -/
namespace Verif.Resist
open Verif.Grid
variable {K : Type} [Field K]

/-- One, two or three dimensions. -/
structure Shape (d : Dims) : Prop where
  x1 : 1 ≤ d.nx1
  x2 : 1 ≤ d.nx2
  x3 : 1 ≤ d.nx3
  ord : d.nx3 > 1 → d.nx2 > 1

/-- Rows of edges or faces of the active cells in direction 2 and 3: one more than cells where there are several cells. -/
def Row2 (d : Dims) (j : Int) : Prop := d.js ≤ j ∧ (j ≤ d.je ∨ d.nx2 > 1 ∧ j ≤ d.je + 1)
@[inherit_doc Row2] def Row3 (d : Dims) (k : Int) : Prop := d.ks ≤ k ∧ (k ≤ d.ke ∨ d.nx3 > 1 ∧ k ≤ d.ke + 1)

/-- Component `a` of the vector field with value `v` at the origin and constant derivatives `A a b` along direction `b`. -/
def lin (v : Fin 3 → K) (A : Fin 3 → Fin 3 → K) (a : Fin 3) (x y z : K) : K := v a + A a 0 * x + A a 1 * y + A a 2 * z

/-- The face-centred array holds the values of the linear field at the centres of the faces; cell centres are at `(c1 i, c2 j, c3 k)`
and faces at `f1 i`, `f2 j`, `f3 k`. -/
structure AtFaces (c1 c2 c3 f1 f2 f3 : Int → K) (v : Fin 3 → K) (A : Fin 3 → Fin 3 → K) (b : FF K) : Prop where
  x1 : ∀ k j i, b.x1f (k, j, i) = lin v A 0 (f1 i) (c2 j) (c3 k)
  x2 : ∀ k j i, b.x2f (k, j, i) = lin v A 1 (c1 i) (f2 j) (c3 k)
  x3 : ∀ k j i, b.x3f (k, j, i) = lin v A 2 (c1 i) (c2 j) (f3 k)

/-- The same for values at the middles of the edges. -/
structure AtEdges (c1 c2 c3 f1 f2 f3 : Int → K) (v : Fin 3 → K) (A : Fin 3 → Fin 3 → K) (e : EF K) : Prop where
  x1 : ∀ k j i, e.x1e (k, j, i) = lin v A 0 (c1 i) (f2 j) (f3 k)
  x2 : ∀ k j i, e.x2e (k, j, i) = lin v A 1 (f1 i) (c2 j) (f3 k)
  x3 : ∀ k j i, e.x3e (k, j, i) = lin v A 2 (f1 i) (f2 j) (c3 k)

/-- The same for values at cell centres, with the components in the order of `IB1`, `IB2`, `IB3`. -/
def AtCells (c1 c2 c3 : Int → K) (v : Fin 3 → K) (A : Fin 3 → Fin 3 → K) (bc : A4 K) : Prop :=
  ∀ (a : Fin 3) (k j i : Int), bc (a.1, k, j, i) = lin v A a (c1 i) (c2 j) (c3 k)

/-- On a uniform mesh, in units of the cell widths: centres at whole numbers, faces half a unit before. -/
def whole (i : Int) : K := i
@[inherit_doc whole] def half (i : Int) : K := i - 1 / 2

/-- `E = η (J - (J·B) B / (B² + t))`: with `t = 0`, `η` times the current across the magnetic field. -/
def across (t eta : K) (J B : Fin 3 → K) (a : Fin 3) : K :=
  eta * (J a - (J 0 * B 0 + J 1 * B 1 + J 2 * B 2) * B a / (B 0 ^ 2 + B 1 ^ 2 + B 2 ^ 2 + t))

end Verif.Resist

/-! ## A mesh of blocks of equal size -/
namespace Verif.Resist
open Verif.Grid

/-- The active cells of blocks `B` with `n1 × n2 × n3` cells. -/
abbrev Cell (B : Type) (n1 n2 n3 : ℕ) : Type := B × Fin n3 × Fin n2 × Fin n1

/-- Indices of the cell in the arrays of its block. -/
def place {B : Type} {n1 n2 n3 : ℕ} (d : Dims) (p : Cell B n1 n2 n3) : Int × Int × Int :=
  (d.ks + (p.2.1.1 : ℤ), d.js + (p.2.2.1.1 : ℤ), d.is + (p.2.2.2.1 : ℤ))

/-- At most one step in each direction that has several cells, none in the others. -/
def Near (d : Dims) (o : Int × Int × Int) : Prop :=
  (-1 ≤ o.1 ∧ o.1 ≤ 1) ∧ (-1 ≤ o.2.1 ∧ o.2.1 ≤ 1) ∧ (-1 ≤ o.2.2 ∧ o.2.2 ≤ 1) ∧ (¬ d.nx2 > 1 → o.2.1 = 0) ∧ (¬ d.nx3 > 1 → o.1 = 0)

/-- The steps to the next cells of the mesh: permutations `s1`, `s2`, `s3` of the cells, which commute (all boundaries are periodic). -/
structure Steps {P : Type} (s1 s2 s3 : Equiv.Perm P) : Prop where
  c12 : s1 * s2 = s2 * s1
  c13 : s1 * s3 = s3 * s1
  c23 : s2 * s3 = s3 * s2

/-- The cell reached by `o.2.2`, `o.2.1`, `o.1` steps in directions 1, 2, 3. -/
def go {P : Type} (s1 s2 s3 : Equiv.Perm P) (o : Int × Int × Int) : Equiv.Perm P := s3 ^ o.1 * s2 ^ o.2.1 * s1 ^ o.2.2

/-- What the exchange of boundary values provides: the element one step away from an active cell holds the value of the cell
reached by this step, in whichever block it is active. -/
def Filled {K B : Type} {n1 n2 n3 : ℕ} (d : Dims) (s1 s2 s3 : Equiv.Perm (Cell B n1 n2 n3)) (x : B → A3 K) : Prop :=
  ∀ p o, Near d o → x p.1 ((place d p).1 + o.1, (place d p).2.1 + o.2.1, (place d p).2.2 + o.2.2) =
    x (go s1 s2 s3 o p).1 (place d (go s1 s2 s3 o p))

/-- Uniform Cartesian blocks. -/
structure Uniform {K : Type} [Field K] (h1 h2 h3 : K) (M : Diffusion.Met K) (G : Geom K) (len : EF K) : Prop where
  d1 : ∀ i, M.dx1v i = h1
  d2 : ∀ j, M.dx2v j = h2
  d3 : ∀ k, M.dx3v k = h3
  a1 : ∀ q, G.a1 q = h2 * h3
  a2 : ∀ q, G.a2 q = h1 * h3
  a3 : ∀ q, G.a3 q = h1 * h2
  l1 : ∀ q, len.x1e q = h1
  l2 : ∀ q, len.x2e q = h2
  l3 : ∀ q, len.x3e q = h3

/-- Twice the magnetic energy of the mesh, in units of the volume of a cell: the field on the lower faces of all active cells. -/
def energy {K B : Type} [Field K] [Fintype B] {n1 n2 n3 : ℕ} (d : Dims) (b : B → FF K) : K :=
  ∑ p : Cell B n1 n2 n3, ((b p.1).x1f (place d p) ^ 2 + (b p.1).x2f (place d p) ^ 2 + (b p.1).x3f (place d p) ^ 2)

end Verif.Resist
