import Verif.Model.Diffusion

/-! # Specification vocabulary for viscosity and heat conduction -/
namespace Verif.Diffusion
open Verif.Grid
variable {K : Type} [Field K]

/-- Cartesian coordinates with the cell widths `w1`, `w2`, `w3`: areas and volumes are products of widths, centres of
neighbouring cells are half the sum of the widths apart, all scale factors are one. -/
structure Cartesian (G : Geom K) (M : Met K) (w1 w2 w3 : Int → K) : Prop where
  a1 : ∀ k j i, G.a1 (k, j, i) = w2 j * w3 k
  a2 : ∀ k j i, G.a2 (k, j, i) = w1 i * w3 k
  a3 : ∀ k j i, G.a3 (k, j, i) = w1 i * w2 j
  vol : ∀ k j i, G.vol (k, j, i) = w1 i * w2 j * w3 k
  d1 : ∀ i, M.dx1v i = (w1 i + w1 (i+1)) / 2
  d2 : ∀ j, M.dx2v j = (w2 j + w2 (j+1)) / 2
  d3 : ∀ k, M.dx3v k = (w3 k + w3 (k+1)) / 2
  h2v : ∀ i, M.h2v i = 1
  h2f : ∀ i, M.h2f i = 1
  h31v : ∀ i, M.h31v i = 1
  h31f : ∀ i, M.h31f i = 1
  h32v : ∀ j, M.h32v j = 1
  h32f : ∀ j, M.h32f j = 1
  dh2 : ∀ i, M.dh2vd1 i = 0
  dh31 : ∀ i, M.dh31vd1 i = 0
  dh32 : ∀ j, M.dh32vd2 j = 0

/-- A cell and its neighbours across faces in the directions that exist. -/
def Next (d : Dims) (k j i : Int) (q : Int × Int × Int) : Prop :=
  q = (k, j, i) ∨ q = (k, j, i-1) ∨ q = (k, j, i+1) ∨
    (d.nx2 > 1 ∧ (q = (k, j-1, i) ∨ q = (k, j+1, i))) ∨ (d.nx3 > 1 ∧ (q = (k-1, j, i) ∨ q = (k+1, j, i)))

/-- Active cell. -/
def Act (d : Dims) (k j i : Int) : Prop :=
  (d.ks ≤ k ∧ k ≤ d.ke) ∧ (d.js ≤ j ∧ j ≤ d.je) ∧ d.is ≤ i ∧ i ≤ d.ie

/-- No fluxes. -/
def noFlux : Flx K := ⟨fun _ => 0, fun _ => 0, fun _ => 0⟩

/-- A velocity field linear in the Cartesian coordinates: value `v` at the origin, `A a b` the derivative of component `a`
along direction `b`; the centre of cell `(k, j, i)` is at `(c1 i, c2 j, c3 k)`. -/
def LinearVel (c1 c2 c3 : Int → K) (v : Fin 3 → K) (A : Fin 3 → Fin 3 → K) (p : A4 K) : Prop :=
  ∀ (a : Fin 3) (k j i : Int), p (1 + a.1, k, j, i) = v a + A a 0 * c1 i + A a 1 * c2 j + A a 2 * c3 k

/-- No variation along directions without cells. -/
def Along (d : Dims) (A : Fin 3 → Fin 3 → K) : Prop :=
  (¬ d.nx2 > 1 → ∀ a, A a 1 = 0) ∧ (¬ d.nx3 > 1 → ∀ a, A a 2 = 0)

/-- Viscous stress, per unit of density and viscosity, of the velocity gradient `A`. -/
def stress (A : Fin 3 → Fin 3 → K) (a b : Fin 3) : K :=
  A a b + A b a - (if a = b then 2 / 3 * (A 0 0 + A 1 1 + A 2 2) else 0)

/-- A velocity field linear in the coordinates apart from the scale factors: `v1 = a 0 + b 0 x2 + c 0 x3`,
`v2 = h2 (a 1 + r 1 x1 + b 1 x2 + c 1 x3)`, `v3 = h31 h32 (a 2 + r 2 x1 + b 2 x2 + c 2 x3)`. Its covariant derivatives are
known in every coordinate system with these scale factors. -/
structure LinearCov (M : Met K) (x1 x2 x3 : Int → K) (a r b c : Fin 3 → K) (p : A4 K) : Prop where
  d1 : ∀ i, M.dx1v i = x1 (i+1) - x1 i
  d2 : ∀ j, M.dx2v j = x2 (j+1) - x2 j
  d3 : ∀ k, M.dx3v k = x3 (k+1) - x3 k
  v1 : ∀ k j i, p (1, k, j, i) = a 0 + b 0 * x2 j + c 0 * x3 k
  v2 : ∀ k j i, p (2, k, j, i) = M.h2v i * (a 1 + r 1 * x1 i + b 1 * x2 j + c 1 * x3 k)
  v3 : ∀ k j i, p (3, k, j, i) = M.h31v i * M.h32v j * (a 2 + r 2 * x1 i + b 2 * x2 j + c 2 * x3 k)

end Verif.Diffusion
