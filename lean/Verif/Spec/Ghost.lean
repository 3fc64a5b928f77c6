import Verif.Model.Ghost
import Verif.Spec.Tree

/-! What ghost-zone messages have to satisfy. -/
namespace Verif.Ghost
open Verif.Grid Verif.Tree

/-- Block sizes accepted by the mesh: extents of one in directions the mesh does not have, at least
`NGHOST` cells otherwise (mesh.cpp:254-283), and even numbers with refinement
(mesh.cpp:341, mesh_refinement.cpp:42). -/
structure SizesOk (m : Mesh) (ml : Bool) (d : Dims) : Prop where
  ng : 1 ≤ d.ng
  n1 : d.ng ≤ d.nx1
  n2 : m.f2 = true → d.ng ≤ d.nx2 ∧ 1 < d.nx2
  n3 : m.f3 = true → d.ng ≤ d.nx3 ∧ 1 < d.nx3
  o2 : m.f2 = false → d.nx2 = 1
  o3 : m.f3 = false → d.nx3 = 1
  gEven : ml = true → d.ng % 2 = 0
  even1 : ml = true → d.nx1 % 2 = 0
  even2 : ml = true → m.f2 = true → d.nx2 % 2 = 0
  even3 : ml = true → m.f3 = true → d.nx3 % 2 = 0

/-- Twice as many cells as ghost cells, as needed with refinement. -/
structure Wide (m : Mesh) (ml : Bool) (d : Dims) : Prop where
  n1 : ml = true → 2 * d.ng ≤ d.nx1
  n2 : ml = true → m.f2 = true → 2 * d.ng ≤ d.nx2
  n3 : ml = true → m.f3 = true → 2 * d.ng ≤ d.nx3

/-- The cell `(k, j, i)` lies in the box. -/
structure Box.Has (b : Box) (k j i : Int) : Prop where
  i0 : b.si ≤ i
  i1 : i ≤ b.ei
  j0 : b.sj ≤ j
  j1 : j ≤ b.ej
  k0 : b.sk ≤ k
  k1 : k ≤ b.ek

/-- Number of cells of a box. -/
def Box.count (b : Box) : Int := (b.ek + 1 - b.sk) * (b.ej + 1 - b.sj) * (b.ei + 1 - b.si)

/-- Number of cell `i` counted from the edge of the mesh, in cells of the coarser of the two levels
`L` and `K`, for a block of level `L` with logical coordinate `x` and `nx` cells: index into the
variable, starting at `s`, if `L ≤ K`, index into the coarse buffer, starting at `cs`, otherwise. -/
def cellNo (nx s cs : Int) (L K x : Nat) (i : Int) : Int :=
  if K < L then x * ((nx + 1) / 2) + (i - cs) else x * nx + (i - s)

/-- Two cells of a direction with `n` cells are the same, up to a period of the mesh. -/
def SameCell (per : Prop) (n a b : Int) : Prop := a = b ∨ per ∧ (a = b + n ∨ a = b - n)

/-- Cell `(k, j, i)` of block `(L, p)` and cell `(k', j', i')` of block `(K, q)`, in the arrays used
for their exchange, are the same cell of the mesh. -/
structure SamePlace (m : Mesh) (d : Dims) (L : Nat) (p : Pos) (K : Nat) (q : Pos)
    (k j i k' j' i' : Int) : Prop where
  e1 : SameCell (m.ix1 = .periodic) (m.nmax1 (min L K) * d.nx1)
    (cellNo d.nx1 d.is d.cis L K p.x1 i) (cellNo d.nx1 d.is d.cis K L q.x1 i')
  e2 : SameCell (m.ix2 = .periodic) (m.nmax2 (min L K) * d.nx2)
    (cellNo d.nx2 d.js d.cjs L K p.x2 j) (cellNo d.nx2 d.js d.cjs K L q.x2 j')
  e3 : SameCell (m.ix3 = .periodic) (m.nmax3 (min L K) * d.nx3)
    (cellNo d.nx3 d.ks d.cks L K p.x3 k) (cellNo d.nx3 d.ks d.cks K L q.x3 k')

/-- The active cells of the array used by a block of level `L` in the exchange with level `K`. -/
def activeBox (d : Dims) (L K : Nat) : Box :=
  if K < L then ⟨d.cis, d.cie, d.cjs, d.cje, d.cks, d.cke⟩ else ⟨d.is, d.ie, d.js, d.je, d.ks, d.ke⟩

/-- All cells of that array (`ncells1` etc., `ncc1` etc., meshblock.cpp:65-88). -/
def arrayBox (d : Dims) (L K : Nat) : Box :=
  if K < L then ⟨0, d.nx1 / 2 + 2 * d.ng - 1, 0, if d.nx2 > 1 then d.nx2 / 2 + 2 * d.ng - 1 else 0,
    0, if d.nx3 > 1 then d.nx3 / 2 + 2 * d.ng - 1 else 0⟩
  else ⟨0, d.nx1 + 2 * d.ng - 1, 0, if d.nx2 > 1 then d.nx2 + 2 * d.ng - 1 else 0,
    0, if d.nx3 > 1 then d.nx3 + 2 * d.ng - 1 else 0⟩

/-- All cells of the box `b` belong to the box `c`. -/
def Box.In (b c : Box) : Prop := ∀ k j i, b.Has k j i → c.Has k j i

/-- The message sent by block `(L, p)` under its entry `e` fits what block `(K, q)` expects under its
entry `e'`; `nv` is the number of variables. -/
structure MessageOk (m : Mesh) (ml : Bool) (d : Dims) (nv : Int) (L : Nat) (p : Pos) (e : NI) (K : Nat)
    (q : Pos) (e' : NI) (B B' : Box) : Prop where
  /-- The same number of cells in every direction, so that the loops run in step. -/
  ext1 : B'.ei - B'.si = B.ei - B.si
  ext2 : B'.ej - B'.sj = B.ej - B.sj
  ext3 : B'.ek - B'.sk = B.ek - B.sk
  /-- Cells packed and unpacked at the same time are the same cell. -/
  place : ∀ k j i, B.Has k j i →
    SamePlace m d L p K q k j i (k - B.sk + B'.sk) (j - B.sj + B'.sj) (i - B.si + B'.si)
  /-- There is something to send. -/
  some : B.si ≤ B.ei ∧ B.sj ≤ B.ej ∧ B.sk ≤ B.ek
  /-- The boxes lie inside the arrays. -/
  src : B.In (arrayBox d L K)
  dst : B'.In (arrayBox d K L)
  /-- The receiver stores into ghost cells only. -/
  ghost : ∀ k j i, B'.Has k j i → ¬ (activeBox d K L).Has k j i
  /-- Lengths announced to MPI. -/
  ssize : (mpiSizes d m.f2 m.f3 nv L K e).1 = nv * B.count
  rsize : (mpiSizes d m.f2 m.f3 nv K L e').2 = nv * B.count
  /-- The message fits both buffers. -/
  sbuf : nv * B.count ≤ bufSize d ml nv e
  rbuf : nv * B.count ≤ bufSize d ml nv e'

/-- Cell `(k, j, i)` of the array lies beyond the active cells in direction `(o1, o2, o3)`. -/
structure Beyond (d : Dims) (k j i o1 o2 o3 : Int) : Prop where
  b1 : (i < d.is ∧ o1 = -1) ∨ ((d.is ≤ i ∧ i ≤ d.ie) ∧ o1 = 0) ∨ (d.ie < i ∧ o1 = 1)
  b2 : (j < d.js ∧ o2 = -1) ∨ ((d.js ≤ j ∧ j ≤ d.je) ∧ o2 = 0) ∨ (d.je < j ∧ o2 = 1)
  b3 : (k < d.ks ∧ o3 = -1) ∨ ((d.ks ≤ k ∧ k ≤ d.ke) ∧ o3 = 0) ∨ (d.ke < k ∧ o3 = 1)

/-- Location `(K, r)` is part of location `(L, q)`. -/
structure Inside (K : Nat) (r : Pos) (L : Nat) (q : Pos) : Prop where
  le : L ≤ K
  x1 : r.x1 / 2 ^ (K - L) = q.x1
  x2 : r.x2 / 2 ^ (K - L) = q.x2
  x3 : r.x3 / 2 ^ (K - L) = q.x3

/-- Beyond block `(L, p)` in direction `(o1, o2, o3)` there is a block of the same or a higher
level. -/
def Facing (m : Mesh) (t : Tree) (L : Nat) (p : Pos) (o1 o2 o3 : Int) : Prop :=
  ∃ q, Shift m L p o1 o2 o3 q ∧ ∃ K r g, (K, r, g) ∈ meshBlocks m t ∧ Inside K r L q

end Verif.Ghost
