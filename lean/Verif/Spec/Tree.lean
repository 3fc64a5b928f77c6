import Verif.Model.Tree

/-!
# Specification vocabulary for the MeshBlock tree

Geometry of logical locations, independent of the tree functions.  A location `(L, p)` of level `L`
is the box `[p.x * 2^-L, (p.x+1) * 2^-L]` in every active direction, in units in which the whole
tree has length one; the mesh is the box `[0, nrb * 2^-root_level]`.
-/
namespace Verif.Tree

/-- What the `Mesh` constructor guarantees (mesh.cpp:160-310): positive block counts, inactive
directions have one block, `root_level` is large enough, three dimensions imply two, and periodic
boundaries come in pairs (checked for active directions, mesh.cpp:201-228). -/
structure Mesh.Valid (m : Mesh) : Prop where
  pos1 : 0 < m.nrbx1
  pos2 : 0 < m.nrbx2
  pos3 : 0 < m.nrbx3
  le1 : m.nrbx1 ≤ 2 ^ m.rootLevel
  le2 : m.nrbx2 ≤ 2 ^ m.rootLevel
  le3 : m.nrbx3 ≤ 2 ^ m.rootLevel
  dim : m.f3 = true → m.f2 = true
  one2 : m.f2 = false → m.nrbx2 = 1
  one3 : m.f3 = false → m.nrbx3 = 1
  per1 : m.ix1 = .periodic ↔ m.ox1 = .periodic
  per2 : m.f2 = true → (m.ix2 = .periodic ↔ m.ox2 = .periodic)
  per3 : m.f3 = true → (m.ix3 = .periodic ↔ m.ox3 = .periodic)
  shear : m.ix1 = .shearPeriodic ↔ m.ox1 = .shearPeriodic

/-- The position fits level `L` (lies in the box of the root node). -/
def InRange (L : Nat) (p : Pos) : Prop := p.x1 < 2 ^ L ∧ p.x2 < 2 ^ L ∧ p.x3 < 2 ^ L

/-- One coordinate of a location of level `L` lies inside the mesh. -/
def DomDim (on : Bool) (n root L x : Nat) : Prop :=
  if on then x * 2 ^ root < n * 2 ^ L else x = 0

/-- The lower corner of the location lies inside the mesh. From the root level on this means that
the whole box lies inside. -/
structure Dom (m : Mesh) (L : Nat) (p : Pos) : Prop where
  d1 : DomDim true m.nrbx1 m.rootLevel L p.x1
  d2 : DomDim m.f2 m.nrbx2 m.rootLevel L p.x2
  d3 : DomDim m.f3 m.nrbx3 m.rootLevel L p.x3

/-- No polar boundary in the second direction. -/
def NoPolar (m : Mesh) : Prop := m.f2 = true → m.ix2 ≠ .polar ∧ m.ox2 ≠ .polar

/-- Extents in one direction of a level-`L` location `x` and a level-`K` location `y` intersect as
closed intervals, possibly after moving `y` by one period of the mesh. Unit: `2^-(L+K)`. -/
def TouchDim (per : Prop) (n root L x K y : Nat) : Prop :=
  ∃ s : Int, (s = 0 ∨ per ∧ (s = 1 ∨ s = -1)) ∧
    (x : Int) * 2 ^ K ≤ (y + 1) * 2 ^ L + s * (n * 2 ^ (L + K - root)) ∧
    (y : Int) * 2 ^ L + s * (n * 2 ^ (L + K - root)) ≤ (x + 1) * 2 ^ K

/-- The closed boxes of two locations share a point (face, edge or corner), also through periodic
boundaries. -/
structure Touch (m : Mesh) (L : Nat) (p : Pos) (K : Nat) (q : Pos) : Prop where
  t1 : TouchDim (m.ix1 = .periodic) m.nrbx1 m.rootLevel L p.x1 K q.x1
  t2 : m.f2 = true → TouchDim (m.ix2 = .periodic) m.nrbx2 m.rootLevel L p.x2 K q.x2
  t3 : m.f3 = true → TouchDim (m.ix3 = .periodic) m.nrbx3 m.rootLevel L p.x3 K q.x3

/-- The level-`M` cell `r` lies in the level-`L` location `p`. -/
structure Covers (L : Nat) (p : Pos) (M : Nat) (r : Pos) : Prop where
  le : L ≤ M
  lo1 : p.x1 * 2 ^ (M - L) ≤ r.x1
  hi1 : r.x1 < (p.x1 + 1) * 2 ^ (M - L)
  lo2 : p.x2 * 2 ^ (M - L) ≤ r.x2
  hi2 : r.x2 < (p.x2 + 1) * 2 ^ (M - L)
  lo3 : p.x3 * 2 ^ (M - L) ≤ r.x3
  hi3 : r.x3 < (p.x3 + 1) * 2 ^ (M - L)

/-- Morton (Z-order) number of a location of level `L`: the bits of the three coordinates
interleaved, `x3` most significant. -/
def morton : Nat → Pos → Nat
  | 0, _ => 0
  | L + 1, p => 8 * morton L ⟨p.x1 / 2, p.x2 / 2, p.x3 / 2⟩ + 4 * (p.x3 % 2) + 2 * (p.x2 % 2) + p.x1 % 2

/-- All cells of `(L, p)` come before all cells of `(K, q)` in Z-order. -/
def ZBefore (L : Nat) (p : Pos) (K : Nat) (q : Pos) : Prop :=
  (morton L p + 1) * 8 ^ K ≤ morton K q * 8 ^ L

/-- The list of MeshBlocks of a mesh, `loclist` with the old gids. -/
def meshBlocks (m : Mesh) (t : Tree) : List (Nat × Pos × Int) := t.blocks m 0 ⟨0, 0, 0⟩

/-- No shearing-periodic boundaries. -/
def NoShear (m : Mesh) : Prop := m.ix1 ≠ .shearPeriodic

/-- One step `o` in one direction with `n` cells leads from `x` to `y`. -/
structure Step (per : Prop) (n x : Nat) (o : Int) (y : Nat) : Prop where
  lt : y < n
  lo : -1 ≤ o
  hi : o ≤ 1
  eq : (x : Int) + o = y ∨ (per ∧ ((x : Int) + o = y - n ∨ (x : Int) + o = y + n))

/-- Location `q` is reached from `p` by the offset `(o1, o2, o3)`, through periodic boundaries if
necessary. -/
structure Shift (m : Mesh) (L : Nat) (p : Pos) (o1 o2 o3 : Int) (q : Pos) : Prop where
  off2 : m.f2 = false → o2 = 0
  off3 : m.f3 = false → o3 = 0
  s1 : Step (m.ix1 = .periodic) (m.nmax1 L) p.x1 o1 q.x1
  s2 : Step (m.ix2 = .periodic) (m.nmax2 L) p.x2 o2 q.x2
  s3 : Step (m.ix3 = .periodic) (m.nmax3 L) p.x3 o3 q.x3

/-- Directions `(o1, o2, o3)` of the loops over neighbours. -/
structure Dir (m : Mesh) (o1 o2 o3 : Int) : Prop where
  o1 : o1 ∈ offs true
  o2 : o2 ∈ offs m.f2
  o3 : o3 ∈ offs m.f3

/-- Child `n` of the neighbour in direction `o` touches the side we look from. -/
structure Face (o1 o2 o3 : Int) (n : Fin 8) : Prop where
  a1 : o1 = -1 → n.val % 2 = 1
  b1 : o1 = 1 → n.val % 2 = 0
  a2 : o2 = -1 → n.val / 2 % 2 = 1
  b2 : o2 = 1 → n.val / 2 % 2 = 0
  a3 : o3 = -1 → n.val / 4 % 2 = 1
  b3 : o3 = 1 → n.val / 4 % 2 = 0

/-- Trees and counters reachable by the calls made by the mesh code: `CreateRootGrid`
(mesh.cpp:309), `AddMeshBlock` for locations inside the mesh (mesh.cpp:457-477), `Refine` of an
existing node and `Derefine` of a refined node not coarser than the root grid
(amr_loadbalance.cpp:290-309), and `GetMeshBlockList`, which renumbers.  Counters are local
variables: `number` and `recount` (a new counter variable is used) may reset them.  Derefinement with shearing-periodic boundaries is a fatal
error (bvals.cpp:277-281). -/
inductive Reach (m : Mesh) : St → Prop
  | start (c : Int) : Reach m ⟨rootGrid m, c⟩
  | add {s s' : St} {L : Nat} {p : Pos} : Reach m s → Dom m L p → addMeshBlock m L p s = some s' →
      Reach m s'
  | refine {s s' : St} {L : Nat} {p : Pos} : Reach m s → Dom m L p → s.tree.get L p ≠ .null →
      refine m L p s = some s' → Reach m s'
  | derefine {s s' : St} {L : Nat} {p : Pos} {g : Int} {k : Fin 8 → Tree} : Reach m s → NoShear m →
      Dom m L p → m.rootLevel ≤ L → s.tree.get L p = .node g k → derefine m L p s = some s' →
      Reach m s'
  | number {s : St} (c : Int) : Reach m s → Reach m ⟨(s.tree.number m 0).1, c⟩
  | recount {s : St} (c : Int) : Reach m s → Reach m ⟨s.tree, c⟩

/-- Trees reachable without derefinement (static refinement). -/
inductive ReachR (m : Mesh) : St → Prop
  | start (c : Int) : ReachR m ⟨rootGrid m, c⟩
  | add {s s' : St} {L : Nat} {p : Pos} : ReachR m s → Dom m L p → addMeshBlock m L p s = some s' →
      ReachR m s'
  | refine {s s' : St} {L : Nat} {p : Pos} : ReachR m s → Dom m L p → s.tree.get L p ≠ .null →
      refine m L p s = some s' → ReachR m s'
  | number {s : St} (c : Int) : ReachR m s → ReachR m ⟨(s.tree.number m 0).1, c⟩

/-- Extents in the azimuthal direction intersect after moving `y` by half a period. Unit:
`2^-(L+K+1)`. -/
def HalfTouch (n root L x K y : Nat) : Prop :=
  ∃ s : Int, (s = 1 ∨ s = -1) ∧
    2 * ((x : Int) * 2 ^ K) ≤ 2 * ((y + 1) * 2 ^ L) + s * (n * 2 ^ (L + K - root)) ∧
    2 * ((y : Int) * 2 ^ L) + s * (n * 2 ^ (L + K - root)) ≤ 2 * ((x + 1) * 2 ^ K)

/-- Two locations at the outer pole (x2) touch across the pole: same radius range, longitudes
opposite. -/
structure PoleTouch (m : Mesh) (L : Nat) (p : Pos) (K : Nat) (q : Pos) : Prop where
  on3 : m.f3 = true
  t1 : TouchDim (m.ix1 = .periodic) m.nrbx1 m.rootLevel L p.x1 K q.x1
  row : (p.x2 + 1) * 2 ^ m.rootLevel = m.nrbx2 * 2 ^ L
  row' : (q.x2 + 1) * 2 ^ m.rootLevel = m.nrbx2 * 2 ^ K
  t3 : HalfTouch m.nrbx3 m.rootLevel L p.x3 K q.x3

/-- A sequence of `Refine` calls. -/
inductive RefineStar (m : Mesh) : St → St → Prop
  | refl (s : St) : RefineStar m s s
  | step {s s1 s' : St} {L : Nat} {p : Pos} : RefineStar m s s1 → Dom m L p →
      s1.tree.get L p ≠ .null → refine m L p s1 = some s' → RefineStar m s s'

/-- A sequence of `Derefine` calls. -/
inductive DerefineStar (m : Mesh) : St → St → Prop
  | refl (s : St) : DerefineStar m s s
  | step {s s1 s' : St} {L : Nat} {p : Pos} {g : Int} {k : Fin 8 → Tree} : DerefineStar m s s1 →
      Dom m L p → m.rootLevel ≤ L → s1.tree.get L p = .node g k → derefine m L p s1 = some s' →
      DerefineStar m s s'

end Verif.Tree
