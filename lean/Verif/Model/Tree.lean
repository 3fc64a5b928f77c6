/-!
# The MeshBlock tree (src/mesh/meshblock_tree.{hpp,cpp})

A node of the C++ tree is reached from the root by exactly one sequence of child indices, and its
`loc_` records that sequence.  The pointer tree is therefore modelled by an inductive tree, a
pointer to a node by its logical location, and a mutation of a node by replacing the subtree at its
location.  `Option` results: `none` is undefined behaviour (a null child is dereferenced).
-/
namespace Verif.Tree

/-- `BoundaryFlag` (athena.hpp / bvals_interfaces.hpp), the values that matter for the tree. -/
inductive BFlag where
  | block | reflect | outflow | user | periodic | polar | polarWedge | shearPeriodic
deriving DecidableEq, Repr

/-- The part of `Mesh` the tree reads: numbers of root-grid blocks `nrbx1..3`, `root_level`,
`f2`, `f3` and `mesh_bcs`. -/
structure Mesh where
  nrbx1 : Nat
  nrbx2 : Nat
  nrbx3 : Nat
  rootLevel : Nat
  f2 : Bool
  f3 : Bool
  ix1 : BFlag
  ox1 : BFlag
  ix2 : BFlag
  ox2 : BFlag
  ix3 : BFlag
  ox3 : BFlag
deriving DecidableEq, Repr

/-- `nleaf_` (meshblock_tree.cpp:88-92). -/
def Mesh.nleaf (m : Mesh) : Nat := if m.f3 then 8 else if m.f2 then 4 else 2

/-- `lx1, lx2, lx3` of a `LogicalLocation`; the level is passed separately. -/
structure Pos where
  x1 : Nat
  x2 : Nat
  x3 : Nat
deriving DecidableEq, Repr

/-- Position of the parent. -/
def Pos.half (p : Pos) : Pos := ⟨p.x1 / 2, p.x2 / 2, p.x3 / 2⟩

/-- `n = mx + (my<<1) + (mz<<2)` where `mx = ((rloc.lx1>>sh) & 1LL) == 1LL` etc.
(meshblock_tree.cpp:123-128). -/
def Pos.bitIdx (p : Pos) (sh : Nat) : Fin 8 :=
  ⟨p.x1 / 2 ^ sh % 2 + 2 * (p.x2 / 2 ^ sh % 2) + 4 * (p.x3 / 2 ^ sh % 2), by omega⟩

/-- Location of child `n` (constructor, meshblock_tree.cpp:61-67, with
`i = n&1, j = (n>>1)&1, k = (n>>2)&1`, lines 101, 174). -/
def Pos.child (p : Pos) (n : Fin 8) : Pos :=
  ⟨2 * p.x1 + n.val % 2, 2 * p.x2 + n.val / 2 % 2, 2 * p.x3 + n.val / 4 % 2⟩

/-- A `MeshBlockTree*`: a null pointer, a node with `pleaf_ == nullptr`, or a node with a
`pleaf_` array. The array has `nleaf_` entries; entries from `nleaf_` on are null here, so that
reading beyond the array is reported as a null dereference. -/
inductive Tree where
  | null
  | leaf (gid : Int)
  | node (gid : Int) (kid : Fin 8 → Tree)

/-- Child pointer `pleaf_[n]` of a node (null if there is no array). -/
def Tree.kid : Tree → Fin 8 → Tree
  | .node _ k, n => k n
  | _, _ => .null

/-- `MeshBlockTree::FindMeshBlock` (meshblock_tree.cpp:470-482) called on a node `L` levels above
the target: follow the bits of the location from the most significant one. -/
def Tree.get : Tree → (L : Nat) → Pos → Tree
  | t, 0, _ => t
  | t, L + 1, p => (t.kid (p.bitIdx L)).get L p

/-- Replace the subtree at location `(L, p)`: a mutation of the node at that location. Nothing
happens if there is no path to the location. -/
def Tree.put : Tree → (L : Nat) → Pos → Tree → Tree
  | _, 0, _, u => u
  | .node g k, L + 1, p, u =>
    .node g (fun n => if n = p.bitIdx L then (k n).put L p u else k n)
  | t, _ + 1, _, _ => t

/-- Tree and counter `nnew` / `ndel`. -/
structure St where
  tree : Tree
  cnt : Int

/-- `MeshBlockTree::CreateRootGrid` (meshblock_tree.cpp:87-110) for a node at level
`root_level - rem` with position `p`; `levfac = 1LL<<(root_level - level - 1)`. -/
def createRootGrid (m : Mesh) : (rem : Nat) → Pos → Tree
  | 0, _ => .leaf (-1)
  | rem + 1, p => .node (-1) (fun n =>
      if n.val < m.nleaf ∧ (p.child n).x3 * 2 ^ rem < m.nrbx3 ∧ (p.child n).x2 * 2 ^ rem < m.nrbx2
        ∧ (p.child n).x1 * 2 ^ rem < m.nrbx1
      then createRootGrid m rem (p.child n) else .null)

/-- The tree after `tree.CreateRootGrid()` in the `Mesh` constructor (mesh.cpp:309). -/
def rootGrid (m : Mesh) : Tree := createRootGrid m m.rootLevel ⟨0, 0, 0⟩

/-- `[min, max]` loop bounds of an offset. -/
def offs (on : Bool) : List Int := if on then [-1, 0, 1] else [0]

/-- `nxmax = nrbx << (level - root_level)` (meshblock_tree.cpp:183-191). `level ≥ root_level`
at every call; a negative shift would be undefined. -/
def Mesh.nmax1 (m : Mesh) (L : Nat) : Nat := m.nrbx1 * 2 ^ (L - m.rootLevel)
def Mesh.nmax2 (m : Mesh) (L : Nat) : Nat := if m.f2 then m.nrbx2 * 2 ^ (L - m.rootLevel) else 1
def Mesh.nmax3 (m : Mesh) (L : Nat) : Nat := if m.f3 then m.nrbx3 * 2 ^ (L - m.rootLevel) else 1

/-- Wrap of one coordinate in `Refine` for a direction that is not the polar angle
(meshblock_tree.cpp:194-206 and 233-245): `none` is `continue`. -/
def wrapDim (inner outer : BFlag) (n : Nat) (x : Int) : Option Nat :=
  if x < 0 then (if inner = .periodic then some (n - 1) else none)
  else if x ≥ n then (if outer = .periodic then some 0 else none)
  else some x.toNat

/-- Wrap of the second coordinate in `Refine` (meshblock_tree.cpp:208-229): the new `lx2` and
the `polar` flag. -/
def wrapDim2 (inner outer : BFlag) (n : Nat) (x : Int) : Option (Nat × Bool) :=
  if x < 0 then
    (if inner = .periodic then some (n - 1, false)
     else if inner = .polar then some (0, true) else none)
  else if x ≥ n then
    (if outer = .periodic then some (0, false)
     else if outer = .polar then some (n - 1, true) else none)
  else some (x.toNat, false)

/-- The `ox` loop of `Refine` (meshblock_tree.cpp:231-247): the locations passed to
`AddMeshBlock`. -/
def refineRow (m : Mesh) (L : Nat) (p : Pos) (oy oz : Int) (y z : Nat) : List Pos :=
  (offs true).filterMap (fun ox =>
    if ox = 0 ∧ oy = 0 ∧ oz = 0 then none
    else (wrapDim m.ix1 m.ox1 (m.nmax1 L) (p.x1 + ox)).map (fun x => ⟨x, y, z⟩))

/-- The `oy` loop of `Refine` (meshblock_tree.cpp:207-248). The loop variable `nloc.lx3` is set
before this loop and modified inside it (`if (polar) nloc.lx3=(nloc.lx3+nzmax/2)%nzmax`) without
being reset for the next `oy`: it is the accumulator `z`. -/
def refineCols (m : Mesh) (L : Nat) (p : Pos) (oz : Int) : List Int → (z : Nat) → List Pos
  | [], _ => []
  | oy :: rest, z =>
    match wrapDim2 m.ix2 m.ox2 (m.nmax2 L) (p.x2 + oy) with
    | none => refineCols m L p oz rest z
    | some (y, polar) =>
      let z' := if polar then (z + m.nmax3 L / 2) % m.nmax3 L else z
      refineRow m L p oy oz y z' ++ refineCols m L p oz rest z'

/-- All locations passed to `AddMeshBlock` by the loops of `Refine`
(meshblock_tree.cpp:193-249), in order. -/
def refineNbrs (m : Mesh) (L : Nat) (p : Pos) : List Pos :=
  (offs m.f3).flatMap (fun oz =>
    match wrapDim m.ix3 m.ox3 (m.nmax3 L) (p.x3 + oz) with
    | none => []
    | some z => refineCols m L p oz (offs m.f2) z)

/-- `gid_ = g` for the node at a location. -/
def Tree.setGid (t : Tree) (L : Nat) (p : Pos) (g : Int) : Tree :=
  match t.get L p with
  | .null => t
  | .leaf _ => t.put L p (.leaf g)
  | .node _ k => t.put L p (.node g k)

/-- `MeshBlockTree::Refine` (meshblock_tree.cpp:166-255) on the node at level `L`, position `p`.
`add` is `proot_->AddMeshBlock` for locations of level `L`. New children inherit `gid_`. -/
def refineWith (m : Mesh) (add : Pos → St → Option St) (L : Nat) (p : Pos) (s : St) : Option St :=
  match s.tree.get L p with
  | .null => none
  | .node _ _ => some s
  | .leaf g =>
    let s1 : St := ⟨s.tree.put L p (.node g (fun n => if n.val < m.nleaf then .leaf g else .null)),
      s.cnt⟩
    match (refineNbrs m L p).foldlM (fun s q => add q s) s1 with
    | none => none
    | some s2 => some ⟨s2.tree.setGid L p (-1), s2.cnt + (m.nleaf - 1 : Int)⟩

/-- `proot_->AddMeshBlock(rloc, nnew)` (meshblock_tree.cpp:116-132) for a location of level `L`.

The C++ function walks from the root to level `L`; at each level it refines the node on the path if
that is a leaf and then steps to the child, which must exist.  The walk to level `L+1` is the walk
to the parent location (level `L`) followed by one more step, which gives this recursion on the
level (`addMeshBlock_eq_walk` states the equivalence with the top-down walk). -/
def addMeshBlock (m : Mesh) : (L : Nat) → Pos → St → Option St
  | 0, _, s => some s
  | L + 1, p, s =>
    match addMeshBlock m L p.half s with
    | none => none
    | some s1 =>
      match refineWith m (addMeshBlock m L) L p.half s1 with
      | none => none
      | some s2 =>
        match s2.tree.get (L + 1) p with
        | .null => none
        | _ => some s2

/-- `bt->Refine(nnew)` on the node at a location. -/
def refine (m : Mesh) (L : Nat) (p : Pos) (s : St) : Option St :=
  refineWith m (addMeshBlock m L) L p s

/-- One step of `AddMeshBlockWithoutRefine` and the rest of the walk
(meshblock_tree.cpp:138-160), called on a non-null node `L` levels above the target. New nodes
inherit the gid of their parent. -/
def addWithoutRefine (p : Pos) : (L : Nat) → Tree → Tree
  | 0, t => t
  | _ + 1, .null => .null
  | L + 1, .leaf g => .node g (fun n =>
      if n = p.bitIdx L then addWithoutRefine p L (.leaf g) else .null)
  | L + 1, .node g k => .node g (fun n =>
      if n = p.bitIdx L then
        addWithoutRefine p L (match k n with | .null => .leaf g | t => t)
      else k n)

/-- The tree built by the restart constructor of `Mesh` (mesh.cpp:871-873): the root grid, then
every location of the stored list. -/
def rebuild (m : Mesh) (locs : List (Nat × Pos)) : Tree :=
  locs.foldl (fun t l => addWithoutRefine l.2 l.1 t) (rootGrid m)

/-- The child pointers in the order of the loops `for (int n=0; n<nleaf_; n++)`. -/
def Mesh.kids (m : Mesh) : List (Fin 8) := (List.finRange 8).take m.nleaf

/-- `MeshBlockTree::CountMeshBlock` (meshblock_tree.cpp:317-329). -/
def Tree.count (m : Mesh) : Tree → Nat
  | .null => 0
  | .leaf _ => 1
  | .node _ k => (m.kids.map (fun n => (k n).count m)).sum

/-- `list` and `pglist` written by `MeshBlockTree::GetMeshBlockList`
(meshblock_tree.cpp:336-352): level, position and old gid of the leaves, in depth-first order. -/
def Tree.blocks (m : Mesh) : Tree → (L : Nat) → Pos → List (Nat × Pos × Int)
  | .null, _, _ => []
  | .leaf g, L, p => [(L, p, g)]
  | .node _ k, L, p => m.kids.flatMap (fun n => (k n).blocks m (L + 1) (p.child n))

/-- The tree with the gids written by `GetMeshBlockList` (`gid_=count; count++`): the second
component is `count`. -/
def Tree.number (m : Mesh) : Tree → Nat → Tree × Nat
  | .null, c => (.null, c)
  | .leaf _, c => (.leaf c, c + 1)
  | .node g k, c =>
    let r := m.kids.foldl (fun (a : (Fin 8 → Tree) × Nat) n =>
      let u := (k n).number m a.2
      (fun i => if i = n then u.1 else a.1 i, u.2)) (k, c)
    (.node g r.1, r.2)

/-! ## FindNeighbor and Derefine -/

/-- Result of `FindNeighbor`. -/
inductive FN where
  /-- `return nullptr` without an error message -/
  | nothing
  /-- `ATHENA_ERROR` -/
  | fatal
  /-- pointer to the node at a location -/
  | found (L : Nat) (p : Pos)
deriving DecidableEq, Repr

/-- Wrap of `lx` in `FindNeighbor` (meshblock_tree.cpp:373-386). -/
def fnWrap1 (m : Mesh) (n : Nat) (x : Int) : Option Nat :=
  if x < 0 then
    (if m.ix1 = .periodic ∨ m.ix1 = .shearPeriodic then some (n - 1) else none)
  else if x ≥ n then
    (if m.ox1 = .periodic ∨ m.ox1 = .shearPeriodic then some 0 else none)
  else some x.toNat

/-- The descent of `FindNeighbor` from the root (meshblock_tree.cpp:424-447), for the location
`p` of level `ll`, on a node `rem` levels above it. -/
def descend (ll : Nat) (p : Pos) : (rem : Nat) → Tree → FN
  | 0, _ => .found ll p
  | rem + 1, .leaf _ => if rem = 0 then .found (ll - 1) p.half else .fatal
  | _ + 1, .null => .fatal
  | rem + 1, .node _ k =>
    match k (p.bitIdx rem) with
    | .null => .fatal
    | t => descend ll p rem t

/-- `MeshBlockTree::FindNeighbor` (meshblock_tree.cpp:362-464) with `bcs = mesh_bcs`.
`SearchAndSetNeighbors` passes the flags of the block instead; they agree with `mesh_bcs` on the
faces where the block touches the edge of the mesh, and only there are the flags read. -/
def findNeighbor (m : Mesh) (t : Tree) (L : Nat) (p : Pos) (o1 o2 o3 : Int) (amr : Bool) : FN :=
  match fnWrap1 m (m.nrbx1 * 2 ^ (L - m.rootLevel)) (p.x1 + o1),
        wrapDim2 m.ix2 m.ox2 (m.nrbx2 * 2 ^ (L - m.rootLevel)) (p.x2 + o2),
        wrapDim m.ix3 m.ox3 (m.nrbx3 * 2 ^ (L - m.rootLevel)) (p.x3 + o3) with
  | some x, some (y, polar), some z =>
    if L < 1 then .found 0 ⟨0, 0, 0⟩
    else
      let nz := m.nrbx3 * 2 ^ (L - m.rootLevel)
      let q : Pos := ⟨x, y, if polar then (z + nz / 2) % nz else z⟩
      match descend L q L t with
      | .found l q' =>
        if l = L then
          match t.get l q' with
          | .node _ k =>
            match k ⟨(if o1 < 0 then 1 else 0) + 2 * (if o2 < 0 then 1 else 0)
                + 4 * (if o3 < 0 then 1 else 0), by split <;> split <;> split <;> omega⟩ with
            | .leaf _ => .found l q'
            | .null => .fatal
            | .node _ _ => if amr then .found l q' else .fatal
          | _ => .found l q'
        else .found l q'
      | r => r
  | _, _, _ => .nothing

/-- Facing children of a neighbour in one direction (meshblock_tree.cpp:272-289):
`lis..lie` etc. -/
def facing (on : Bool) (o : Int) : List Nat :=
  if on then (if o = -1 then [1] else if o = 1 then [0] else [0, 1]) else [0]

/-- The loops over the facing children of a refined neighbour in `Derefine`
(meshblock_tree.cpp:290-297): `some false` if one of them is refined, `none` if a null child is
dereferenced before that. -/
def facingTest (m : Mesh) (k : Fin 8 → Tree) (o1 o2 o3 : Int) : Option Bool :=
  (facing m.f3 o3).foldlM (fun b lk => (facing m.f2 o2).foldlM (fun b lj =>
    (facing true o1).foldlM (fun b li =>
      match k (Fin.ofNat 8 (li + 2 * lj + 4 * lk)) with
      | .null => if b then none else some b
      | .leaf _ => some b
      | .node _ _ => some false) b) b) true

/-- The test of one direction in `Derefine` (meshblock_tree.cpp:268-299): `some true` continue,
`some false` return without derefining, `none` fatal error or null dereference. -/
def derefineTest (m : Mesh) (t : Tree) (L : Nat) (p : Pos) (o1 o2 o3 : Int) : Option Bool :=
  match findNeighbor m t L p o1 o2 o3 true with
  | .nothing => some true
  | .fatal => none
  | .found l q =>
    match t.get l q with
    | .node _ k =>
      facingTest m k o1 o2 o3
    | _ => some true

/-- `MeshBlockTree::Derefine` (meshblock_tree.cpp:261-311) on the node at a location. -/
def derefine (m : Mesh) (L : Nat) (p : Pos) (s : St) : Option St :=
  let dirs : List (Int × Int × Int) :=
    (offs m.f3).flatMap fun o3 => (offs m.f2).flatMap fun o2 => (offs true).map fun o1 => (o1, o2, o3)
  match dirs.foldlM (fun b o =>
      if b then derefineTest m s.tree L p o.1 o.2.1 o.2.2 else some false) true with
  | none => none
  | some false => some s
  | some true =>
    match s.tree.get L p with
    | .node _ k =>
      match k 0 with
      | .null => none
      | .leaf g => some ⟨s.tree.put L p (.leaf g), s.cnt + (m.nleaf - 1 : Int)⟩
      | .node g _ => some ⟨s.tree.put L p (.leaf g), s.cnt + (m.nleaf - 1 : Int)⟩
    | _ => none

end Verif.Tree
