import Verif.Model.Tree

/-!
# Neighbour lists and buffer slots (src/bvals/bvals_base.cpp)

`BoundaryBase::BufferID`, `FindBufferID`, `CreateBufferID`, `CreateBvalsMPITag` and
`SearchAndSetNeighbors`.
-/
namespace Verif.Tree

/-- `NeighborIndexes` without `type` (bvals_interfaces.hpp); the type follows from the number of
nonzero offsets. -/
structure NI where
  ox1 : Int
  ox2 : Int
  ox3 : Int
  fi1 : Nat
  fi2 : Nat
deriving DecidableEq, Repr

/-- `CreateBufferID` (bvals_base.cpp:140-148). -/
def createBufferID (a : NI) : Nat :=
  ((a.ox1 + 1).toNat <<< 6) ||| ((a.ox2 + 1).toNat <<< 4) ||| ((a.ox3 + 1).toNat <<< 2) |||
    (a.fi1 <<< 1) ||| a.fi2

/-- `CreateBvalsMPITag` (bvals_base.cpp:289-291). Integers are unbounded here. -/
def bvalsTag (lid bufid phys : Nat) : Nat := (lid <<< 11) ||| (bufid <<< 5) ||| phys

/-- `for (int n=-1; n<=1; n+=2)`. -/
def pm : List Int := [-1, 1]

/-- `nf1`, `nf2` (bvals_base.cpp:156-160 and 312-316; `dim >= 2` is `f2`, `dim >= 3` is `f3`, and
these agree with `block_size_.nx2 > 1`, `block_size_.nx3 > 1`). -/
def nf1 (f2 ml : Bool) : Nat := if ml && f2 then 2 else 1
@[inherit_doc nf1] def nf2 (f3 ml : Bool) : Nat := if ml && f3 then 2 else 1

/-- The array `ni` filled by `BufferID(dim, multilevel)` (bvals_base.cpp:155-251); its length is
`maxneighbor_`. -/
def niList (f2 f3 ml : Bool) : List NI :=
  let r1 := List.range (nf1 f2 ml)
  let r2 := List.range (nf2 f3 ml)
  (pm.flatMap fun n => r2.flatMap fun b => r1.map fun a => ⟨n, 0, 0, a, b⟩) ++
  (if f2 then pm.flatMap fun n => r2.flatMap fun b => r1.map fun a => ⟨0, n, 0, a, b⟩ else []) ++
  (if f3 then pm.flatMap fun n => r2.flatMap fun b => r1.map fun a => ⟨0, 0, n, a, b⟩ else []) ++
  (if f2 then pm.flatMap fun m => pm.flatMap fun n => r2.map fun a => ⟨n, m, 0, a, 0⟩ else []) ++
  (if f3 then
    (pm.flatMap fun m => pm.flatMap fun n => r1.map fun a => ⟨n, 0, m, a, 0⟩) ++
    (pm.flatMap fun m => pm.flatMap fun n => r1.map fun a => ⟨0, n, m, a, 0⟩) ++
    (pm.flatMap fun l => pm.flatMap fun m => pm.map fun n => ⟨n, m, l, 0, 0⟩)
   else [])

/-- The array `bufid` (bvals_base.cpp:253-254). -/
def bufids (f2 f3 ml : Bool) : List Nat := (niList f2 f3 ml).map createBufferID

/-- `FindBufferID` (bvals_base.cpp:264-271): -1 if there is no such buffer. -/
def findBufferID (f2 f3 ml : Bool) (a : NI) : Int :=
  match (bufids f2 f3 ml).idxOf? (createBufferID a) with
  | some i => i
  | none => -1

/-- `NeighborBlock` as set by `SetNeighbor` (bvals_base.cpp:43-70). The rank and the local id are
`ranklist[gid]` and `gid - nslist[ranklist[gid]]`; `fid` and `eid` follow from the offsets. -/
structure Entry where
  level : Nat
  gid : Int
  ni : NI
  bufid : Nat
  targetid : Int
  polar : Bool
  shear : Bool
deriving DecidableEq, Repr

/-- What one passage through the body of one of the loops of `SearchAndSetNeighbors` uses: the
direction, the number of buffer ids it consumes, the children looked at if the neighbour is refined
(`GetLeaf` index, `fi1`, `fi2`), the target ids and flags for a finer, equal and coarser neighbour,
and the condition under which a coarser neighbour is entered. -/
structure Visit where
  o1 : Int
  o2 : Int
  o3 : Int
  width : Nat
  fine : List (Fin 8 × Nat × Nat)
  tFine : Int
  tSame : Int
  tCoarse : Int
  okCoarse : Bool
  polFine : Bool
  polSame : Bool
  polCoarse : Bool
  shear : Bool

/-- Index of `GetLeaf(a, b, c)` (meshblock_tree.hpp:43-44). -/
def leafIdx (a b c : Nat) : Fin 8 := Fin.ofNat 8 (a + 2 * b + 4 * c)

/-- `1 - (n + 1)/2`: 0 for n = 1, 1 for n = -1 (bvals_base.cpp:332). -/
def ff (n : Int) : Nat := if n = 1 then 0 else 1

/-- What `SearchAndSetNeighbors` reads apart from the tree: dimensions, `multilevel`, the parities
`myfx1..3` of the location (bvals_base.cpp:305-310), and whether the flags of the block at the inner
and outer x2 face are `polar` and those at the x1 faces `shear_periodic`. -/
structure SCfg where
  f2 : Bool
  f3 : Bool
  ml : Bool
  b1 : Bool
  b2 : Bool
  b3 : Bool
  pi : Bool
  po : Bool
  si : Bool
  so : Bool
deriving DecidableEq

namespace SCfg
variable (c : SCfg)

/-- `FindBufferID` with the offsets and child indices given. -/
def find (o1 o2 o3 : Int) (f1 f2 : Nat) : Int := findBufferID c.f2 c.f3 c.ml ⟨o1, o2, o3, f1, f2⟩
/-- `myox1` etc. equal to `n` (bvals_base.cpp:308-310). -/
def myox (b : Bool) (n : Int) : Bool := decide ((if b then (1 : Int) else -1) = n)
/-- The test for a shearing boundary in direction `n` (bvals_base.cpp:355-357). -/
def sh (n : Int) : Bool := (n = -1 && c.si) || (n = 1 && c.so)
/-- The test for a polar boundary in direction `n` (bvals_base.cpp:397-398). -/
def po' (n : Int) : Bool := (n = -1 && c.pi) || (n = 1 && c.po)
/-- `polar ? n : -n`. -/
def flip (p : Bool) (n : Int) : Int := if p then n else -n

/-- x1 faces (bvals_base.cpp:328-368). -/
def x1 (n : Int) : Visit where
  o1 := n; o2 := 0; o3 := 0
  width := nf1 c.f2 c.ml * nf2 c.f3 c.ml
  fine := (List.range (nf2 c.f3 c.ml)).flatMap fun f2 => (List.range (nf1 c.f2 c.ml)).map fun f1 =>
    (leafIdx (ff n) f1 f2, f1, f2)
  tFine := c.find (-n) 0 0 0 0
  tSame := c.find (-n) 0 0 0 0
  tCoarse := c.find (-n) 0 0 c.b2.toNat c.b3.toNat
  okCoarse := true
  polFine := false; polSame := false; polCoarse := false
  shear := c.sh n

/-- x2 faces (bvals_base.cpp:372-410). -/
def x2 (n : Int) : Visit where
  o1 := 0; o2 := n; o3 := 0
  width := nf1 c.f2 c.ml * nf2 c.f3 c.ml
  fine := (List.range (nf2 c.f3 c.ml)).flatMap fun f2 => (List.range (nf1 c.f2 c.ml)).map fun f1 =>
    (leafIdx f1 (ff n) f2, f1, f2)
  tFine := c.find 0 (-n) 0 0 0
  tSame := c.find 0 (flip (c.po' n) n) 0 0 0
  tCoarse := c.find 0 (-n) 0 c.b1.toNat c.b3.toNat
  okCoarse := true
  polFine := false; polSame := c.po' n; polCoarse := false
  shear := false

/-- x3 faces (bvals_base.cpp:414-447). -/
def x3 (n : Int) : Visit where
  o1 := 0; o2 := 0; o3 := n
  width := nf1 c.f2 c.ml * nf2 c.f3 c.ml
  fine := (List.range (nf2 c.f3 c.ml)).flatMap fun f2 => (List.range (nf1 c.f2 c.ml)).map fun f1 =>
    (leafIdx f1 f2 (ff n), f1, f2)
  tFine := c.find 0 0 (-n) 0 0
  tSame := c.find 0 0 (-n) 0 0
  tCoarse := c.find 0 0 (-n) c.b1.toNat c.b2.toNat
  okCoarse := true
  polFine := false; polSame := false; polCoarse := false
  shear := false

/-- x1x2 edges (bvals_base.cpp:451-504). -/
def x12 (m n : Int) : Visit where
  o1 := n; o2 := m; o3 := 0
  width := nf2 c.f3 c.ml
  fine := (List.range (nf2 c.f3 c.ml)).map fun f1 =>
    (leafIdx (ff n) (if c.po' m then 1 - ff m else ff m) f1, f1, 0)
  tFine := c.find (-n) (flip (c.po' m) m) 0 0 0
  tSame := c.find (-n) (flip (c.po' m) m) 0 0 0
  tCoarse := c.find (-n) (flip (c.po' m) m) 0 c.b3.toNat 0
  okCoarse := myox c.b1 n && myox c.b2 m
  polFine := c.po' m; polSame := c.po' m; polCoarse := c.po' m
  shear := c.sh n

/-- x1x3 edges (bvals_base.cpp:604-649). -/
def x13 (m n : Int) : Visit where
  o1 := n; o2 := 0; o3 := m
  width := nf1 c.f2 c.ml
  fine := (List.range (nf1 c.f2 c.ml)).map fun f1 => (leafIdx (ff n) f1 (ff m), f1, 0)
  tFine := c.find (-n) 0 (-m) 0 0
  tSame := c.find (-n) 0 (-m) 0 0
  tCoarse := c.find (-n) 0 (-m) c.b2.toNat 0
  okCoarse := myox c.b1 n && myox c.b3 m
  polFine := false; polSame := false; polCoarse := false
  shear := c.sh n

/-- x2x3 edges (bvals_base.cpp:652-695). -/
def x23 (m n : Int) : Visit where
  o1 := 0; o2 := n; o3 := m
  width := nf1 c.f2 c.ml
  fine := (List.range (nf1 c.f2 c.ml)).map fun f1 => (leafIdx f1 (ff n) (ff m), f1, 0)
  tFine := c.find 0 (-n) (-m) 0 0
  tSame := c.find 0 (flip (c.po' n) n) (-m) 0 0
  tCoarse := c.find 0 (-n) (-m) c.b1.toNat 0
  okCoarse := myox c.b2 n && myox c.b3 m
  polFine := false; polSame := c.po' n; polCoarse := false
  shear := false

/-- Corners (bvals_base.cpp:698-738). -/
def x123 (l m n : Int) : Visit where
  o1 := n; o2 := m; o3 := l
  width := 1
  fine := [(leafIdx (ff n) (if c.po' m then 1 - ff m else ff m) (ff l), 0, 0)]
  tFine := c.find (-n) (flip (c.po' m) m) (-l) 0 0
  tSame := c.find (-n) (flip (c.po' m) m) (-l) 0 0
  tCoarse := c.find (-n) (flip (c.po' m) m) (-l) 0 0
  okCoarse := myox c.b1 n && myox c.b2 m && myox c.b3 l
  polFine := c.po' m; polSame := c.po' m; polCoarse := c.po' m
  shear := c.sh n

/-- All loop passages of `SearchAndSetNeighbors` in order; the early returns are lines 369 and
601. -/
def visits : List Visit :=
  pm.map c.x1 ++
  if c.f2 then
    pm.map c.x2 ++ (if c.f3 then pm.map c.x3 else []) ++
    (pm.flatMap fun m => pm.map fun n => c.x12 m n) ++
    if c.f3 then
      (pm.flatMap fun m => pm.map fun n => c.x13 m n) ++
      (pm.flatMap fun m => pm.map fun n => c.x23 m n) ++
      (pm.flatMap fun l => pm.flatMap fun m => pm.map fun n => c.x123 l m n)
    else []
  else []

end SCfg

/-- `gid_` of a node. -/
def Tree.gid? : Tree → Option Int
  | .null => none
  | .leaf g => some g
  | .node g _ => some g

/-- One passage: the entries made in `neighbor[]`, `bid` being the value of `bufid` at its start.
`none`: fatal error in `FindNeighbor` or a null child is dereferenced. -/
def Visit.run (v : Visit) (m : Mesh) (t : Tree) (L : Nat) (p : Pos) (bid : Nat) :
    Option (List Entry) :=
  match findNeighbor m t L p v.o1 v.o2 v.o3 false with
  | .nothing => some []
  | .fatal => none
  | .found l q =>
    match t.get l q with
    | .null => none
    | .node _ k => (v.fine.zipIdx).mapM fun x =>
        ((k x.1.1).gid?).map fun g =>
          ⟨l + 1, g, ⟨v.o1, v.o2, v.o3, x.1.2.1, x.1.2.2⟩, bid + x.2, v.tFine, v.polFine, false⟩
    | .leaf g =>
      if l = L then some [⟨l, g, ⟨v.o1, v.o2, v.o3, 0, 0⟩, bid, v.tSame, v.polSame, v.shear⟩]
      else if v.okCoarse then
        some [⟨l, g, ⟨v.o1, v.o2, v.o3, 0, 0⟩, bid, v.tCoarse, v.polCoarse, false⟩]
      else some []

/-- The loops: `bufid` advances by the width of each passage. -/
def runAll (m : Mesh) (t : Tree) (L : Nat) (p : Pos) : (bid : Nat) → List Visit → Option (List Entry)
  | _, [] => some []
  | bid, v :: vs =>
    match v.run m t L p bid with
    | none => none
    | some es => (runAll m t L p (bid + v.width) vs).map (es ++ ·)

/-- Flag of the block at the inner x2 face (mesh.cpp:2010-2033) and at the outer one, and at the x1
faces (1991-2006): the flag of the mesh at its edges, else `block`. -/
def blockIx2 (m : Mesh) (p : Pos) : BFlag := if !m.f2 || p.x2 = 0 then m.ix2 else .block
@[inherit_doc blockIx2] def blockOx2 (m : Mesh) (L : Nat) (p : Pos) : BFlag :=
  if !m.f2 || p.x2 + 1 = m.nrbx2 * 2 ^ (L - m.rootLevel) then m.ox2 else .block
@[inherit_doc blockIx2] def blockIx1 (m : Mesh) (p : Pos) : BFlag :=
  if p.x1 = 0 then m.ix1 else .block
@[inherit_doc blockIx2] def blockOx1 (m : Mesh) (L : Nat) (p : Pos) : BFlag :=
  if p.x1 + 1 = m.nrbx1 * 2 ^ (L - m.rootLevel) then m.ox1 else .block

/-- The configuration read for the block at `(L, p)`. -/
def scfg (m : Mesh) (ml : Bool) (L : Nat) (p : Pos) : SCfg where
  f2 := m.f2; f3 := m.f3; ml := ml
  b1 := decide (p.x1 % 2 = 1); b2 := decide (p.x2 % 2 = 1); b3 := decide (p.x3 % 2 = 1)
  pi := blockIx2 m p = .polar
  po := blockOx2 m L p = .polar
  si := blockIx1 m p = .shearPeriodic
  so := blockOx1 m L p = .shearPeriodic

/-- The search for the azimuthal neighbours at a pole (bvals_base.cpp:507-600): true if all of them
are blocks of the same level (`FindMeshBlock` is not null and has a nonnegative gid), otherwise the
run ends with an error. The list of polar neighbours itself is not modelled. -/
def polarOk (m : Mesh) (t : Tree) (L : Nat) (p : Pos) (flag : BFlag) : Bool :=
  if m.f2 && (flag = .polar || flag = .polarWedge) then
    (List.range (if m.f3 then m.nrbx3 * 2 ^ (L - m.rootLevel) else 1)).all fun n =>
      match (t.get L ⟨p.x1, p.x2, n⟩).gid? with
      | some g => decide (0 ≤ g)
      | none => false
  else true

/-- `SearchAndSetNeighbors` (bvals_base.cpp:301-740): the list `neighbor[0 .. nneighbor-1]`; `none` if
the run is stopped by an error. `nblevel` is not modelled. -/
def searchNeighbors (m : Mesh) (ml : Bool) (t : Tree) (L : Nat) (p : Pos) : Option (List Entry) :=
  match runAll m t L p 0 (scfg m ml L p).visits with
  | none => none
  | some es =>
    if polarOk m t L p (blockIx2 m p) && polarOk m t L p (blockOx2 m L p) then some es else none

end Verif.Tree
