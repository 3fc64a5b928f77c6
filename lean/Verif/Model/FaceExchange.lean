import Verif.Model.EmfExchange

/-!
# Exchange of face-centered fields between blocks of one level

Model of `LoadBoundaryBufferSameLevel`, `SetBoundarySameLevel` and `ComputeVariableBufferSize` of
src/bvals/fc/bvals_fc.cpp in three dimensions, without poles and without a shearing box, for blocks
of one level.  The mesh may be declared `multilevel`; that changes the messages.
-/

namespace Verif.FaceEx

open Verif.Arr (rng)
open Verif.Grid (Dims)
open Verif.Emf (Pos Loc Mesh shiftLoc)

/-- The elements of `x1f`, `x2f`, `x3f` of a block: component and `(k, j, i)`. -/
abbrev Faces (K : Type) := Pos → K

/-- First and last index of a loop. -/
abbrev Iv := Int × Int

/-- A direction along which the component has one number per cell, sender: bvals_fc.cpp:354-359,
369-371, 382-384. -/
def cellLoad (s e ng o : Int) : Iv :=
  if o = 0 then (s, e) else if o > 0 then (e - ng + 1, e) else (s, s + ng - 1)

/-- The direction of the component, sender: bvals_fc.cpp:351-353 with 361-365, 372-379, 385-392;
`x` if the message has the overlapping faces. -/
def faceLoad (s e ng : Int) (x : Bool) (o : Int) : Iv :=
  if o = 0 then (s, e + 1)
  else if o > 0 then (e - ng + 1, if x then e + 1 else e)
  else (if x then s else s + 1, s + ng)

/-- As `cellLoad`, receiver: bvals_fc.cpp:594-599, 620-622, 651-653. -/
def cellSet (s e ng o : Int) : Iv :=
  if o = 0 then (s, e) else if o > 0 then (e + 1, e + ng) else (s - ng, s - 1)

/-- As `faceLoad`, receiver: bvals_fc.cpp:591-593 with 601-605, 623-631, 654-662. -/
def faceSet (s e ng : Int) (x : Bool) (o : Int) : Iv :=
  if o = 0 then (s, e + 1)
  else if o > 0 then (if x then e + 1 else e + 2, e + ng + 1)
  else (s - ng, if x then s else s - 1)

/-- `nb.ni.type != NeighborConnect::face`: more than one offset is not zero. -/
def notFace (o : Loc) : Bool :=
  (o.1 != 0 && o.2.1 != 0) || (o.1 != 0 && o.2.2 != 0) || (o.2.1 != 0 && o.2.2 != 0)

/-- `PackData`, `UnpackData`: the order of the loops, buffer_utils.cpp. -/
def box (c : Fin 3) (k j i : Iv) : List Pos :=
  (rng k.1 k.2).flatMap fun z => (rng j.1 j.2).flatMap fun y => (rng i.1 i.2).map fun x => (c, z, y, x)

variable (d : Dims) (ml : Bool)

/-- `LoadBoundaryBufferSameLevel`, bvals_fc.cpp:344-397. -/
def loadPos (o : Loc) : List Pos :=
  let x := ml && notFace o
  box 0 (cellLoad d.ks d.ke d.ng o.2.2) (cellLoad d.js d.je d.ng o.2.1)
    (faceLoad d.is d.ie d.ng x o.1) ++
  box 1 (cellLoad d.ks d.ke d.ng o.2.2) (faceLoad d.js d.je d.ng x o.2.1)
    (cellLoad d.is d.ie d.ng o.1) ++
  box 2 (faceLoad d.ks d.ke d.ng x o.2.2) (cellLoad d.js d.je d.ng o.2.1)
    (cellLoad d.is d.ie d.ng o.1)

/-- `SetBoundarySameLevel`, bvals_fc.cpp:583-684. -/
def setPos (o : Loc) : List Pos :=
  let x := ml && notFace o
  box 0 (cellSet d.ks d.ke d.ng o.2.2) (cellSet d.js d.je d.ng o.2.1)
    (faceSet d.is d.ie d.ng x o.1) ++
  box 1 (cellSet d.ks d.ke d.ng o.2.2) (faceSet d.js d.je d.ng x o.2.1)
    (cellSet d.is d.ie d.ng o.1) ++
  box 2 (faceSet d.ks d.ke d.ng x o.2.2) (cellSet d.js d.je d.ng o.2.1)
    (cellSet d.is d.ie d.ng o.1)

/-- The offsets of the neighbors on a level. -/
def offsets : List Loc :=
  [-1, 0, 1].flatMap fun c => [-1, 0, 1].flatMap fun b => ([-1, 0, 1] : List Int).filterMap fun a =>
    if a = 0 ∧ b = 0 ∧ c = 0 then none else some (a, b, c)

/-- How a block appears from its neighbor. -/
def opp (o : Loc) : Loc := (-o.1, -o.2.1, -o.2.2)

variable {K : Type}

/-- `b(k,j,i) = buf[p++]` over the loops. -/
def write (ps : List Pos) (buf : List K) (b : Faces K) : Faces K :=
  (ps.zip buf).foldl (fun b q => Function.update b q.1 q.2) b

/-- The faces of block `l` after `SetBoundaries`, bvals_fc.cpp:978-991: the messages of the neighbors
in some order (`order`; the one of the neighbor list is not needed). -/
def exchange (M : Mesh) (order : List Loc) (b : Loc → Faces K) (l : Loc) : Faces K :=
  order.foldl (fun e o => if M (shiftLoc l o) then
    write (setPos d ml o) ((loadPos d ml (opp o)).map (b (shiftLoc l o))) e else e) (b l)

/-- `ComputeVariableBufferSize` as far as messages of one level go, bvals_fc.cpp:235-268, in three
dimensions; the maximum with the sizes for other levels can only make it larger. -/
def bufSize (o : Loc) : Int :=
  let s1 := (if o.1 = 0 then d.nx1 + 1 else d.ng) * (if o.2.1 = 0 then d.nx2 else d.ng) *
    (if o.2.2 = 0 then d.nx3 else d.ng)
  let s2 := (if o.1 = 0 then d.nx1 else d.ng) * (if o.2.1 = 0 then d.nx2 + 1 else d.ng) *
    (if o.2.2 = 0 then d.nx3 else d.ng)
  let s3 := (if o.1 = 0 then d.nx1 else d.ng) * (if o.2.1 = 0 then d.nx2 else d.ng) *
    (if o.2.2 = 0 then d.nx3 + 1 else d.ng)
  if ml && notFace o then
    (if o.1 ≠ 0 then s1 / d.ng * (d.ng + 1) else s1) +
    (if o.2.1 ≠ 0 then s2 / d.ng * (d.ng + 1) else s2) +
    (if o.2.2 ≠ 0 then s3 / d.ng * (d.ng + 1) else s3)
  else s1 + s2 + s3

end Verif.FaceEx
