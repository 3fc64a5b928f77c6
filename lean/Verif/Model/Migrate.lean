import Verif.Model.Tree

/-!
# `Mesh::RedistributeAndRefineMeshBlocks`: which data go where
(src/mesh/amr_loadbalance.cpp:350-660 and 1220-1360)

Arrays are lists; array reads are `getD` (that all indices are in range is part of the theorems).
Packing and unpacking of the buffers is modelled elsewhere.
-/
namespace Verif.Tree

/-- `CreateAMRMPITag(lid, ox1, ox2, ox3)` (amr_loadbalance.cpp:1477-1480); `o` is the location
whose parities are used. Integers are unbounded here. -/
def amrTag (lid : Nat) (o : Pos) : Nat :=
  (lid <<< 8) ||| ((o.x1 % 2) <<< 7) ||| ((o.x2 % 2) <<< 6) ||| ((o.x3 % 2) <<< 5)

/-- `CreateFaceFieldCorrectionMPITag(lid, face)` (amr_loadbalance.cpp:1490-1495). -/
def ffcTag (lid face : Nat) : Nat := (lid <<< 8) ||| (face <<< 5) ||| 1

/-- The loop filling `oldtonew` (amr_loadbalance.cpp:366-375). `prev` is `newtoold[n-1]`, the list
holds `newtoold[n..]`; the values are written to consecutive entries (`mb_idx++`). -/
def o2nGo (nleaf : Nat) : (prev n : Nat) → List Nat → List Nat
  | _, _, [] => []
  | prev, n, x :: xs =>
    if x = prev + 1 then n :: o2nGo nleaf x (n + 1) xs
    else if x = prev + nleaf then List.replicate (nleaf - 1) (n - 1) ++ n :: o2nGo nleaf x (n + 1) xs
    else o2nGo nleaf x (n + 1) xs

/-- `oldtonew` (amr_loadbalance.cpp:364-378). A result longer than `nbtold` would be a write beyond
the end of the array. -/
def oldToNew (nleaf : Nat) (newtoold : List Nat) (nbtold : Nat) : List Nat :=
  let l := 0 :: o2nGo nleaf (newtoold.headD 0) 1 newtoold.tail
  l ++ List.replicate (nbtold - l.length) (newtoold.length - 1)

/-- Which of the three buffer sizes `bssame`, `bsc2f`, `bsf2c` (and packing routines) is used, or
that of the face field correction for face direction `d`. -/
inductive MKind where
  | same | c2f | f2c | ffc (d : Nat)
deriving DecidableEq, Repr

/-- A message. `old` and `new` are the gids of the block whose data it carries and of the block it is
for; they are not transmitted. -/
structure Msg where
  src : Nat
  dst : Nat
  tag : Nat
  kind : MKind
  old : Nat
  new : Nat
deriving DecidableEq, Repr

/-- The data of the redistribution. `gids`, `nold`: first old gid and number of old blocks per
process; `nslist`, `nblist`: the same for the new blocks. -/
structure Regrid where
  nleaf : Nat
  loclist : List (Nat × Pos)
  newloc : List (Nat × Pos)
  newtoold : List Nat
  ranklist : Nat → Nat
  newrank : Nat → Nat
  gids : Nat → Nat
  nold : Nat → Nat
  nslist : Nat → Nat
  nblist : Nat → Nat

namespace Regrid
variable (x : Regrid)

def ol (n : Nat) : Nat × Pos := x.loclist.getD n (0, ⟨0, 0, 0⟩)
def nl (n : Nat) : Nat × Pos := x.newloc.getD n (0, ⟨0, 0, 0⟩)
def n2o (n : Nat) : Nat := x.newtoold.getD n 0
def o2n (n : Nat) : Nat := (oldToNew x.nleaf x.newtoold x.loclist.length).getD n 0

/-- Step 4 (amr_loadbalance.cpp:435-471): the receives posted by process `my`. -/
def recvs (my : Nat) : List Msg :=
  (List.range' (x.nslist my) (x.nblist my)).flatMap (fun n =>
    let on := x.n2o n
    if (x.ol on).1 > (x.nl n).1 then
      (List.range x.nleaf).flatMap (fun l =>
        if x.ranklist (on + l) = my then []
        else [⟨x.ranklist (on + l), my, amrTag (n - x.nslist my) (x.ol (on + l)).2, .f2c, on + l, n⟩])
    else if x.ranklist on = my then []
    else [⟨x.ranklist on, my, amrTag (n - x.nslist my) ⟨0, 0, 0⟩,
      if (x.ol on).1 = (x.nl n).1 then .same else .c2f, on, n⟩])

/-- Step 5 (amr_loadbalance.cpp:473-516): the messages sent by process `my`. -/
def sends (my : Nat) : List Msg :=
  (List.range' (x.gids my) (x.nold my)).flatMap (fun n =>
    let nn := x.o2n n
    if (x.nl nn).1 = (x.ol n).1 then
      (if x.newrank nn = my then []
       else [⟨my, x.newrank nn, amrTag (nn - x.nslist (x.newrank nn)) ⟨0, 0, 0⟩, .same, n, nn⟩])
    else if (x.nl nn).1 > (x.ol n).1 then
      (List.range x.nleaf).flatMap (fun l =>
        if x.newrank (nn + l) = my then []
        else [⟨my, x.newrank (nn + l), amrTag (nn + l - x.nslist (x.newrank (nn + l))) ⟨0, 0, 0⟩,
          .c2f, n, nn + l⟩])
    else
      (if x.newrank nn = my then []
       else [⟨my, x.newrank nn, amrTag (nn - x.nslist (x.newrank nn)) (x.ol n).2, .f2c, n, nn⟩]))

/-- Step 3 (amr_loadbalance.cpp:402-428): `nrecv`, the length of the receive arrays. -/
def nrecv (my : Nat) : Nat :=
  ((List.range' (x.nslist my) (x.nblist my)).map (fun n =>
    let on := x.n2o n
    if (x.ol on).1 > (x.nl n).1 then
      ((List.range x.nleaf).map (fun k => if x.ranklist (on + k) ≠ my then 1 else 0)).sum
    else if x.ranklist on ≠ my then 1 else 0)).sum

/-- Step 3: `nsend`, the length of the send arrays. -/
def nsend (my : Nat) : Nat :=
  ((List.range' (x.gids my) (x.nold my)).map (fun n =>
    let nn := x.o2n n
    if (x.ol n).1 < (x.nl nn).1 then
      ((List.range x.nleaf).map (fun k => if x.newrank (nn + k) ≠ my then 1 else 0)).sum
    else if x.newrank nn ≠ my then 1 else 0)).sum

/-- Step 6 (amr_loadbalance.cpp:525-565): data moved or copied inside process `my`: old gid, new
gid. -/
def locals (my : Nat) : List (Nat × Nat) :=
  (List.range' (x.nslist my) (x.nblist my)).flatMap (fun n =>
    let on := x.n2o n
    if x.ranklist on = my ∧ (x.ol on).1 = (x.nl n).1 then [(on, n)]
    else if (x.ol on).1 > (x.nl n).1 then
      (List.range x.nleaf).flatMap (fun l => if x.ranklist (on + l) ≠ my then [] else [(on + l, n)])
    else if (x.ol on).1 < (x.nl n).1 ∧ x.ranklist on = my then [(on, n)]
    else [])

/-- `refined_` (amr_loadbalance.cpp:386-387). -/
def refined : List Nat :=
  (List.range x.newloc.length).filter (fun n => (x.nl n).1 > (x.ol (x.n2o n)).1)

/-- One direction of Step FFC2 (amr_loadbalance.cpp:1252-1330): the old block on the outer side of
the refined block `n` in direction `d`, looked up in the hash map of old locations of that level. -/
def ffcOuter (m : Mesh) (n d : Nat) : Option Nat :=
  let b := x.nl n
  let wrap (inner outer : BFlag) (nx : Nat) (c : Nat) : Option Nat :=
    let c' : Int := c + (2 * (c % 2 : Nat) - 1)
    if c' < 0 then (if inner = .periodic then some (nx * 2 ^ (b.1 - m.rootLevel) - 1) else none)
    else if c' ≥ nx * 2 ^ (b.1 - m.rootLevel) then (if outer = .periodic then some 0 else none)
    else some c'.toNat
  let floc : Option Pos :=
    if d = 0 then (wrap m.ix1 m.ox1 m.nrbx1 b.2.x1).map (fun c => ⟨c, b.2.x2, b.2.x3⟩)
    else if d = 1 then (wrap m.ix2 m.ox2 m.nrbx2 b.2.x2).map (fun c => ⟨b.2.x1, c, b.2.x3⟩)
    else (wrap m.ix3 m.ox3 m.nrbx3 b.2.x3).map (fun c => ⟨b.2.x1, b.2.x2, c⟩)
  floc.bind (fun f => x.loclist.idxOf? (b.1, f))

/-- Parity of the coordinate in direction `d`. -/
def par (n d : Nat) : Nat :=
  (if d = 0 then (x.nl n).2.x1 else if d = 1 then (x.nl n).2.x2 else (x.nl n).2.x3) % 2

/-- The pairs found in Step FFC2: old block, new block, direction. -/
def ffcPairs (m : Mesh) : List (Nat × Nat × Nat) :=
  x.refined.flatMap (fun n =>
    ([0] ++ (if m.f2 then [1] else []) ++ (if m.f3 then [2] else [])).filterMap (fun d =>
      (x.ffcOuter m n d).map (fun i => (i, n, d))))

/-- Steps FFC2 and FFC4 (amr_loadbalance.cpp:1355-1365): messages sent. The entry stores the face of
the sender, `(xf^1) + 2*d`; the tag uses `face^1`. -/
def ffcSends (m : Mesh) (my : Nat) : List Msg :=
  ((x.ffcPairs m).filter (fun e => x.ranklist e.1 = my)).filterMap (fun (i, n, d) =>
    let face := (x.par n d ^^^ 1) + 2 * d
    if x.newrank n = my then none
    else some ⟨my, x.newrank n, ffcTag (n - x.nslist (x.newrank n)) (face ^^^ 1), .ffc d, i, n⟩)

/-- Steps FFC2 and FFC3 (amr_loadbalance.cpp:1317-1326): receives posted. -/
def ffcRecvs (m : Mesh) (my : Nat) : List Msg :=
  ((x.ffcPairs m).filter (fun e => x.newrank e.2.1 = my)).filterMap (fun (i, n, d) =>
    if x.ranklist i = my then none
    else some ⟨x.ranklist i, my, ffcTag (n - x.nslist (x.newrank n)) (x.par n d + 2 * d), .ffc d, i, n⟩)

end Regrid
end Verif.Tree
