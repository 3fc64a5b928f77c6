import Verif.Model.Refine
import Verif.Model.Neighbors

/-!
Ghost-zone messages of cell-centred variables: which cells are packed, which are unpacked, how long
the messages and buffers are (src/bvals/cc/bvals_cc.cpp, src/bvals/bvals_var.cpp).

The variables `nl_..nu_` are an outer loop of packing and unpacking; the boxes below are the index
ranges of the three inner loops. Entries with `polar` set, whose `j` loop runs backwards, are not
modelled.
-/
namespace Verif.Ghost
open Verif.Grid Verif.Tree

/-- The arguments `si, ei, sj, ej, sk, ek` of `PackData` and `UnpackData`. -/
structure Box where
  si : Int
  ei : Int
  sj : Int
  ej : Int
  sk : Int
  ek : Int
deriving DecidableEq, Repr

/-- `cnghost` (meshblock.cpp:92). -/
def cnghost (d : Dims) : Int := (d.ng + 1) / 2 + 1

/-- `LoadBoundaryBufferSameLevel` (bvals_cc.cpp:287-302). -/
def loadSame (d : Dims) (ni : NI) : Box where
  si := if ni.ox1 > 0 then d.ie - d.ng + 1 else d.is
  ei := if ni.ox1 < 0 then d.is + d.ng - 1 else d.ie
  sj := if ni.ox2 > 0 then d.je - d.ng + 1 else d.js
  ej := if ni.ox2 < 0 then d.js + d.ng - 1 else d.je
  sk := if ni.ox3 > 0 then d.ke - d.ng + 1 else d.ks
  ek := if ni.ox3 < 0 then d.ks + d.ng - 1 else d.ke

/-- `LoadBoundaryBufferToCoarser` (bvals_cc.cpp:309-330): the box of `coarse_buf` that is first
filled by `RestrictCellCenteredValues` and then packed. -/
def loadToCoarser (d : Dims) (ni : NI) : Box where
  si := if ni.ox1 > 0 then d.cie - (d.ng - 1) else d.cis
  ei := if ni.ox1 < 0 then d.cis + (d.ng - 1) else d.cie
  sj := if ni.ox2 > 0 then d.cje - (d.ng - 1) else d.cjs
  ej := if ni.ox2 < 0 then d.cjs + (d.ng - 1) else d.cje
  sk := if ni.ox3 > 0 then d.cke - (d.ng - 1) else d.cks
  ek := if ni.ox3 < 0 then d.cks + (d.ng - 1) else d.cke

/-- Which of `fi1`, `fi2` tells the half in the second direction (bvals_cc.cpp:355-362, 512-518). -/
def sel2 (ni : NI) : Nat := if ni.ox1 ≠ 0 then ni.fi1 else ni.fi2

/-- Which of `fi1`, `fi2` tells the half in the third direction (bvals_cc.cpp:364-372, 528-534). -/
def sel3 (ni : NI) : Nat := if ni.ox1 ≠ 0 ∧ ni.ox2 ≠ 0 then ni.fi1 else ni.fi2

/-- `LoadBoundaryBufferToFiner` (bvals_cc.cpp:336-378). -/
def loadToFiner (d : Dims) (ni : NI) : Box where
  si := (if ni.ox1 > 0 then d.ie - (cnghost d - 1) else d.is) +
    (if ni.ox1 = 0 ∧ ni.fi1 = 1 then d.nx1 / 2 - cnghost d else 0)
  ei := (if ni.ox1 < 0 then d.is + (cnghost d - 1) else d.ie) -
    (if ni.ox1 = 0 ∧ ni.fi1 ≠ 1 then d.nx1 / 2 - cnghost d else 0)
  sj := (if ni.ox2 > 0 then d.je - (cnghost d - 1) else d.js) +
    (if (ni.ox2 = 0 ∧ d.nx2 > 1) ∧ sel2 ni = 1 then d.nx2 / 2 - cnghost d else 0)
  ej := (if ni.ox2 < 0 then d.js + (cnghost d - 1) else d.je) -
    (if (ni.ox2 = 0 ∧ d.nx2 > 1) ∧ sel2 ni ≠ 1 then d.nx2 / 2 - cnghost d else 0)
  sk := (if ni.ox3 > 0 then d.ke - (cnghost d - 1) else d.ks) +
    (if (ni.ox3 = 0 ∧ d.nx3 > 1) ∧ sel3 ni = 1 then d.nx3 / 2 - cnghost d else 0)
  ek := (if ni.ox3 < 0 then d.ks + (cnghost d - 1) else d.ke) -
    (if (ni.ox3 = 0 ∧ d.nx3 > 1) ∧ sel3 ni ≠ 1 then d.nx3 / 2 - cnghost d else 0)

/-- `SetBoundarySameLevel` (bvals_cc.cpp:386-422), branch without a pole. -/
def setSame (d : Dims) (ni : NI) : Box where
  si := if ni.ox1 = 0 then d.is else if ni.ox1 > 0 then d.ie + 1 else d.is - d.ng
  ei := if ni.ox1 = 0 then d.ie else if ni.ox1 > 0 then d.ie + d.ng else d.is - 1
  sj := if ni.ox2 = 0 then d.js else if ni.ox2 > 0 then d.je + 1 else d.js - d.ng
  ej := if ni.ox2 = 0 then d.je else if ni.ox2 > 0 then d.je + d.ng else d.js - 1
  sk := if ni.ox3 = 0 then d.ks else if ni.ox3 > 0 then d.ke + 1 else d.ks - d.ng
  ek := if ni.ox3 = 0 then d.ke else if ni.ox3 > 0 then d.ke + d.ng else d.ks - 1

/-- `SetBoundaryFromCoarser` (bvals_cc.cpp:429-486): the box of `coarse_buf`; `p` is `pmb->loc`. -/
def setFromCoarser (d : Dims) (p : Pos) (ni : NI) : Box where
  si := if ni.ox1 = 0 then d.cis - (if p.x1 % 2 = 0 then 0 else cnghost d)
    else if ni.ox1 > 0 then d.cie + 1 else d.cis - cnghost d
  ei := if ni.ox1 = 0 then d.cie + (if p.x1 % 2 = 0 then cnghost d else 0)
    else if ni.ox1 > 0 then d.cie + cnghost d else d.cis - 1
  sj := if ni.ox2 = 0 then d.cjs - (if d.nx2 > 1 then (if p.x2 % 2 = 0 then 0 else cnghost d) else 0)
    else if ni.ox2 > 0 then d.cje + 1 else d.cjs - cnghost d
  ej := if ni.ox2 = 0 then d.cje + (if d.nx2 > 1 then (if p.x2 % 2 = 0 then cnghost d else 0) else 0)
    else if ni.ox2 > 0 then d.cje + cnghost d else d.cjs - 1
  sk := if ni.ox3 = 0 then d.cks - (if d.nx3 > 1 then (if p.x3 % 2 = 0 then 0 else cnghost d) else 0)
    else if ni.ox3 > 0 then d.cke + 1 else d.cks - cnghost d
  ek := if ni.ox3 = 0 then d.cke + (if d.nx3 > 1 then (if p.x3 % 2 = 0 then cnghost d else 0) else 0)
    else if ni.ox3 > 0 then d.cke + cnghost d else d.cks - 1

/-- `SetBoundaryFromFiner` (bvals_cc.cpp:493-557). -/
def setFromFiner (d : Dims) (ni : NI) : Box where
  si := if ni.ox1 = 0 then d.is + (if ni.fi1 = 1 then d.nx1 / 2 else 0)
    else if ni.ox1 > 0 then d.ie + 1 else d.is - d.ng
  ei := if ni.ox1 = 0 then d.ie - (if ni.fi1 = 1 then 0 else d.nx1 / 2)
    else if ni.ox1 > 0 then d.ie + d.ng else d.is - 1
  sj := if ni.ox2 = 0 then d.js + (if d.nx2 > 1 then (if sel2 ni = 1 then d.nx2 / 2 else 0) else 0)
    else if ni.ox2 > 0 then d.je + 1 else d.js - d.ng
  ej := if ni.ox2 = 0 then d.je - (if d.nx2 > 1 then (if sel2 ni = 1 then 0 else d.nx2 / 2) else 0)
    else if ni.ox2 > 0 then d.je + d.ng else d.js - 1
  sk := if ni.ox3 = 0 then d.ks + (if d.nx3 > 1 then (if sel3 ni = 1 then d.nx3 / 2 else 0) else 0)
    else if ni.ox3 > 0 then d.ke + 1 else d.ks - d.ng
  ek := if ni.ox3 = 0 then d.ke - (if d.nx3 > 1 then (if sel3 ni = 1 then 0 else d.nx3 / 2) else 0)
    else if ni.ox3 > 0 then d.ke + d.ng else d.ks - 1

/-- The box packed by `SendBoundaryBuffers` of a block of level `L` for a neighbour of level `K`
(bvals_var.cpp:212-237). The array is `coarse_buf` if `K < L`, the variable itself otherwise. -/
def loadBox (d : Dims) (L K : Nat) (ni : NI) : Box :=
  if K = L then loadSame d ni else if K < L then loadToCoarser d ni else loadToFiner d ni

/-- The box unpacked by `SetBoundaries` of the block `(L, p)` from a neighbour of level `K`
(bvals_var.cpp:277-290). The array is `coarse_buf` if `K < L`, the variable itself otherwise. -/
def setBox (d : Dims) (L : Nat) (p : Pos) (K : Nat) (ni : NI) : Box :=
  if K = L then setSame d ni else if K < L then setFromCoarser d p ni else setFromFiner d ni

/-- `ComputeVariableBufferSize` (bvals_cc.cpp:239-259): allocated length of `send[n]` and `recv[n]`;
`nv` is `nu_ + 1`. -/
def bufSize (d : Dims) (ml : Bool) (nv : Int) (ni : NI) : Int :=
  let cng := cnghost d
  let cng2 := cng * (if d.nx2 > 1 then 1 else 0)
  let cng3 := cng * (if d.nx3 > 1 then 1 else 0)
  let size := (if ni.ox1 = 0 then d.nx1 else d.ng) * (if ni.ox2 = 0 then d.nx2 else d.ng) *
    (if ni.ox3 = 0 then d.nx3 else d.ng)
  let f2c := (if ni.ox1 = 0 then (d.nx1 + 1) / 2 else d.ng) * (if ni.ox2 = 0 then (d.nx2 + 1) / 2 else d.ng) *
    (if ni.ox3 = 0 then (d.nx3 + 1) / 2 else d.ng)
  let c2f := (if ni.ox1 = 0 then (d.nx1 + 1) / 2 + cng else cng) *
    (if ni.ox2 = 0 then (d.nx2 + 1) / 2 + cng2 else cng) * (if ni.ox3 = 0 then (d.nx3 + 1) / 2 + cng3 else cng)
  (if ml then max (max size c2f) f2c else size) * nv

/-- `ssize` and `rsize` of `SetupPersistentMPI` (bvals_cc.cpp:614-651) for a block of level `L` and a
neighbour of level `K`; `f2`, `f3` are those of the mesh. -/
def mpiSizes (d : Dims) (f2 f3 : Bool) (nv : Int) (L K : Nat) (ni : NI) : Int × Int :=
  let cng := cnghost d
  let cng2 := cng * (if f2 then 1 else 0)
  let cng3 := cng * (if f3 then 1 else 0)
  let same := (if ni.ox1 = 0 then d.nx1 else d.ng) * (if ni.ox2 = 0 then d.nx2 else d.ng) *
    (if ni.ox3 = 0 then d.nx3 else d.ng)
  let half := (if ni.ox1 = 0 then (d.nx1 + 1) / 2 else d.ng) * (if ni.ox2 = 0 then (d.nx2 + 1) / 2 else d.ng) *
    (if ni.ox3 = 0 then (d.nx3 + 1) / 2 else d.ng)
  let wide := (if ni.ox1 = 0 then (d.nx1 + 1) / 2 + cng else cng) *
    (if ni.ox2 = 0 then (d.nx2 + 1) / 2 + cng2 else cng2) *
    (if ni.ox3 = 0 then (d.nx3 + 1) / 2 + cng3 else cng3)
  if K = L then (same * nv, same * nv) else if K < L then (half * nv, wide * nv) else (wide * nv, half * nv)

end Verif.Ghost
