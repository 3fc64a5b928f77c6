import Verif.Model.Flux
import Verif.Model.Neighbors

/-!
# Flux-correction messages of cell-centred variables
(src/bvals/cc/flux_correction_cc.cpp, src/bvals/cc/bvals_cc.cpp, src/bvals/bvals_var.cpp)

Without shearing box: `shear` is false in all entries, `LoadFluxBoundaryBufferSameLevel` returns 0.
-/
namespace Verif.FluxMsg
open Verif.Grid Verif.Tree
variable {K : Type} [Field K]

/-- `ni.type == NeighborConnect::face`: the loops of `BufferID` and `SearchAndSetNeighbors` give this
type to the directions with one nonzero offset (bvals_base.cpp:163-199, 318-447). -/
def isFace (a : NI) : Bool :=
  (if a.ox1 = 0 then 0 else 1) + (if a.ox2 = 0 then 0 else 1) + (if a.ox3 = 0 then 0 else 1) == 1

/-- `fid` as set by `SetNeighbor` (bvals_base.cpp:54-61), for faces. -/
def faceId (a : NI) : Nat :=
  if a.ox1 = -1 then 0 else if a.ox1 = 1 then 1 else if a.ox2 = -1 then 2 else if a.ox2 = 1 then 3
  else if a.ox3 = -1 then 4 else 5

/-- The entries for which `SendFluxCorrection` sends data (flux_correction_cc.cpp:171-202): the loop
stops at the first entry that is not a face; `L` is the level of the block. -/
def sends (L : Nat) (es : List Entry) : List Entry :=
  (es.takeWhile fun e => isFace e.ni).filter fun e => e.level < L

/-- The entries whose data `ReceiveFluxCorrection` uses (flux_correction_cc.cpp:288-332). -/
def recvs (L : Nat) (es : List Entry) : List Entry :=
  (es.takeWhile fun e => isFace e.ni).filter fun e => L < e.level

/-- `nbmax` of `bd_var_flcor_` (bvals_var.cpp:50-52): buffers `0 .. nbmax-1` are allocated. -/
def nbmax (f2 f3 ml : Bool) : Nat := ((niList f2 f3 ml).takeWhile isFace).length

/-- `ComputeFluxCorrectionBufferSize` (bvals_cc.cpp:265-281); `nv` is `nu_ + 1`. The products and
quotients are evaluated from left to right. -/
def bufSize (d : Dims) (ml : Bool) (nv : Int) (a : NI) : Int :=
  let size2 := 0
  if ml then
    let size2 := if a.ox1 ≠ 0 then ((d.nx2 + 1).tdiv 2 * (d.nx3 + 1)).tdiv 2 * nv else size2
    let size2 := if a.ox2 ≠ 0 then ((d.nx1 + 1).tdiv 2 * (d.nx3 + 1)).tdiv 2 * nv else size2
    if a.ox3 ≠ 0 then ((d.nx1 + 1).tdiv 2 * (d.nx2 + 1)).tdiv 2 * nv else size2
  else size2

/-- Number of values of the persistent requests for a neighbour of another level
(bvals_cc.cpp:668-675). -/
def mpiSize (d : Dims) (nv : Int) (fid : Nat) : Int :=
  (if fid = 0 ∨ fid = 1 then (d.nx2 + 1).tdiv 2 * (d.nx3 + 1).tdiv 2
   else if fid = 2 ∨ fid = 3 then (d.nx1 + 1).tdiv 2 * (d.nx3 + 1).tdiv 2
   else (d.nx1 + 1).tdiv 2 * (d.nx2 + 1).tdiv 2) * nv

/-- The fluxes of a block after `ReceiveFluxCorrection` has returned true: `order` are the entries in
the order in which their data were found to have arrived, `recv` the receive buffers. -/
def applyCorrections (d : Dims) (nl nu : Int) (recv : Nat → Nat → K) (order : List Entry) (F : Flx K) :
    Flx K :=
  order.foldl (fun F e => (setFromFiner d nl nu (faceId e.ni) e.ni.fi1 e.ni.fi2 (recv e.bufid) F).1) F

end Verif.FluxMsg
