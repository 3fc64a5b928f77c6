import Verif.Model.Grid
import Mathlib.Algebra.Field.Defs
import Mathlib.Data.Fin.VecNotation

/-!
# Exchange of electric fields between blocks of one level

Model of `src/bvals/fc/flux_correction_fc.cpp` and of `CountFineEdges` (bvals_fc.cpp) in three
dimensions for a mesh of one level, without poles and without a shearing box: there
`SetFluxBoundaryFromFiner`, `ClearCoarseFluxBoundary` and the polar functions do nothing.
Arithmetic in a field.
-/

namespace Verif.Emf

open Verif.Arr (rng)
open Verif.Grid (Dims)

/-- An element of the arrays `e1`, `e2`, `e3` (component 0, 1, 2): component and `(k, j, i)`. -/
abbrev Pos := Fin 3 × Int × Int × Int

/-- Electric fields of a block. -/
abbrev EField (K : Type) := Pos → K

/-- Location of a block on its level: `lx1`, `lx2`, `lx3`. -/
abbrev Loc := Int × Int × Int

/-- Neighbors that exchange electric fields: `nb.fid` and `nb.eid`. -/
inductive Nb
  | face (fid : Fin 6)
  | edge (eid : Fin 12)
deriving DecidableEq

/-- Offset `(ox1, ox2, ox3)` of a neighbor; bvals_base.cpp:55-66. -/
def off : Nb → Loc
  | .face f => (![(-1, 0, 0), (1, 0, 0), (0, -1, 0), (0, 1, 0), (0, 0, -1), (0, 0, 1)] :
      Fin 6 → Loc) f
  | .edge e => (![(-1, -1, 0), (1, -1, 0), (-1, 1, 0), (1, 1, 0),
      (-1, 0, -1), (1, 0, -1), (-1, 0, 1), (1, 0, 1),
      (0, -1, -1), (0, 1, -1), (0, -1, 1), (0, 1, 1)] : Fin 12 → Loc) e

/-- How the block appears from its neighbor. -/
def opp : Nb → Nb
  | .face f => .face ((![1, 0, 3, 2, 5, 4] : Fin 6 → Fin 6) f)
  | .edge e => .edge ((![3, 2, 1, 0, 7, 6, 5, 4, 11, 10, 9, 8] : Fin 12 → Fin 12) e)

/-- Two nested loops, in order. -/
def grid (a b c e : Int) (g : Int → Int → Pos) : List Pos :=
  (rng a b).flatMap fun x => (rng c e).map (g x)

variable (d : Dims)

/-- What `LoadFluxBoundaryBufferSameLevel` packs, in order, flux_correction_fc.cpp:61-142 and
227-303. -/
def loadPos : Nb → List Pos
  | .face f =>
    if f = 0 ∨ f = 1 then
      let i := if f = 0 then d.is else d.ie + 1
      grid d.ks (d.ke + 1) d.js d.je (fun k j => (1, k, j, i)) ++
        grid d.ks d.ke d.js (d.je + 1) (fun k j => (2, k, j, i))
    else if f = 2 ∨ f = 3 then
      let j := if f = 2 then d.js else d.je + 1
      grid d.ks (d.ke + 1) d.is d.ie (fun k i => (0, k, j, i)) ++
        grid d.ks d.ke d.is (d.ie + 1) (fun k i => (2, k, j, i))
    else
      let k := if f = 4 then d.ks else d.ke + 1
      grid d.js (d.je + 1) d.is d.ie (fun j i => (0, k, j, i)) ++
        grid d.js d.je d.is (d.ie + 1) (fun j i => (1, k, j, i))
  | .edge e =>
    if e.val < 4 then
      let i := if e.val % 2 = 0 then d.is else d.ie + 1
      let j := if e.val / 2 % 2 = 0 then d.js else d.je + 1
      (rng d.ks d.ke).map fun k => (2, k, j, i)
    else if e.val < 8 then
      let i := if e.val % 2 = 0 then d.is else d.ie + 1
      let k := if e.val / 2 % 2 = 0 then d.ks else d.ke + 1
      (rng d.js d.je).map fun j => (1, k, j, i)
    else
      let j := if e.val % 2 = 0 then d.js else d.je + 1
      let k := if e.val / 2 % 2 = 0 then d.ks else d.ke + 1
      (rng d.is d.ie).map fun i => (0, k, j, i)

/-- Where `SetFluxBoundarySameLevel` adds the numbers, in order, flux_correction_fc.cpp:696-778 and
855-932. -/
def setPos : Nb → List Pos
  | .face f =>
    if f = 0 ∨ f = 1 then
      let i := if f = 0 then d.is else d.ie + 1
      grid d.ks (d.ke + 1) d.js d.je (fun k j => (1, k, j, i)) ++
        grid d.ks d.ke d.js (d.je + 1) (fun k j => (2, k, j, i))
    else if f = 2 ∨ f = 3 then
      let j := if f = 2 then d.js else d.je + 1
      grid d.ks (d.ke + 1) d.is d.ie (fun k i => (0, k, j, i)) ++
        grid d.ks d.ke d.is (d.ie + 1) (fun k i => (2, k, j, i))
    else
      let k := if f = 4 then d.ks else d.ke + 1
      grid d.js (d.je + 1) d.is d.ie (fun j i => (0, k, j, i)) ++
        grid d.js d.je d.is (d.ie + 1) (fun j i => (1, k, j, i))
  | .edge e =>
    if e.val < 4 then
      let i := if e.val % 2 = 0 then d.is else d.ie + 1
      let j := if e.val / 2 % 2 = 0 then d.js else d.je + 1
      (rng d.ks d.ke).map fun k => (2, k, j, i)
    else if e.val < 8 then
      let i := if e.val % 2 = 0 then d.is else d.ie + 1
      let k := if e.val / 2 % 2 = 0 then d.ks else d.ke + 1
      (rng d.js d.je).map fun j => (1, k, j, i)
    else
      let j := if e.val % 2 = 0 then d.js else d.je + 1
      let k := if e.val / 2 % 2 = 0 then d.ks else d.ke + 1
      (rng d.is d.ie).map fun i => (0, k, j, i)

variable {K : Type} [Field K]

/-- `e(k,j,i) += buf[p++]` over the loops. -/
def addBuf (ps : List Pos) (buf : List K) (E : EField K) : EField K :=
  (ps.zip buf).foldl (fun E q => Function.update E q.1 (E q.1 + q.2)) E

/-- `e(k,j,i) *= c` over the loops. -/
def scale (ps : List Pos) (c : K) (E : EField K) : EField K :=
  ps.foldl (fun E p => Function.update E p (E p * c)) E

/-- `pbval_->nblevel` for the offsets of faces and edges: whether there is a block of the level
at the location; `-1` otherwise (physical boundary). -/
abbrev Mesh := Loc → Bool

/-- Location of a neighbor.  A periodic mesh is continued periodically. -/
def shiftLoc (l o : Loc) : Loc := (l.1 + o.1, l.2.1 + o.2.1, l.2.2 + o.2.2)

/-- The neighbors in their order: faces, then edges. -/
def nbs : List Nb := (List.finRange 6).map Nb.face ++ (List.finRange 12).map Nb.edge

/-- `ReceiveFluxCorrection` before the average, flux_correction_fc.cpp:1615-1650; the buffers hold
the fields of the neighbors before any exchange (`SendFluxCorrection` precedes
`ReceiveFluxCorrection` in the task list). -/
def receive (M : Mesh) (E : Loc → EField K) (l : Loc) : EField K :=
  nbs.foldl (fun e n => if M (shiftLoc l (off n)) then
    addBuf (setPos d n) ((loadPos d (opp n)).map (E (shiftLoc l (off n)))) e else e) (E l)

/-- Elements that `AverageFluxBoundary` halves at a face with a neighbor of the same level,
flux_correction_fc.cpp:1382-1391, 1431-1439, 1472-1479. -/
def halfPos (f : Fin 6) : List Pos :=
  if f = 0 ∨ f = 1 then
    let i := if f = 0 then d.is else d.ie + 1
    grid (d.ks + 1) d.ke d.js d.je (fun k j => (1, k, j, i)) ++
      grid d.ks d.ke (d.js + 1) d.je (fun k j => (2, k, j, i))
  else if f = 2 ∨ f = 3 then
    let j := if f = 2 then d.js else d.je + 1
    grid (d.ks + 1) d.ke d.is d.ie (fun k i => (0, k, j, i)) ++
      grid d.ks d.ke (d.is + 1) d.ie (fun k i => (2, k, j, i))
  else
    let k := if f = 4 then d.ks else d.ke + 1
    grid (d.js + 1) d.je d.is d.ie (fun j i => (0, k, j, i)) ++
      grid d.js d.je (d.is + 1) d.ie (fun j i => (1, k, j, i))

/-- `nedge_fine_`, bvals_fc.cpp:1129-1192: blocks of the level around an edge, the block itself
among them. -/
def count (M : Mesh) (l : Loc) (e : Fin 12) : ℕ :=
  let o := off (.edge e)
  let at_ := fun x : Loc => if M (shiftLoc l x) then 1 else 0
  if e.val < 4 then at_ (0, 0, 0) + at_ (o.1, 0, 0) + at_ (0, o.2.1, 0) + at_ (o.1, o.2.1, 0)
  else if e.val < 8 then
    at_ (0, 0, 0) + at_ (o.1, 0, 0) + at_ (0, 0, o.2.2) + at_ (o.1, 0, o.2.2)
  else at_ (0, 0, 0) + at_ (0, o.2.1, 0) + at_ (0, 0, o.2.2) + at_ (0, o.2.1, o.2.2)

/-- Elements that `AverageFluxBoundary` divides at an edge, flux_correction_fc.cpp:1501-1541. -/
def edgePos (e : Fin 12) : List Pos :=
  if e.val < 4 then
    let i := if e.val % 2 = 0 then d.is else d.ie + 1
    let j := if e.val / 2 % 2 = 0 then d.js else d.je + 1
    (rng d.ks d.ke).map fun k => (2, k, j, i)
  else if e.val < 8 then
    let i := if e.val % 2 = 0 then d.is else d.ie + 1
    let k := if e.val / 2 % 2 = 0 then d.ks else d.ke + 1
    (rng d.js d.je).map fun j => (1, k, j, i)
  else
    let j := if e.val % 2 = 0 then d.js else d.je + 1
    let k := if e.val / 2 % 2 = 0 then d.ks else d.ke + 1
    (rng d.is d.ie).map fun i => (0, k, j, i)

/-- `AverageFluxBoundary`, flux_correction_fc.cpp:1355-1544.  At physical boundaries `nblevel` is
`-1`; the test of `block_bcs` adds nothing. -/
def average (M : Mesh) (l : Loc) (E : EField K) : EField K :=
  let E := (List.finRange 6).foldl
    (fun E f => if M (shiftLoc l (off (.face f))) then scale (halfPos d f) (1 / 2) E else E) E
  (List.finRange 12).foldl
    (fun E e => if count M l e = 1 then E else scale (edgePos d e) (1 / (count M l e : K)) E) E

/-- The electric fields of block `l` after the exchange. -/
def exchange (M : Mesh) (E : Loc → EField K) (l : Loc) : EField K :=
  average d M l (receive d M E l)

end Verif.Emf
