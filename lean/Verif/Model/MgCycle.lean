import Verif.Model.Multigrid
import Mathlib.Algebra.BigOperators.Group.Finset.Basic
import Mathlib.Data.Int.Interval
import Mathlib.Data.Finset.Prod
import Mathlib.Data.Fin.VecNotation

/-!
# Multigrid solver of self-gravity: boundary functions and the V-cycle

`MGBoundaryValues::ApplyPhysicalBoundaries` with the boundary functions of multigrid/mgbval_*.cpp, and
`MultigridDriver::SolveVCycle` on a mesh without refinement.

Simplification: every level is one array for the whole mesh. In the code the levels above the root grid are divided
among MeshBlocks, whose ghost cells are filled from the neighbours; Props/Multigrid.lean proves for the smoother that
blocks whose ghost cells hold the values of the neighbours do the same as one array.
-/
namespace Verif.Mg
open Verif.Arr (loop)
open Verif.Grid (A3)

/-- Boundary conditions of the multigrid solver: `MGPeriodic*`, `MGZeroFixed*`, `MGZeroGradient*`, `MGMultipole*`. -/
inductive Bc where
  | periodic
  | zerofixed
  | zerograd
  | multipole
deriving DecidableEq, Repr

/-- The value a boundary function stores in a ghost cell: `inner` is the cell next to the boundary, `wrap` the cell at
the other end, `phis` the potential at the face (mgbval_periodic.cpp:33, mgbval_zerofixed.cpp:36,
mgbval_zerograd.cpp:36, mgbval_multipole.cpp:41-104 and the same lines of the other five functions). -/
def bcVal (bc : Bc) (phis inner wrap : ℝ) : ℝ :=
  match bc with
  | .periodic => wrap
  | .zerofixed => -inner
  | .zerograd => inner
  | .multipole => 2 * phis - inner

/-- Boundary conditions of the six faces and the potential at the faces, a function of the two indices along the face
in the order of the array. -/
structure Bcs where
  x1i : Bc
  x1o : Bc
  x2i : Bc
  x2o : Bc
  x3i : Bc
  x3o : Bc
  phi1i : ℤ → ℤ → ℝ
  phi1o : ℤ → ℤ → ℝ
  phi2i : ℤ → ℤ → ℝ
  phi2o : ℤ → ℤ → ℝ
  phi3i : ℤ → ℤ → ℝ
  phi3o : ℤ → ℤ → ℝ

/-- Boundary flags as read from the input (`GetMGBoundaryFlag`), `other` standing for `none` and all flags the solver
does not know. -/
inductive Flag where
  | user
  | periodic
  | zerofixed
  | zerograd
  | multipole
  | other
deriving DecidableEq, Repr

/-- The flag a boundary condition is chosen by. -/
def Bc.flagOf : Bc → Flag
  | .periodic => .periodic
  | .zerofixed => .zerofixed
  | .zerograd => .zerograd
  | .multipole => .multipole

/-- The flags of the six faces in the order of `BoundaryFace`. -/
def Bcs.flags (B : Bcs) : Fin 6 → Flag :=
  ![B.x1i.flagOf, B.x1o.flagOf, B.x2i.flagOf, B.x2o.flagOf, B.x3i.flagOf, B.x3o.flagOf]

/-- The boundary functions at `inner_x1` and `outer_x1` (`ngh_ = 1`); both have the ranges of `j` and `k`. -/
def fillX1 (bc : Bc) (phi : ℤ → ℤ → ℝ) (ig iin iw jl ju kl ku : ℤ) (a : A3 ℝ) : A3 ℝ :=
  loop kl ku (fun k => loop jl ju fun j a => Function.update a (k, j, ig) (bcVal bc (phi k j) (a (k, j, iin)) (a (k, j, iw)))) a

/-- The boundary functions at `inner_x2` and `outer_x2`. -/
def fillX2 (bc : Bc) (phi : ℤ → ℤ → ℝ) (jg jin jw il iu kl ku : ℤ) (a : A3 ℝ) : A3 ℝ :=
  loop kl ku (fun k => loop il iu fun i a => Function.update a (k, jg, i) (bcVal bc (phi k i) (a (k, jin, i)) (a (k, jw, i)))) a

/-- The boundary functions at `inner_x3` and `outer_x3`. -/
def fillX3 (bc : Bc) (phi : ℤ → ℤ → ℝ) (kg kin kw il iu jl ju : ℤ) (a : A3 ℝ) : A3 ℝ :=
  loop jl ju (fun j => loop il iu fun i a => Function.update a (kg, j, i) (bcVal bc (phi j i) (a (kin, j, i)) (a (kw, j, i)))) a

/-- `MGBoundaryValues::ApplyPhysicalBoundaries(0, false)` for the root grid, where every face has a boundary function
(bvals_mg.cpp:374-430). -/
def applyPhys (B : Bcs) (b : Box) (a : A3 ℝ) : A3 ℝ :=
  let a := fillX1 B.x1i B.phi1i (b.il - 1) b.il b.iu b.jl b.ju b.kl b.ku a
  let a := fillX1 B.x1o B.phi1o (b.iu + 1) b.iu b.il b.jl b.ju b.kl b.ku a
  let a := fillX2 B.x2i B.phi2i (b.jl - 1) b.jl b.ju (b.il - 1) (b.iu + 1) b.kl b.ku a
  let a := fillX2 B.x2o B.phi2o (b.ju + 1) b.ju b.jl (b.il - 1) (b.iu + 1) b.kl b.ku a
  let a := fillX3 B.x3i B.phi3i (b.kl - 1) b.kl b.ku (b.il - 1) (b.iu + 1) (b.jl - 1) (b.ju + 1) a
  fillX3 B.x3o B.phi3o (b.ku + 1) b.ku b.kl (b.il - 1) (b.iu + 1) (b.jl - 1) (b.ju + 1) a

/-- What the V-cycle depends on. `n3, n2, n1`: cells of the coarsest level; `rtop = nrootlevel_ - 1`: the finest level of
the root grid; `h`: spacing of level `top`; `bnd l`: what fills the ghost cells of level `l`. -/
structure Cfg where
  n1 : ℕ
  n2 : ℕ
  n3 : ℕ
  rtop : ℕ
  top : ℕ
  h : ℝ
  vol : ℝ
  omega : ℝ
  coffset : ℕ
  ffas : Bool
  fsub : Bool
  redblack : Bool
  cubic : Bool
  npre : ℕ
  npost : ℕ
  bnd : ℕ → A3 ℝ → A3 ℝ

/-- The arrays `u_`, `uold_`, `src_` of every level. -/
structure Arrays where
  u : ℕ → A3 ℝ
  uold : ℕ → A3 ℝ
  src : ℕ → A3 ℝ

namespace Cfg
variable (c : Cfg)

/-- The active cells of level `l` (`is = js = ks = ngh_ = 1`, `ie = is+(size_.nx1>>ll)-1`: multigrid.cpp:395-396). -/
def box (l : ℕ) : Box := ⟨1, c.n3 * 2 ^ l, 1, c.n2 * 2 ^ l, 1, c.n1 * 2 ^ l⟩

/-- `-ll` (multigrid.cpp:469, 477). -/
def rlev (l : ℕ) : ℤ := -((c.top : ℤ) - l)

/-- The argument of the first `SmoothBlock`: `coffset_` on the root grid (multigrid_driver.cpp:851, 906, 1063), 0 on
MeshBlocks (mg_task_list.cpp:234). -/
def color (l : ℕ) : ℕ := if l ≤ c.rtop then c.coffset else 0

/-- `SmoothBlock` on level `l`. -/
noncomputable def smoothLevel (l : ℕ) (col : ℕ) (s : Arrays) : Arrays :=
  { s with u := Function.update s.u l (smooth c.omega c.h (c.rlev l) c.coffset (c.box l) col (s.src l) (s.u l)) }

/-- Fill the ghost cells of level `l`. -/
def bndLevel (l : ℕ) (s : Arrays) : Arrays := { s with u := Function.update s.u l (c.bnd l (s.u l)) }

/-- One pass of the loop over `nsmooth` on the way down: smooth, fill, other colour, fill
(multigrid_driver.cpp:905-912, 1062-1069; mg_task_list.cpp:410-443). -/
noncomputable def passDown (l : ℕ) (s : Arrays) : Arrays :=
  let s := c.bndLevel l (c.smoothLevel l (c.color l) s)
  if c.redblack then c.bndLevel l (c.smoothLevel l (1 - c.color l) s) else s

/-- One pass on the way up: fill, smooth, fill, other colour (multigrid_driver.cpp:849-856; mg_task_list.cpp:308-331). -/
noncomputable def passUp (l : ℕ) (s : Arrays) : Arrays :=
  let s := c.smoothLevel l (c.color l) (c.bndLevel l s)
  if c.redblack then c.smoothLevel l (1 - c.color l) (c.bndLevel l s) else s

/-- `StoreOldData` and `CalculateFASRHSBlock`. -/
noncomputable def fasLevel (l : ℕ) (s : Arrays) : Arrays :=
  { s with uold := Function.update s.uold l (s.u l)
           src := Function.update s.src l (fasRhs c.h (c.rlev l) (c.box l) (s.u l) (s.src l)) }

/-- `RestrictBlock` from level `l + 1` to level `l` (multigrid.cpp:387-413); `def_` is a local array here. -/
noncomputable def restrictLevel (l : ℕ) (s : Arrays) : Arrays :=
  let d := defect c.h (c.rlev (l+1)) (c.box (l+1)) (s.u (l+1)) (s.src (l+1)) (fun _ => 0)
  let s := { s with src := Function.update s.src l (restrict (c.box l) d (s.src l)) }
  if c.ffas then { s with u := Function.update s.u l (restrict (c.box l) (s.u (l+1)) (s.u l)) }
  else { s with u := Function.update s.u l (fun _ => 0) }

/-- `OneStepToCoarser` from level `l + 1` (multigrid_driver.cpp:867-919); `start` is `fmglevel_`, the level the cycle
starts from. -/
noncomputable def toCoarser (start l : ℕ) (s : Arrays) : Arrays :=
  let s := c.bndLevel (l+1) s
  let s := if c.ffas && decide (l + 1 < start) then c.fasLevel (l+1) s else s
  c.restrictLevel l ((c.passDown (l+1))^[c.npre] s)

/-- `CalculateTotal(MGVariable::u)` of the root grid on level 0 divided by the volume. -/
noncomputable def average (s : Arrays) : ℝ :=
  (∑ q ∈ Finset.Icc (1 : ℤ) c.n3 ×ˢ (Finset.Icc (1 : ℤ) c.n2 ×ˢ Finset.Icc (1 : ℤ) c.n1), s.u 0 q) * dxAt c.h (c.rlev 0)
    * dxAt c.h (c.rlev 0) * dxAt c.h (c.rlev 0) / c.vol

/-- `mgroot_->SubtractAverage(MGVariable::u, v, ave)` (multigrid.cpp:697-711): the array is `u_[nlevel_-1]`, the finest
level of the root grid, whatever the current level is. -/
noncomputable def subtractAverage (s : Arrays) : Arrays :=
  let ave := c.average s
  let b := c.box c.rtop
  let w : Box := ⟨0, b.ku + 1, 0, b.ju + 1, 0, b.iu + 1⟩
  { s with u := Function.update s.u c.rtop (w.each (fun k j i a => a (k, j, i) - ave) (s.u c.rtop)) }

/-- `SolveCoarsestGrid` (multigrid_driver.cpp:1038-1081). -/
noncomputable def coarsest (s : Arrays) : Arrays :=
  let ni := max c.n1 (max c.n2 c.n3)
  if c.fsub && decide (ni = 1) then
    let s := if c.ffas then
        let s := c.bndLevel 0 s
        { s with uold := Function.update s.uold 0 (s.u 0) }
      else s
    { s with u := Function.update s.u 0 (fun _ => 0) }
  else
    let s := if c.fsub then c.subtractAverage s else s
    let s := c.bndLevel 0 s
    let s := if c.ffas then c.fasLevel 0 s else s
    let s := (c.passDown 0)^[ni] s
    if c.fsub then c.subtractAverage s else s

/-- `ProlongateAndCorrectBlock` from level `l` to level `l + 1` (multigrid.cpp:422-443). -/
noncomputable def correctLevel (l : ℕ) (s : Arrays) : Arrays :=
  let s := if c.ffas then { s with u := Function.update s.u l (fun q => s.u l q - s.uold l q) } else s
  { s with u := Function.update s.u (l+1) (prolongateAndCorrect c.cubic (c.box l) 1 1 1 (s.u l) (s.u (l+1))) }

/-- `OneStepToFiner` from level `l` (multigrid_driver.cpp:817-861). The last step on MeshBlocks fills the ghost cells
again (`flag == 2`); the defect is computed with them. -/
noncomputable def toFiner (l : ℕ) (s : Arrays) : Arrays :=
  let s := (c.passUp (l+1))^[c.npost] (c.correctLevel l (c.bndLevel l s))
  if l + 1 = c.top then c.bndLevel (l+1) s else s

/-- `while (current_level_ > 0) OneStepToCoarser(npresmooth)`. -/
noncomputable def down (start : ℕ) : ℕ → Arrays → Arrays
  | 0, s => s
  | l+1, s => down start l (c.toCoarser start l s)

/-- `while (current_level_ < startlevel) OneStepToFiner(npostsmooth)`. -/
noncomputable def up : ℕ → Arrays → Arrays
  | 0, s => s
  | l+1, s => c.toFiner l (up l s)

/-- `SolveVCycle` from level `start` (multigrid_driver.cpp:926-935), after `coffset_ ^= 1`. -/
noncomputable def vcycle (start : ℕ) (s : Arrays) : Arrays := c.up start (c.coarsest (c.down start start s))

end Cfg
/-- What `CheckBoundaryFunctions` leaves behind. -/
structure Checked where
  ffas : Bool
  fsub : Bool
deriving DecidableEq, Repr

/-- One of the six `switch` statements of `CheckBoundaryFunctions` (multigrid_driver.cpp:185-210 and the same for the
other faces). The state is `fsubtract_average_` and whether `mporder_` has been set; `none` is `ATHENA_ERROR`. -/
def checkStep (bcs : Fin 6 → Flag) (enrolled : Fin 6 → Bool) (st : Option (Bool × Bool)) (f : Fin 6) :
    Option (Bool × Bool) :=
  match st with
  | none => none
  | some (fsub, mp) =>
    match bcs f with
    | .user => if enrolled f then some (false, mp) else none
    | .periodic => some (fsub, mp)
    | .zerograd => some (fsub, mp)
    | .zerofixed => some (false, mp)
    | .multipole => some (fsub, true)
    | .other => none

/-- `MultigridDriver::CheckBoundaryFunctions` (multigrid_driver.cpp:183-368). `bcs` are the flags of the solver,
`mainPeriodic` tells whether the main part of the code has a periodic boundary there, `enrolled` whether there is a
function for a user-defined boundary. `mporder_` is negative before the call. -/
def checkBoundaries (bcs : Fin 6 → Flag) (mainPeriodic enrolled : Fin 6 → Bool) (ffas : Bool) : Option Checked :=
  match (List.finRange 6).foldl (checkStep bcs enrolled) (some (true, false)) with
  | none => none
  | some (fsub, mp) =>
    if ((List.finRange 6).all fun f => mainPeriodic f == decide (bcs f = .periodic)) then
      some (if mp then ⟨true, false⟩ else ⟨ffas, fsub⟩)
    else none

/-- One MeshBlock in `MultigridDriver::SubtractAverage`: its array, its cells and its spacing. -/
structure MgBlock where
  a : A3 ℝ
  n1 : ℕ
  n2 : ℕ
  n3 : ℕ
  h : ℝ

/-- The active cells of a MeshBlock. -/
def MgBlock.box (m : MgBlock) : Box := ⟨1, m.n3, 1, m.n2, 1, m.n1⟩

/-- `Multigrid::CalculateTotal` on the finest level (multigrid.cpp:677-696). -/
def MgBlock.total (m : MgBlock) : ℝ :=
  loop m.box.kl m.box.ku (fun k => loop m.box.jl m.box.ju fun j => loop m.box.il m.box.iu fun i s => s + m.a (k, j, i)) 0
    * m.h * m.h * m.h

/-- `Multigrid::SubtractAverage` (multigrid.cpp:703-717). -/
def MgBlock.subtract (ave : ℝ) (m : MgBlock) : MgBlock :=
  let w : Box := ⟨0, m.n3 + 1, 0, m.n2 + 1, 0, m.n1 + 1⟩
  { m with a := w.each (fun k j i a => a (k, j, i) - ave) m.a }

/-- `MultigridDriver::SubtractAverage` (multigrid_driver.cpp:375-405); `bs` are the MeshBlocks of all ranks, `vol` the
volume of the mesh. -/
noncomputable def driverSubtract (vol : ℝ) (bs : List MgBlock) : List MgBlock :=
  let ave := (bs.foldl (fun s m => s + m.total) 0) / vol
  bs.map (MgBlock.subtract ave)

end Verif.Mg
