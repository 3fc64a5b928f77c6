import Verif.Model.Grid
import Verif.Model.Array
import Mathlib.Analysis.SpecialFunctions.Pow.NNReal

/-!
# The time step

`Hydro::NewBlockTimeStep`, `Mesh::NewTimeStep` and the part of the main loop that advances time. Exact arithmetic.
The number `real_max` is a parameter; a quotient with divisor zero is `inf` in the code and is skipped by
`std::min`. Not-a-number values are not modelled.
-/
namespace Verif.TimeStep
open Verif.Grid Verif.Arr

/-! ## Mesh level -/

/-- `new_block_dt_`, `new_block_dt_hyperbolic_`, `new_block_dt_parabolic_`, `new_block_dt_user_` of a block. -/
structure Blk (K : Type) where
  dt : K
  hyp : K
  par : K
  usr : K

/-- Run parameters: `fluid_setup == fixed`, `STS_ENABLED`, `sts_max_dt_ratio`, `tlim`, `nlim`. -/
structure Cfg (K : Type) where
  fixed : Bool
  sts : Bool
  ratio : K
  tlim : K
  nlim : Int

/-- The members of `Mesh` concerned; every rank has its own copy. -/
structure Msh (K : Type) where
  time : K
  dt : K
  hyp : K
  par : K
  usr : K
deriving DecidableEq

section
variable {K : Type} [Field K] [LinearOrder K]

/-- `Mesh::NewTimeStep` up to the reduction (mesh.cpp:1242-1259): `my_blocks(0)` must exist. -/
def localDt (m : Msh K) (bs : List (Blk K)) : Option (Msh K) :=
  match bs with
  | [] => none
  | b0 :: _ =>
    let m1 : Msh K := ⟨m.time, min (2 * m.dt) b0.dt, b0.hyp, b0.par, b0.usr⟩
    some (bs.foldl (fun m b => ⟨m.time, min m.dt b.dt, min m.hyp b.hyp, min m.par b.par, min m.usr b.usr⟩) m1)

/-- `MPI_Allreduce` with `MPI_MIN` (mesh.cpp:1263-1268) of the values `x` of all ranks, seen from rank value `x0`. -/
def allMin (x0 : K) (xs : List K) : K := xs.foldl min x0

/-- The rest of `NewTimeStep` on one rank (mesh.cpp:1271-1280). -/
def cutDt (c : Cfg K) (m : Msh K) : Msh K :=
  let m := if m.time < c.tlim ∧ c.tlim - m.time < m.dt then { m with dt := c.tlim - m.time } else m
  if c.sts then
    if 0 < c.ratio ∧ c.ratio < m.dt / m.par then { m with dt := c.ratio * m.par } else m
  else m

/-- `Mesh::NewTimeStep` (mesh.cpp:1236-1283) on all ranks; a rank is its copy of the members and its blocks. -/
def newTimeStep (c : Cfg K) (ranks : List (Msh K × List (Blk K))) : Option (List (Msh K × List (Blk K))) :=
  if c.fixed then some (ranks.map fun r => ({ r.1 with dt := c.tlim / c.nlim }, r.2))
  else do
    let l ← ranks.mapM fun r => (localDt r.1 r.2).map fun m => (m, r.2)
    let ms := l.map Prod.fst
    pure (l.map fun r =>
      (cutDt c ⟨r.1.time, allMin r.1.dt (ms.map Msh.dt), allMin r.1.hyp (ms.map Msh.hyp),
        allMin r.1.par (ms.map Msh.par), allMin r.1.usr (ms.map Msh.usr)⟩, r.2))

/-! ## Main loop -/

/-- The state of a run: all ranks and the cycle number. -/
structure Sim (K : Type) where
  ranks : List (Msh K × List (Blk K))
  ncycle : Int

/-- Condition of the main loop (main.cpp:457-458), read by a rank. -/
def going (c : Cfg K) (ncycle : Int) (m : Msh K) : Prop := m.time < c.tlim ∧ (c.nlim < 0 ∨ ncycle < c.nlim)

/-- One pass of the main loop. The integration is summarised by its result: the blocks of every rank with their new
limits (`blocks`), and whether load balancing or refinement rebuilt the mesh (`remesh`). `time += dt`, `ncycle++`
(main.cpp:533-534); a rebuilt mesh is initialised again, ending with `NewTimeStep` (amr_loadbalance.cpp:654,
mesh.cpp:1959-1966), then `NewTimeStep` is called in any case (main.cpp:541). -/
def cycle (c : Cfg K) (blocks : List (List (Blk K))) (remesh : Bool) (s : Sim K) : Option (Sim K) := do
  let adv := (s.ranks.zip blocks).map fun r => ({ r.1.1 with time := r.1.1.time + r.1.1.dt }, r.2)
  let r1 ← if remesh then newTimeStep c adv else some adv
  let r2 ← newTimeStep c r1
  pure ⟨r2, s.ncycle + 1⟩

end

/-! ## Block level -/

section
variable {K : Type} [Field K] [LinearOrder K]

/-- `std::min(m, w/s)` where a zero divisor gives `inf`. -/
def cut (m w s : K) : K := if s = 0 then m else min m (w / s)

/-- What `NewBlockTimeStep` reads: cell widths and speeds by direction, and the limits computed elsewhere (absent
when the option is off): Hall, orbital advection, user function, viscosity, conduction, resistivity and
ambipolar diffusion, scalar diffusion. `crad` is `cfl_rad` (implicit radiation). -/
structure In (K : Type) where
  width : Int → Int × Int × Int → K
  speed : Int → Int × Int × Int → K
  realMax : K
  cfl : K
  crad : Option K
  hall : Option K
  orb : Option K
  user : Option K
  diff : List K

def minOpt (m : K) : Option K → K
  | none => m
  | some x => min m x

def mulOpt (m : K) : Option K → K
  | none => m
  | some x => m * x

/-- The loops over cells (new_blockdt.cpp:73-166). -/
def hypLoop (q : In K) (d2 d3 : Bool) (is ie js je ks ke : Int) (m : K) : K :=
  loop ks ke (fun k => loop js je fun j m =>
    let m := loop is ie (fun i m => cut m (q.width 0 (k, j, i)) (q.speed 0 (k, j, i))) m
    let m := if d2 then loop is ie (fun i m => cut m (q.width 1 (k, j, i)) (q.speed 1 (k, j, i))) m else m
    if d3 then loop is ie (fun i m => cut m (q.width 2 (k, j, i)) (q.speed 2 (k, j, i))) m else m) m

/-- `Hydro::NewBlockTimeStep` (new_blockdt.cpp:45-230). The diffusive limits are independent of the loops, so their
minimum may be taken in any order; Hall enters the hyperbolic limit before the Courant factor, orbital advection
after it. -/
def newBlockDt (q : In K) (sts : Bool) (d2 d3 : Bool) (is ie js je ks ke : Int) : Blk K :=
  let hyp := hypLoop q d2 d3 is ie js je ks ke q.realMax
  let par := q.diff.foldl min q.realMax
  let hyp := minOpt hyp q.hall
  let hyp := hyp * q.cfl
  let par := par * q.cfl
  let hyp := mulOpt hyp q.crad
  let par := mulOpt par q.crad
  let hyp := minOpt hyp q.orb
  let dt := min q.realMax hyp
  let usr := q.user.getD q.realMax
  let dt := minOpt dt q.user
  let dt := if sts then dt else min dt par
  ⟨dt, hyp, par, usr⟩

/-- `HydroDiffusion::NewDiffusionDt` for one process (hydro_diffusion.cpp:239-303): `nu` is the total coefficient of
the cell, `tiny` is `TINY_NUMBER`. -/
def diffDt (width : Int → Int × Int × Int → K) (nu : Int × Int × Int → K) (tiny realMax : K) (f2 f3 : Bool)
    (is ie js je ks ke ng : Int) : K :=
  let fac : K := if f3 then 1/6 else if f2 then 1/4 else 1/2
  loop ks ke (fun k => loop js je fun j => loop (is - ng) (ie + ng) fun i m =>
    let len := width 0 (k, j, i)
    let len := if f2 then min len (width 1 (k, j, i)) else len
    let len := if f3 then min len (width 2 (k, j, i)) else len
    min m (len ^ 2 * fac / (nu (k, j, i) + tiny))) realMax

end

/-! ## Signal speeds -/

/-- `EquationOfState::SoundSpeed` (adiabatic_hydro.cpp:125-127, adiabatic_mhd.cpp:141-143). -/
noncomputable def soundSpeed (gamma p d : ℝ) : ℝ := Real.sqrt (gamma * p / d)

/-- `EquationOfState::FastMagnetosonicSpeed` (adiabatic_mhd.cpp:149-156, isothermal_mhd.cpp:122-129); `asq` is
`gamma*p` (adiabatic) or `cs*cs*d` (isothermal). -/
noncomputable def fastSpeed (asq d bx by_ bz : ℝ) : ℝ :=
  let vaxsq := bx * bx
  let ct2 := by_ * by_ + bz * bz
  let qsq := vaxsq + ct2 + asq
  let tmp := vaxsq + ct2 - asq
  Real.sqrt (1/2 * (qsq + Real.sqrt (tmp * tmp + 4 * asq * ct2)) / d)

/-- The speed of a cell in direction `d` without a field (new_blockdt.cpp:118-125). -/
noncomputable def hydroSpeed (cspeed v cs : ℝ) : ℝ := max cspeed (|v| + cs)

/-- The speed of a cell in a direction with a field (new_blockdt.cpp:94-116): `bcc`, `bface` are the normal field at
the centre and on the lower face, `b2`, `b3` the other components. -/
noncomputable def mhdSpeed (cspeed asq d v bcc bface b2 b3 : ℝ) : ℝ :=
  let bx := bcc + |bface - bcc|
  max cspeed (|v| + fastSpeed asq d bx b2 b3)

/-! ## Number of super-time-steps -/

/-- `nstages` of the STS task list (main.cpp:463-478); the cast truncates, the argument is not negative. -/
noncomputable def stsStages (rkl2 : Bool) (dt dtp : ℝ) : Int :=
  let n := if rkl2 then ⌊1/2 * (-1 + Real.sqrt (9 + 16 * (1/2 * dt) / dtp))⌋ + 1
    else ⌊1/2 * (-1 + Real.sqrt (1 + 8 * dt / dtp))⌋ + 1
  if n % 2 = 0 then n + 1 else n

end Verif.TimeStep
