import Mathlib.Algebra.Module.Basic
import Mathlib.Algebra.Field.Rat

/-!
# Time integrator (src/task_list/time_integrator.cpp, src/mesh/weighted_ave.cpp)

Arrays are elements of a vector space `V` over the rationals (a block's active cells); arithmetic is
exact. The coded constants `ONE_3RD`, `TWO_3RD` (defs.hpp.in:144-145) are taken as the fractions they round.
-/
namespace Verif.Integrator

variable {V : Type} [AddCommGroup V] [Module ℚ V]

/-! ## WeightedAve -/

/-- `wght[5]`. -/
structure Wghts where
  w0 : ℚ
  w1 : ℚ
  w2 : ℚ
  w3 : ℚ
  w4 : ℚ

/-- `MeshBlock::WeightedAve` for cell-centred arrays (weighted_ave.cpp:35-231). Inputs 2 to 4 may be
unallocated (`none`); using one is `none`. -/
def weightedAve (w : Wghts) (out in1 : V) (in2 in3 in4 : Option V) : Option V :=
  if w.w0 = 1 then
    if w.w4 ≠ 0 then do
      let i2 ← in2; let i3 ← in3; let i4 ← in4
      some (out + (w.w1 • in1 + w.w2 • i2 + w.w3 • i3 + w.w4 • i4))
    else if w.w3 ≠ 0 then do
      let i2 ← in2; let i3 ← in3
      some (out + (w.w1 • in1 + w.w2 • i2 + w.w3 • i3))
    else if w.w2 ≠ 0 then do
      let i2 ← in2
      some (out + (w.w1 • in1 + w.w2 • i2))
    else if w.w1 ≠ 0 then some (out + w.w1 • in1)
    else some out
  else if w.w0 = 0 then
    if w.w4 ≠ 0 then do
      let i2 ← in2; let i3 ← in3; let i4 ← in4
      some (w.w1 • in1 + w.w2 • i2 + w.w3 • i3 + w.w4 • i4)
    else if w.w3 ≠ 0 then do
      let i2 ← in2; let i3 ← in3
      some (w.w1 • in1 + w.w2 • i2 + w.w3 • i3)
    else if w.w2 ≠ 0 then do
      let i2 ← in2
      some (w.w1 • in1 + w.w2 • i2)
    else if w.w1 = 1 then some in1
    else some (w.w1 • in1)
  else
    if w.w4 ≠ 0 then do
      let i2 ← in2; let i3 ← in3; let i4 ← in4
      some (w.w0 • out + w.w1 • in1 + w.w2 • i2 + w.w3 • i3 + w.w4 • i4)
    else if w.w3 ≠ 0 then do
      let i2 ← in2; let i3 ← in3
      some (w.w0 • out + w.w1 • in1 + w.w2 • i2 + w.w3 • i3)
    else if w.w2 ≠ 0 then do
      let i2 ← in2
      some (w.w0 • out + w.w1 • in1 + w.w2 • i2)
    else if w.w1 ≠ 0 then some (w.w0 • out + w.w1 • in1)
    else some (w.w0 • out)

/-- Face field: the three components (index ranges left out; component arrays as elements of one space). -/
structure Face (V : Type) where
  x1 : V
  x2 : V
  x3 : V

/-- `MeshBlock::WeightedAve` for face fields (weighted_ave.cpp:366-823): as above component by component,
except that one line of the branch `wght[0] == 1`, `wght[4] != 0` reads the third component of `b_in3` for
the second component (weighted_ave.cpp:398). -/
def weightedAveFace (w : Wghts) (out in1 : Face V) (in2 in3 in4 : Option (Face V)) : Option (Face V) := do
  let a ← weightedAve w out.x1 in1.x1 (in2.map (·.x1)) (in3.map (·.x1)) (in4.map (·.x1))
  let b ← if w.w0 = 1 ∧ w.w4 ≠ 0 then
      weightedAve w out.x2 in1.x2 (in2.map (·.x2)) (in3.map (·.x3)) (in4.map (·.x2))
    else weightedAve w out.x2 in1.x2 (in2.map (·.x2)) (in3.map (·.x2)) (in4.map (·.x2))
  let c ← weightedAve w out.x3 in1.x3 (in2.map (·.x3)) (in3.map (·.x3)) (in4.map (·.x3))
  some ⟨a, b, c⟩

/-! ## Stage weights -/

inductive Integ
  | vl2 | rk1 | rk2 | rk3 | rk4 | ssprk54
  deriving DecidableEq, Repr

/-- `IntegratorWeight` (task_list.hpp:133-140). -/
structure Stage where
  main : Bool
  orbital : Bool
  sbeta : ℚ
  ebeta : ℚ
  beta : ℚ
  delta : ℚ
  g1 : ℚ
  g2 : ℚ
  g3 : ℚ

/-- `beta` of the main stages (time_integrator.cpp:216-217, 321, 442-443, 576-578, 659-662, 797-801). -/
def betas : Integ → List ℚ
  | .vl2 => [1/2, 1]
  | .rk1 => [1]
  | .rk2 => [1, 1/2]
  | .rk3 => [1, 1/4, 2/3]
  | .rk4 => [1193743905974738/10^15, 99279895495783/10^15, 1131678018054042/10^15, 310665766509336/10^15]
  | .ssprk54 => [391752226571890/10^15, 368410593050371/10^15, 251891774271694/10^15, 544974750228521/10^15,
      226007483236906/10^15]

/-- `delta`, `gamma_1`, `gamma_2`, `gamma_3` of the main stages, in the order of `n_main`
(time_integrator.cpp:225-242, 326-337, 448-465, 583-606, 666-695, 805-843). -/
def gammas : Integ → List (ℚ × ℚ × ℚ × ℚ)
  | .vl2 => [(1, 0, 1, 0), (0, 0, 1, 0)]
  | .rk1 => [(1, 0, 1, 0)]
  | .rk2 => [(1, 0, 1, 0), (0, 1/2, 1/2, 0)]
  | .rk3 => [(1, 0, 1, 0), (0, 1/4, 3/4, 0), (0, 2/3, 1/3, 0)]
  | .rk4 => [(1, 0, 1, 0), (217683334308543/10^15, 121098479554482/10^15, 721781678111411/10^15, 0),
      (1065841341361089/10^15, -3843833699660025/10^15, 2121209265338722/10^15, 0),
      (0, 546370891121863/10^15, 198653035682705/10^15, 0)]
  | .ssprk54 => [(1, 0, 1, 0), (0, 555629506348765/10^15, 444370493651235/10^15, 0),
      (517231671970585/10^15, 379898148511597/10^15, 0, 620101851488403/10^15),
      (96059710526147/10^15, 821920045606868/10^15, 0, 178079954393132/10^15),
      (0, 386708617503268/10^15, 1, 1)]

/-- `sbeta`, `ebeta` without orbital advection for vl2, rk1, rk2, rk3 (time_integrator.cpp:212-215, 319-320, 438-441,
570-575). -/
def simpleTimes : Integ → List (ℚ × ℚ)
  | .vl2 => [(0, 1/2), (1/2, 1)]
  | .rk1 => [(0, 1)]
  | .rk2 => [(0, 1), (1, 1)]
  | .rk3 => [(0, 1), (1, 1/2), (1/2, 1)]
  | _ => []

/-- The loop computing `sbeta`, `ebeta` for rk4 and ssprk5_4 without orbital advection
(time_integrator.cpp:722-735, 870-883): state `temp`, `sbeta` of this stage; arguments the weights of the
remaining stages. -/
def timesLoop : (temp sbeta : ℚ) → List (ℚ × ℚ × ℚ × ℚ × ℚ) → List (ℚ × ℚ)
  | _, _, [] => []
  | _, sbeta, [_] => [(sbeta, 1)]
  | temp, sbeta, (beta, delta, g1, g2, g3) :: rest =>
    let temp_prev := temp
    let temp := temp_prev + delta * sbeta
    let ebeta := g1 * temp_prev + g2 * temp + g3 * 0 + beta
    (sbeta, ebeta) :: timesLoop temp ebeta rest

/-- `sbeta`, `ebeta` without orbital advection. -/
def plainTimes (g : Integ) : List (ℚ × ℚ) :=
  match g with
  | .rk4 | .ssprk54 => timesLoop 0 0 (List.zipWith (fun b x => (b, x)) (betas g) (gammas g))
  | _ => simpleTimes g

/-- Main stages with given times and orbital flags. -/
def mainStages (g : Integ) (times : List (ℚ × ℚ)) (orb : List Bool) : List Stage :=
  List.zipWith (fun (b : (ℚ × ℚ × ℚ × ℚ × ℚ)) (t : (ℚ × ℚ) × Bool) =>
      ⟨true, t.2, t.1.1, t.1.2, b.1, b.2.1, b.2.2.1, b.2.2.2.1, b.2.2.2.2⟩)
    (List.zipWith (fun b x => (b, x)) (betas g) (gammas g)) (List.zipWith (fun t o => (t, o)) times orb)

/-- A stage with orbital advection only (weights of the averages stay unused). -/
def orbitalOnly (s e : ℚ) : Stage := ⟨false, true, s, e, 0, 0, 0, 0, 0⟩

/-- The stages set by the constructor (time_integrator.cpp:112-884). `orb` is `pm->orbital_advection` (0 none,
1 first-order, otherwise second-order splitting), `sm` is `SHEAR_PERIODIC || multilevel`. rk4 and
ssprk5_4 with `sm` and orbital advection are a fatal error (93-110; shear alone as well). -/
def stages (g : Integ) (orb : Nat) (sm : Bool) : Option (List Stage) :=
  let n := (betas g).length
  if orb = 0 then some (mainStages g (plainTimes g) (List.replicate n false))
  else if sm && (g = .rk4 || g = .ssprk54) then none
  else if orb = 1 then
    if sm then
      some (mainStages g (List.replicate n (0, 0)) (List.replicate n false) ++ [orbitalOnly 0 1])
    else
      some (mainStages g (List.replicate (n - 1) (0, 0) ++ [(0, 1)]) (List.replicate (n - 1) false ++ [true]))
  else
    if sm then
      some (orbitalOnly 0 (1/2) :: mainStages g (List.replicate n (1/2, 1/2)) (List.replicate n false)
        ++ [orbitalOnly (1/2) 1])
    else
      some (orbitalOnly 0 (1/2) :: mainStages g (List.replicate (n - 1) (1/2, 1/2) ++ [(1/2, 1)])
        (List.replicate (n - 1) false ++ [true]))

/-! ## One time step -/

/-- Registers `u`, `u1`, `u2` (`u2` allocated for ssprk5_4 only, hydro.cpp:71-73). -/
structure Regs (V : Type) where
  u : V
  u1 : V
  u2 : Option V

/-- The physics of a step, multiplied by `dt`: flux divergence with geometric terms from the primitive variables
of the current `u` (`low`: first-order reconstruction), source terms at a time (fraction of the step),
orbital advection over a fraction of the step. -/
structure Phys (V : Type) where
  flux : Bool → V → V
  src : ℚ → V → V
  orb : ℚ → V → V

/-- `IntegrateHydro` and `AddSourceTerms` in stage `n` (time_integrator.cpp:1797-1847, 1890-1913; `IntegrateScalars` 2376-2420
alike); `kL`, `kS` are flux divergence and source of the state at the start of the stage. -/
def integrate (g : Integ) (n : Nat) (st : Stage) (kL kS : V) (r : Regs V) : Option (Regs V) := do
  let u1 ← weightedAve ⟨1, st.delta, 0, 0, 0⟩ r.u1 r.u r.u2 none none
  let (u, u1) ← if st.g1 = 0 ∧ st.g2 = 1 ∧ st.g3 = 0 then some (u1, r.u)
    else (weightedAve ⟨st.g1, st.g2, st.g3, 0, 0⟩ r.u u1 r.u2 none none).map (·, u1)
  let u := u + st.beta • kL
  let u2 ← if n = 4 ∧ g = .ssprk54 then do
      let u2 ← r.u2
      let u2 ← weightedAve ⟨-1, 0, 0, 0, 0⟩ u2 u1 (some u2) none none
      some (some (u2 + (63692468666290/10^15 : ℚ) • kL))
    else some r.u2
  some ⟨u + st.beta • kS, u1, u2⟩

/-- One stage: fluxes, integration, sources if it is a main stage; then orbital advection
(time_integrator.cpp:1695-1709, 2560-2660). `first` is `stage_wghts[0].orbital_stage`. -/
def stageStep (g : Integ) (P : Phys V) (first : Bool) (n : Nat) (st : Stage) (r : Regs V) : Option (Regs V) := do
  let r ← if st.main then
      let low := g = .vl2 && n - (if first then 1 else 0) == 1
      integrate g n st (P.flux low r.u) (P.src st.sbeta r.u) r
    else some r
  some (if st.orbital then ⟨P.orb (st.ebeta - st.sbeta) r.u, r.u1, r.u2⟩ else r)

/-- All stages (main.cpp:512-514). -/
def runStages (g : Integ) (P : Phys V) (first : Bool) : (n : Nat) → List Stage → Regs V → Option (Regs V)
  | _, [], r => some r
  | n, st :: sts, r => (stageStep g P first n st r).bind (runStages g P first (n + 1) sts)

/-- A step: registers set in stage 1 (time_integrator.cpp:1606-1613), then the stages. -/
def step (g : Integ) (orb : Nat) (sm : Bool) (P : Phys V) (u : V) : Option V :=
  match stages g orb sm with
  | none => none
  | some sts =>
    let first := match sts with
      | [] => false
      | st :: _ => st.orbital
    (runStages g P first 1 sts ⟨u, 0, if g = .ssprk54 then some u else none⟩).map (·.u)

end Verif.Integrator
