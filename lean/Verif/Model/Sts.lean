import Mathlib.Algebra.Module.Basic
import Mathlib.Algebra.Order.Field.Basic

/-!
# Super-time-stepping (RKL1 and RKL2)

One super-time-step of `SuperTimeStepTaskList`: the coefficients set at the start of each stage and the registers of
one kind of variable (conserved variables, scalars, or face fields; the three Integrate tasks are alike). The right-hand
side `f` is minus the divergence of the diffusive fluxes (or minus the curl of the electric field) of a state. Exact
arithmetic.
-/
namespace Verif.Sts

/-- `muj`, `nuj`, `muj_tilde`, `gammaj_tilde` of `Mesh`. -/
structure Coef (K : Type) where
  mu : K
  nu : K
  mt : K
  gat : K

section
variable {K : Type} [Field K]

/-- `(j^2 + j - 2)/(2 j (j+1))` (sts_task_list.cpp:583-588). -/
def bFormula (j : K) : K := (j ^ 2 + j - 2) / (2 * j * (j + 1))

/-- `SuperTimeStepTaskList::StartupTaskList` (sts_task_list.cpp:576-614); `j` is `stage`, `s` is `nstages`. For RKL1
`gammaj_tilde` is not set and not used. -/
def coef (rkl2 : Bool) (s j : Nat) : Coef K :=
  let J : K := j
  let S : K := s
  if rkl2 then
    let third : K := 1 / 3
    let bj := if j = 1 ∨ j = 2 then third else bFormula J
    let bm1 := if j = 1 ∨ j = 2 ∨ j = 3 then third else bFormula (J - 1)
    let bm2 := if j = 1 ∨ j = 2 ∨ j = 3 ∨ j = 4 then third else bFormula (J - 2)
    let mu := (2 * J - 1) / J * bj / bm1
    let nu := -1 * (J - 1) / J * bj / bm2
    if j = 1 then ⟨mu, nu, bj * 4 / (S ^ 2 + S - 2), 0⟩
    else
      let mt := mu * 4 / (S ^ 2 + S - 2)
      ⟨mu, nu, mt, -1 * (1 - bm1) * mt⟩
  else
    let mu := (2 * J - 1) / J
    ⟨mu, (1 - J) / J, mu * 2 / (S ^ 2 + S), 0⟩

variable {V : Type} [AddCommGroup V] [Module K V]

/-- Registers `u`, `u0`, `u1`, `u2`, `fl_div`. -/
structure Regs (V : Type) where
  u : V
  u0 : V
  u1 : V
  u2 : V
  fl : V

/-- `IntegrateHydro_STS`, `IntegrateScalars_STS`, `IntegrateField_STS` (sts_task_list.cpp:724-849) with
`AddFluxDivergence_STS` (add_flux_divergence.cpp:105-176, add_scalar_flux_divergence.cpp:108-171) and `CT_STS`
(ct.cpp:123-): the registers are swapped, `WeightedAve` is called with weight 0 for the output (its result is the
weighted sum, C56), the update is added, and in the first stage of RKL2 it is also stored in `fl_div`. The fluxes are
those of the state at the start of the stage. -/
def stage (rkl2 : Bool) (dt : K) (f : V → V) (s j : Nat) (r : Regs V) : Regs V :=
  let c : Coef K := coef rkl2 s j
  let k := f r.u
  let r := if rkl2 ∧ j = 1 then { r with u0 := r.u } else r
  let r := { r with u2 := r.u1, u1 := r.u2 }
  let r := { r with u1 := r.u, u := r.u1 }
  let w3 := if rkl2 then 1 - c.mu - c.nu else 0
  let w4 := if rkl2 then c.gat else 0
  let u := (0 : K) • r.u + (c.mu • r.u1 + c.nu • r.u2 + w3 • r.u0 + w4 • r.fl)
  let wght := c.mt * dt
  let wght := if rkl2 then wght * (1 / 2) else wght
  { r with u := u + wght • k, fl := if rkl2 ∧ j = 1 then (1 / 2 * dt) • k else r.fl }

/-- The stages `1..n` of a super-time-step with `s` stages (main.cpp:479-480). -/
def stages (rkl2 : Bool) (dt : K) (f : V → V) (s : Nat) : Nat → Regs V → Regs V
  | 0, r => r
  | n + 1, r => stage rkl2 dt f s (n + 1) (stages rkl2 dt f s n r)

/-- A super-time-step with `s` stages. -/
def superStep (rkl2 : Bool) (dt : K) (f : V → V) (s : Nat) (r : Regs V) : Regs V := stages rkl2 dt f s s r

end
end Verif.Sts
