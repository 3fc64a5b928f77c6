import Verif.Model.Sts

/-!
# Super-time-stepping: vocabulary
-/
namespace Verif.Sts
variable {K : Type} [Field K]

/-- Legendre polynomials by the three-term recurrence. -/
def legendre : Nat → K → K
  | 0, _ => 1
  | 1, x => x
  | n + 2, x => ((2 * n + 3) * x * legendre (n + 1) x - (n + 1) * legendre n x) / (n + 2)

/-- The time advanced: the whole step with RKL1, half of it with RKL2 (which is applied before and after the main
integrator). -/
def tau (rkl2 : Bool) (dt : K) : K := if rkl2 then dt / 2 else dt

end Verif.Sts
