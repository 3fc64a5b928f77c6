import Verif.Model.RadSource

/-! The equations of the exchange between gas and radiation, backward in time. -/

namespace Verif.RadSrc.Spec

open scoped BigOperators

variable {N : ℕ}

/-- Usual values: positive constants, opacities not negative, weights that sum to one. -/
structure Ok (o : Opac) (w im tc : Fin N → ℝ) : Prop where
  prat : 0 < o.prat
  red : 0 < o.red
  gm1 : 0 < o.gm1
  rho : 0 < o.rho
  dr : 0 ≤ o.dr
  ds : 0 ≤ o.ds
  dp : 0 ≤ o.dp
  de : 0 ≤ o.de
  wpos : ∀ n, 0 ≤ w n
  impos : ∀ n, 1 ≤ im n
  tcpos : ∀ n, 0 < tc n
  one : ∑ n, w n = 1

/-- `T'` and `I'` solve the implicit equations: every intensity changes by emission, by scattering of
the new mean intensity and by absorption of the new intensity; the temperature of the gas by the
difference of emission and absorption. -/
def Solves (o : Opac) (w im tc I : Fin N → ℝ) (T T' : ℝ) (I' : Fin N → ℝ) : Prop :=
  T' = T - o.prat * o.gm1 / o.rho * (o.dp * T' ^ 4 - o.de * ∑ n, w n * I' n) ∧
  ∀ n, im n * I' n = I n + o.red * tc n *
    ((o.ds + o.dr - o.de) * ∑ n, w n * I' n + o.dp * T' ^ 4 - (o.ds + o.dr) * I' n)

end Verif.RadSrc.Spec
