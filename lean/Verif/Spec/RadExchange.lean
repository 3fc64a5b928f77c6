import Verif.Model.RadExchange

/-!
# What the exchange between radiation and gas has to do
-/

namespace Verif.RadX.Spec

open Finset

variable {N : ℕ}

/-- A physical cell: positive gas, weights of the co-moving frame that sum to one, directions
of a frame slower than light, opacities not negative. -/
structure Physical (q : Cell N) : Prop where
  w : ∀ n, 0 ≤ q.w n
  norm : ∑ n, q.w n = 1
  tc : ∀ n, 0 < q.tc n
  im : ∀ n, 1 ≤ q.im n
  ir : ∀ n, 0 ≤ q.ir n
  ct : 0 ≤ q.ct
  red : 0 < q.red
  prat : 0 ≤ q.prat
  gm1 : 0 < q.gm1
  rho : 0 < q.rho
  tgas : 0 < q.tgas
  sa : 0 ≤ q.sa
  sp : 0 ≤ q.sp
  spe : 0 ≤ q.spe
  ss : 0 ≤ q.ss

/-- Mean intensity in the co-moving frame. -/
def mean (q : Cell N) (I : Fin N → ℝ) : ℝ := ∑ n, q.w n * I n

/-- The transfer equation along every ray, differenced backward in time: emission `sp T^4`,
scattering and the difference of the opacities from the mean, absorption and scattering out of
the ray.  `im` is one plus the coefficients of an implicit transport step. -/
def Transfer (q : Cell N) (I : Fin N → ℝ) (T : ℝ) : Prop :=
  ∀ n, q.im n * I n = q.ir n + q.red * q.ct * q.tc n *
    (q.sp * T ^ 4 + (q.sa + q.ss - q.spe) * mean q I - (q.sa + q.ss) * I n)

/-- Energy the gas gains by absorption less emission, less what its temperature tells: zero when
the energy equation of the gas, differenced backward in time, holds. -/
noncomputable def gasResidual (q : Cell N) (I : Fin N → ℝ) (T : ℝ) : ℝ :=
  q.rho / q.gm1 * (T - q.tgas) + q.prat * q.ct * (q.sp * T ^ 4 - q.spe * mean q I)

/-- Kinetic plus magnetic plus internal energy of a gas cell at temperature `T`. -/
noncomputable def gasEnergy (gm1 pb T : ℝ) (u : Gas) : ℝ :=
  T * u.d / gm1 + pb + (u.m1 ^ 2 + u.m2 ^ 2 + u.m3 ^ 2) / (2 * u.d)

end Verif.RadX.Spec
