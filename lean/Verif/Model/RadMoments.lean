import Mathlib.Data.Real.Sqrt
import Mathlib.Algebra.BigOperators.Fin

/-!
Moments of the radiation field, nr_radiation/get_moments.cpp.  Real numbers for `Real`; one cell, `N`
directions and `K` frequency groups.
-/

namespace Verif.RadMoments

open scoped BigOperators

/-- The factor of `irweight` in each of the thirteen moments, get_moments.cpp:69-79 and their order in
`rad_mom`, 83-111 with the enumeration of radiation.hpp:36-37. -/
def factor (x y z : ℝ) : Fin 13 → ℝ :=
  ![1, x, y, z, x * x, y * y, z * z, x * y, x * z, y * z, x * y, x * z, y * z]

/-- `rad_mom_nu`: moments of a group, get_moments.cpp:60-96. -/
def group {N : ℕ} (w cosx cosy cosz I : Fin N → ℝ) (s : Fin 13) : ℝ :=
  ∑ n, w n * I n * factor (cosx n) (cosy n) (cosz n) s

/-- `rad_mom`: sum over the groups, get_moments.cpp:98-111. -/
def lab {N K : ℕ} (w cosx cosy cosz : Fin N → ℝ) (I : Fin K → Fin N → ℝ) (s : Fin 13) : ℝ :=
  ∑ k, group w cosx cosy cosz (I k) s

/-- Velocity with its limit, get_moments.cpp:170-184. -/
noncomputable def limited (invcrat vmax vx vy vz : ℝ) : ℝ × ℝ × ℝ :=
  let ratio := Real.sqrt (vx * vx + vy * vy + vz * vz) * invcrat
  open Classical in
  if ratio > vmax then (vx * (vmax / ratio), vy * (vmax / ratio), vz * (vmax / ratio))
  else (vx, vy, vz)

/-- `lorz`, the Lorentz factor of the velocity `(vx, vy, vz)`; this and the next five are
get_moments.cpp:186-205. -/
noncomputable def lorz (c vx vy vz : ℝ) : ℝ :=
  Real.sqrt (1 / (1 - (vx * vx + vy * vy + vz * vz) * c * c))

/-- `vnc`; `c` is `invcrat`. -/
def vnc (c vx vy vz x y z : ℝ) : ℝ := 1 - (vx * x + vy * y + vz * z) * c

/-- `wmu_cm` before it is normalised. -/
noncomputable def wcm (c vx vy vz w x y z : ℝ) : ℝ :=
  w / (1 / (1 - (vx * vx + vy * vy + vz * vz) * c * c) *
    vnc c vx vy vz x y z * vnc c vx vy vz x y z)

/-- `cm_to_lab`. -/
noncomputable def toCm (c vx vy vz x y z : ℝ) : ℝ :=
  (lorz c vx vy vz * vnc c vx vy vz x y z) ^ 4

/-- `angcoef`. -/
noncomputable def angcoef (c vx vy vz x y z : ℝ) : ℝ :=
  lorz c vx vy vz * c *
    (1 - lorz c vx vy vz * (vx * x + vy * y + vz * z) * c / (1 + lorz c vx vy vz))

/-- `cosx_cm` for the component `x` and velocity component `vx`; likewise the others. -/
noncomputable def cosCm (c vx vy vz x y z comp vcomp : ℝ) : ℝ :=
  (comp - vcomp * angcoef c vx vy vz x y z) * (1 / (lorz c vx vy vz * vnc c vx vy vz x y z))

/-- Moments in the co-moving frame, get_moments.cpp:186-266: the sums over directions and groups of
`ir_cm * wmu_cm` times `f n`; `shift n` is the map of the frequencies for the direction (the identity
for a single group). -/
noncomputable def com {N K : ℕ} (c vx vy vz : ℝ) (w cosx cosy cosz : Fin N → ℝ)
    (shift : Fin N → (Fin K → ℝ) → Fin K → ℝ) (I : Fin K → Fin N → ℝ) (f : Fin N → ℝ) : ℝ :=
  let S := ∑ n, wcm c vx vy vz (w n) (cosx n) (cosy n) (cosz n)
  ∑ k, ∑ n, shift n (fun k => I k n * toCm c vx vy vz (cosx n) (cosy n) (cosz n)) k *
    (wcm c vx vy vz (w n) (cosx n) (cosy n) (cosz n) * (1 / S)) * f n

/-- `rad_mom_cm(IER)`. -/
noncomputable def comEnergy {N K : ℕ} (c vx vy vz : ℝ) (w cosx cosy cosz : Fin N → ℝ)
    (shift : Fin N → (Fin K → ℝ) → Fin K → ℝ) (I : Fin K → Fin N → ℝ) : ℝ :=
  com c vx vy vz w cosx cosy cosz shift I fun _ => 1

/-- `rad_mom_cm(IFR1)`, `IFR2`, `IFR3`. -/
noncomputable def comFlux {N K : ℕ} (c vx vy vz : ℝ) (w cosx cosy cosz : Fin N → ℝ)
    (shift : Fin N → (Fin K → ℝ) → Fin K → ℝ) (I : Fin K → Fin N → ℝ) : ℝ × ℝ × ℝ :=
  (com c vx vy vz w cosx cosy cosz shift I fun n =>
      cosCm c vx vy vz (cosx n) (cosy n) (cosz n) (cosx n) vx,
    com c vx vy vz w cosx cosy cosz shift I fun n =>
      cosCm c vx vy vz (cosx n) (cosy n) (cosz n) (cosy n) vy,
    com c vx vy vz w cosx cosy cosz shift I fun n =>
      cosCm c vx vy vz (cosx n) (cosy n) (cosz n) (cosz n) vz)

end Verif.RadMoments
