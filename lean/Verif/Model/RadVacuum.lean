import Mathlib.Data.Real.Basic
import Mathlib.Data.List.Basic
import Mathlib.Logic.Function.Basic
import Mathlib.Algebra.BigOperators.Fin

/-!
Vacuum and outflow boundaries of radiation, bvals/cc/nr_radiation/vacuum_rad.cpp and outflow_rad.cpp: one
line of cells across the face (the loops along the face are not modelled); `v (c, ang)` is the intensity
of cell `c`.
-/

namespace Verif.RadVacuum

open scoped BigOperators

/-- Body of the loops, vacuum_rad.cpp:48-54: `e` is the edge cell `il` or `iu`, `c` the ghost cell,
`leaves n` the test on the cosine at the edge cell. -/
noncomputable def vacBody (leaves : ℕ → Prop) (nang e c ifr n : ℕ) (v : ℕ × ℕ → ℝ) : ℕ × ℕ → ℝ :=
  let ang := ifr * nang + n
  open Classical in
  if leaves n then Function.update v (c, ang) (v (e, ang)) else Function.update v (c, ang) 0

/-- The loops over ghost cells, groups and angles, vacuum_rad.cpp:43-58; `dst i` is the ghost cell. -/
noncomputable def vacuum (leaves : ℕ → Prop) (dst : ℕ → ℕ) (e ngh nfreq nang : ℕ) (v : ℕ × ℕ → ℝ) :
    ℕ × ℕ → ℝ :=
  (List.range ngh).foldl (fun v i0 => (List.range nfreq).foldl (fun v ifr => (List.range nang).foldl
    (fun v n => vacBody leaves nang e (dst (i0 + 1)) ifr n v) v) v) v

/-- `VacuumInnerX1`, vacuum_rad.cpp:35-61, and likewise x2 (106-132), x3 (178-205): `mu` is the cosine
across the face in the edge cell. -/
noncomputable def vacuumInner (mu : ℕ → ℝ) (il ngh nfreq nang : ℕ) (v : ℕ × ℕ → ℝ) : ℕ × ℕ → ℝ :=
  vacuum (fun n => mu n < 0) (fun i => il - i) il ngh nfreq nang v

/-- `VacuumOuterX1`, vacuum_rad.cpp:68-95, and likewise x2 (139-166), x3 (213-240). -/
noncomputable def vacuumOuter (mu : ℕ → ℝ) (iu ngh nfreq nang : ℕ) (v : ℕ × ℕ → ℝ) : ℕ × ℕ → ℝ :=
  vacuum (fun n => mu n > 0) (fun i => iu + i) iu ngh nfreq nang v

/-- `OutflowInnerX1`, outflow_rad.cpp:42-53: all directions are copied. -/
noncomputable def outflowInner (il ngh nfreq nang : ℕ) (v : ℕ × ℕ → ℝ) : ℕ × ℕ → ℝ :=
  vacuum (fun _ => True) (fun i => il - i) il ngh nfreq nang v

open Classical in
/-- First-order upwind flux of energy of group `f` through the face between cells `a` and `b`, the
advection of rad_transport.cpp with speed `c mu`; `w` are the weights. -/
noncomputable def faceEnergy (c : ℝ) (w mu : ℕ → ℝ) (nang f a b : ℕ) (v : ℕ × ℕ → ℝ) : ℝ :=
  ∑ n ∈ Finset.range nang, w n * (c * mu n * (if mu n > 0 then v (a, f * nang + n)
    else v (b, f * nang + n)))

end Verif.RadVacuum
