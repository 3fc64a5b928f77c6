import Mathlib.Data.Real.Basic
import Mathlib.Data.List.Basic
import Mathlib.Logic.Function.Basic

/-!
Turns of the directions of radiation in ghost cells, bvals/cc/nr_radiation/rotate_rad.cpp: one cell and
one frequency group, eight octants.  `RotateHPi_InnerX2`, `RotateHPi_OuterX2` (174-218) apply `copy5` to
every ghost cell, `RotateHPi_InnerX3`, `RotateHPi_OuterX3` (228-276) `copy4`, `RotatePi_InnerX3`,
`RotatePi_OuterX3` (287-335) `copy3`; the argument `direction` is not used by any of them.
-/

namespace Verif.RadRotate

/-- Exchange of two entries by way of `temp`, e.g. rotate_rad.cpp:74-76. -/
def swap2 (a b : ℕ) (ir : ℕ → ℝ) : ℕ → ℝ :=
  let temp := ir a
  let ir1 := Function.update ir a (ir b)
  Function.update ir1 b temp

/-- Cycle of four entries, rotate_rad.cpp:111-115 and 124-128. -/
def cycle4 (a1 a2 a3 a4 : ℕ) (ir : ℕ → ℝ) : ℕ → ℝ :=
  let temp := ir a1
  let ir1 := Function.update ir a1 (ir a4)
  let ir2 := Function.update ir1 a4 (ir1 a3)
  let ir3 := Function.update ir2 a3 (ir2 a2)
  Function.update ir3 a2 temp

/-- A loop over the angles of an octant. -/
def loop (nAng : ℕ) (step : ℕ → (ℕ → ℝ) → ℕ → ℝ) (ir : ℕ → ℝ) : ℕ → ℝ :=
  (List.range nAng).foldl (fun a n => step n a) ir

/-- `CopyIntensity3`, rotate_rad.cpp:66-96. -/
def copy3 (N : ℕ) (ir : ℕ → ℝ) : ℕ → ℝ :=
  loop N (fun n a => swap2 (5 * N + n) (6 * N + n) a |> swap2 (7 * N + n) (4 * N + n))
    (loop N (fun n a => swap2 (0 * N + n) (3 * N + n) a |> swap2 (2 * N + n) (1 * N + n)) ir)

/-- `CopyIntensity4`, rotate_rad.cpp:103-131. -/
def copy4 (N : ℕ) (ir : ℕ → ℝ) : ℕ → ℝ :=
  loop N (fun n => cycle4 (4 * N + n) (5 * N + n) (7 * N + n) (6 * N + n))
    (loop N (fun n => cycle4 (0 * N + n) (1 * N + n) (3 * N + n) (2 * N + n)) ir)

/-- `CopyIntensity5`, rotate_rad.cpp:133-164. -/
def copy5 (N : ℕ) (ir : ℕ → ℝ) : ℕ → ℝ :=
  loop N (fun n a => swap2 (2 * N + n) (6 * N + n) a |> swap2 (3 * N + n) (7 * N + n))
    (loop N (fun n a => swap2 (0 * N + n) (4 * N + n) a |> swap2 (1 * N + n) (5 * N + n)) ir)

end Verif.RadRotate
