import Mathlib.Data.Real.Basic
import Mathlib.Order.Lattice

/-! What the frequency maps are meant to compute. -/

namespace Verif.FreqMap

/-- A grid: the first face at zero, the `n` faces increasing. -/
structure Grid (n : ℕ) (g : ℕ → ℝ) : Prop where
  two : 2 ≤ n
  zero : g 0 = 0
  lt : ∀ i, i + 1 < n → g i < g (i + 1)

/-- The linear spectrum with the values `u` at `a` and `v` at `b`. -/
noncomputable def lin (u v a b x : ℝ) : ℝ := u + (v - u) * ((x - a) / (b - a))

/-- Its integral over `[c, d]`, zero for an empty interval. -/
noncomputable def area (u v a b c d : ℝ) : ℝ :=
  open Classical in
  if c < d then (lin u v a b c + lin u v a b d) / 2 * (d - c) else 0

/-- The part of the source bin `[a, b]` in bin `m` of the grid; the last bin has no upper end. -/
noncomputable def overlap (n : ℕ) (g : ℕ → ℝ) (u v a b : ℝ) (m : ℕ) : ℝ :=
  area u v a b (max a (g m)) (if m + 1 < n then min b (g (m + 1)) else b)

open Classical in
/-- The spectrum assumed within a bin: flat when the faces are too dim. -/
noncomputable def shape (tiny irl irr : ℝ) : ℝ × ℝ :=
  if irl + irr < tiny then (1, 1) else (irl, irr)

open Classical in
/-- The part in bin `m` of a spectrum which begins at `a` and of which `P` is the integral up to a
frequency, in units of `a / nutr`. -/
noncomputable def tailPart (n : ℕ) (g : ℕ → ℝ) (P : ℝ → ℝ) (nutr a : ℝ) (m : ℕ) : ℝ :=
  if m + 1 < n ∧ g (m + 1) ≤ a then 0
  else (if m + 1 < n then P (nutr * g (m + 1) / a) else 1) - P (nutr * max a (g m) / a)

end Verif.FreqMap
