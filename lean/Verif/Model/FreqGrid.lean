import Mathlib.Analysis.SpecialFunctions.Exp
import Mathlib.Analysis.SpecialFunctions.Pow.Real
import Mathlib.Algebra.Order.Floor.Ring

/-!
The frequency grid, the fit to the integral of the black body and the moments of a Wien spectrum,
nr_radiation/frequencygrid.cpp.  Real numbers for `Real`.
-/

namespace Verif.FreqGrid

open Classical in
/-- Conversion to units of `k T / h`, frequencygrid.cpp:41-50; `q` is `h_planck/(k_b * tunit)`. -/
noncomputable def unit (q x : ℝ) : ℝ := if x < 0 then -x else x * q

/-- The input after the conversion: `nfreq`, `nu_min`, `nu_max`, `fre_ratio`, `log_fre_ == 1`. -/
structure Input where
  nfreq : ℤ
  lo : ℝ
  hi : ℝ
  ratio : ℝ
  log : Bool

open Classical in
/-- Check of the limits, frequencygrid.cpp:52-57; `false` is the fatal error. -/
noncomputable def Input.accepted (p : Input) : Bool := !decide (p.hi ≤ p.lo ∧ p.nfreq > 2)

/-- C++ conversion of a floating-point number to `int` (towards zero); overflow is not modelled. -/
noncomputable def trunc (x : ℝ) : ℤ := if 0 ≤ x then ⌊x⌋ else ⌈x⌉

/-- `log10`. -/
noncomputable def log10 (x : ℝ) : ℝ := Real.log x / Real.log 10

open Classical in
/-- Completion of the data for logarithmic spacing, frequencygrid.cpp:59-72. -/
noncomputable def Input.complete (p : Input) : Input :=
  if p.log then
    if p.ratio > 1 then
      if p.nfreq > 2 then { p with hi := p.lo * p.ratio ^ (p.nfreq - 2).toNat }
      else { p with nfreq := trunc (log10 (p.hi / p.lo) / log10 p.ratio + 2) }
    else
      if p.nfreq > 2 then { p with ratio := 10 ^ (log10 (p.hi / p.lo) / ((p.nfreq : ℝ) - 2)) }
      else p
  else p

/-- `nu_grid`, frequencygrid.cpp:74-90, of the completed data. -/
noncomputable def Input.grid (p : Input) : ℕ → ℝ
  | 0 => 0
  | 1 => p.lo
  | n + 2 =>
    if p.log then p.grid (n + 1) * p.ratio
    else p.grid (n + 1) + (p.hi - p.lo) / ((p.nfreq : ℝ) - 2)

/-- `FitIntPlanckFunc`, frequencygrid.cpp:121-143; `o` is `ONE_PI_FOUR_POWER`. -/
noncomputable def fit (o x : ℝ) : ℝ :=
  if x < 1.9434 then
    0.051329911273422 * (x * (x * x)) - 0.019248716727533 * x * (x * (x * x))
      + 0.002566495563671 * (x * x) * (x * (x * x))
      - 3.055351861513195 * 1e-5 * (x * x * (x * x) * (x * (x * x)))
  else if x < 5.23754 then
    (10 : ℝ) ^ (-0.6874 * log10 x * log10 x * log10 x - 0.5698 * log10 x * log10 x
      + 2.671 * log10 x - 1.476)
  else if x < 50 then
    1 - 15 * o * Real.exp (-x) * (6 + 6 * x + 3 * x * x + x * x * x)
  else 1

/-- `IntPlanckFunc`, frequencygrid.cpp:146-148. -/
noncomputable def intPlanck (o a b : ℝ) : ℝ := fit o b - fit o a

/-- `DefaultEmission`, radiation.cpp:47-59, and frequencygrid.cpp:105-112 (temperature one). -/
noncomputable def emission (o : ℝ) (n : ℕ) (g : ℕ → ℝ) (t : ℝ) (f : ℕ) : ℝ :=
  if n = 1 then 1
  else if f < n - 1 then intPlanck o (g f / t) (g (f + 1) / t)
  else 1 - fit o (g (n - 1) / t)

/-- `ConvertBBJWien`, frequencygrid.cpp:413-430: `nuj` and `jonusq`. -/
noncomputable def wien (j nu t : ℝ) : ℝ × ℝ :=
  let y := nu / t
  let jc := 6 + 6 * y + 3 * y * y + y * y * y
  let njc := 24 + 24 * y + 12 * y * y + 4 * y * y * y + y * y * y * y
  let c := 0.25 * (3 + 6 * y + 6 * y * y + 4 * y * y * y + 2 * y * y * y * y)
  let r := j / (t * t * jc)
  (j * t * njc / jc, r * r * t * c)

/-- `ConvertBBJWien2`, frequencygrid.cpp:432-443: `nnu2` and `n_nuf`; `p` is `PI_FOUR_POWER`. -/
noncomputable def wien2 (p j nu t : ℝ) : ℝ × ℝ :=
  let y := nu / t
  let nc := 2 + 2 * y + y * y
  let jc := 6 + 6 * y + 3 * y * y + y * y * y
  (j * p * nc / (15 * t * jc), j * p / (15 * (t * t * t * t) * jc))

/-- `InverseConvertBBJNNu2Wien`, frequencygrid.cpp:447-455. -/
noncomputable def unwien (o n nu t : ℝ) : ℝ :=
  let y := nu / t
  let nc := 2 + 2 * y + y * y
  let jc := 6 + 6 * y + 3 * y * y + y * y * y
  n * t * 15 * o * jc / nc

/-- `ConvertBBJNNu2`, frequencygrid.cpp:377-392. -/
noncomputable def toNumber (j nu : ℝ) : ℝ :=
  let l := log10 (j / (nu * nu * nu * nu))
  let e := if l < -3.99793 then 0.9971 * l + 0.7464
    else if l < 2.73043 then
      0.0003484 * (l * l) * (l * l) + 0.002327 * (l * l) * l - 0.02137 * (l * l) + 0.8037 * l + 0.3249
    else 0.7506 * l + 0.3773
  (10 : ℝ) ^ e * nu * nu * nu

/-- `InverseConvertBBJNNu2`, frequencygrid.cpp:397-409. -/
noncomputable def ofNumber (n nu : ℝ) : ℝ :=
  let l := Real.log (n / (nu * nu * nu))
  let e := if l > 0.746 then (l - 0.746) / 0.7644 else (l - 0.746) / 0.9846
  Real.exp e * nu * nu * nu * nu

end Verif.FreqGrid
