import Mathlib.Analysis.SpecialFunctions.Pow.Real

/-!
Root of a quartic polynomial, utils/fourth_polynomial_root.cpp, and its use for the effective
temperature of the last frequency bin, nr_radiation/frequencygrid.cpp. Exact arithmetic with real
numbers; `none` for NaN.
-/

namespace Verif.Quartic

/-- `std::pow(x, e)` with a fractional exponent: NaN for negative `x`. For `x = 0` and `e < 0` it is
infinite; the results that follow are NaN, so that `none` is used there, too. -/
noncomputable def cpow (x e : ℝ) : Option ℝ :=
  open Classical in
  if x < 0 then none
  else if x = 0 ∧ e < 0 then none
  else some (x ^ e)

/-- `FouthPolyRoot`, fourth_polynomial_root.cpp:22-60, with `big` for `BIG_NUMBER`
(defs.hpp.in:147); `none` for the return value -1. A NaN (`none` of `cpow`) passes all comparisons
`< 0.0` and is found by `root != root`. -/
noncomputable def polyRoot (big coef4 tconst : ℝ) : Option ℝ :=
  open Classical in
  let ccubic := tconst * tconst * tconst
  let delta1 := 1 / 4 - 64 * ccubic * coef4 / 27
  if delta1 < 0 then none
  else
    let delta1 := Real.sqrt delta1
    if delta1 < 1 / 2 then none
    else
      let z := if delta1 > big then (cpow delta1 (-2 / 3)).map (· / 3)
        else (cpow (1 / 2 + delta1) (1 / 3)).bind fun a =>
          (cpow (-1 / 2 + delta1) (1 / 3)).map fun b => a - b
      match z with
      | none => none
      | some z =>
        if z < 0 then none
        else match cpow coef4 (-2 / 3) with
          | none => none
          | some f =>
            let z := z * f
            let rcoef := Real.sqrt z
            let delta2 := -z + 2 / (coef4 * rcoef)
            if delta2 < 0 then none
            else
              let root := 1 / 2 * (Real.sqrt delta2 - rcoef)
              if root < 0 then none else some root

/-- `EffectiveBlackBody`, frequencygrid.cpp:156-170, for `a_nu > 0.184077200146896`; `pi4` is
`PI_FOUR_POWER`, `a` is `a_nu`. -/
noncomputable def effective (big pi4 a : ℝ) : Option ℝ :=
  match polyRoot big (-pi4 * (1 / 5)) (a * (1 / 5) * pi4) with
  | none => cpow (1 / a) (1 / 4)
  | some r => some (1 / r)

end Verif.Quartic
