import Verif.Model.Hydrogen
import Mathlib.Analysis.SpecialFunctions.Log.Deriv
import Mathlib.Analysis.SpecialFunctions.ExpDeriv
import Mathlib.Analysis.SpecialFunctions.Pow.Real
import Mathlib.Analysis.Complex.ExponentialBounds
import Mathlib.Topology.Order.IntermediateValue

/-!
# C96: equation of state of partially ionized hydrogen
-/

namespace Verif.Hydrogen

/-! ### Degree of ionization -/

/-- The exponential in `x_`. -/
noncomputable def saha (rho T : ℝ) : ℝ := Real.exp (1 / T - 3 / 2 * Real.log T + Real.log rho)

theorem saha_pos (rho T : ℝ) : 0 < saha rho T := Real.exp_pos _

theorem root_gt (s : ℝ) (hs : 0 < s) : 1 < Real.sqrt (1 + 4 * s) := by
  rw [Real.lt_sqrt (by norm_num)]
  linarith

theorem frac_pos (rho T : ℝ) : 0 < frac rho T := by
  unfold frac
  have := Real.sqrt_nonneg (1 + 4 * Real.exp (1 / T - 3 / 2 * Real.log T + Real.log rho))
  positivity

theorem frac_lt_one (rho T : ℝ) : frac rho T < 1 := by
  unfold frac
  have := root_gt _ (saha_pos rho T)
  unfold saha at this
  rw [div_lt_one (by linarith)]
  linarith

theorem frac_eq (rho T : ℝ) : frac rho T ^ 2 * saha rho T = 1 - frac rho T := by
  have h : frac rho T = 2 / (1 + Real.sqrt (1 + 4 * saha rho T)) := rfl
  have hp := saha_pos rho T
  have hr := root_gt _ hp
  have hq : Real.sqrt (1 + 4 * saha rho T) ^ 2 = 1 + 4 * saha rho T := Real.sq_sqrt (by linarith)
  rw [h]
  generalize Real.sqrt (1 + 4 * saha rho T) = r at *
  have : 1 + r ≠ 0 := by linarith
  field_simp
  linear_combination -hq

/-- The degree of ionization lies between zero and one and solves the equation of Saha. -/
theorem saha_equation (rho T : ℝ) (hr : 0 < rho) (hT : 0 < T) :
    0 < frac rho T ∧ frac rho T < 1 ∧
      frac rho T ^ 2 / (1 - frac rho T) = T ^ (3 / 2 : ℝ) * Real.exp (-(1 / T)) / rho := by
  refine ⟨frac_pos _ _, frac_lt_one _ _, ?_⟩
  have h1 : 1 - frac rho T ≠ 0 := by have := frac_lt_one rho T; linarith
  have e := frac_eq rho T
  have s : saha rho T * (T ^ (3 / 2 : ℝ) * Real.exp (-(1 / T)) / rho) = 1 := by
    unfold saha
    rw [Real.rpow_def_of_pos hT, ← Real.exp_add]
    have : ∀ y, y / rho = y * Real.exp (-Real.log rho) := by
      intro y
      rw [Real.exp_neg, Real.exp_log hr, div_eq_mul_inv]
    rw [this, ← Real.exp_add, ← Real.exp_add, Real.exp_eq_one_iff]
    ring
  rw [div_eq_iff h1, ← e]
  generalize T ^ (3 / 2 : ℝ) * Real.exp (-(1 / T)) / rho = y at *
  linear_combination -frac rho T ^ 2 * s

/-! ### Monotonicity -/

theorem saha_anti (rho : ℝ) {T U : ℝ} (hT : 0 < T) (h : T < U) : saha rho U < saha rho T := by
  unfold saha
  apply Real.exp_lt_exp.2
  have a : 1 / U < 1 / T := one_div_lt_one_div_of_lt hT h
  have b : Real.log T < Real.log U := Real.log_lt_log hT h
  linarith

theorem frac_mono (rho : ℝ) {T U : ℝ} (hT : 0 < T) (h : T < U) : frac rho T < frac rho U := by
  have a := saha_anti rho hT h
  have hp := saha_pos rho U
  have b : Real.sqrt (1 + 4 * saha rho U) < Real.sqrt (1 + 4 * saha rho T) :=
    Real.sqrt_lt_sqrt (by linarith) (by linarith)
  have c := root_gt _ hp
  change 2 / (1 + Real.sqrt (1 + 4 * saha rho T)) < 2 / (1 + Real.sqrt (1 + 4 * saha rho U))
  exact div_lt_div_of_pos_left (by norm_num) (by linarith) (by linarith)

theorem pres_mono (rho : ℝ) (hr : 0 < rho) : StrictMonoOn (presT rho) (Set.Ioi 0) := by
  intro T hT U hU h
  have hT : 0 < T := hT
  have f := frac_mono rho hT h
  have p := frac_pos rho T
  unfold presT
  have : rho * T < rho * U := mul_lt_mul_of_pos_left h hr
  exact mul_lt_mul'' this (by linarith) (by positivity) (by linarith)

theorem eng_mono (rho : ℝ) (hr : 0 < rho) : StrictMonoOn (engT rho) (Set.Ioi 0) := by
  intro T hT U hU h
  have f := mul_lt_mul_of_pos_right (frac_mono rho hT h) hr
  have g := pres_mono rho hr hT hU h
  unfold engT
  unfold presT at g
  linarith

/-! ### Sound speed -/

theorem frac_deriv {Tf : ℝ → ℝ} {rho T' : ℝ} (hr : 0 < rho) (hT : 0 < Tf rho)
    (hd : HasDerivAt Tf T' rho) :
    HasDerivAt (fun r => frac r (Tf r)) (-(frac rho (Tf rho) * (1 - frac rho (Tf rho)) /
      (2 - frac rho (Tf rho))) * (1 / rho - T' * (1 / Tf rho ^ 2 + 3 / 2 / Tf rho))) rho := by
  have h1 : HasDerivAt (fun r => saha r (Tf r))
      (saha rho (Tf rho) * (-T' / Tf rho ^ 2 - 3 / 2 * (T' / Tf rho) + rho⁻¹)) rho := by
    have a : HasDerivAt (fun r => 1 / Tf r) (-T' / Tf rho ^ 2) rho := by
      have := hd.inv hT.ne'
      simp only [one_div]
      exact this
    have b : HasDerivAt (fun r => Real.log (Tf r)) (T' / Tf rho) rho := hd.log hT.ne'
    have c : HasDerivAt Real.log rho⁻¹ rho := Real.hasDerivAt_log hr.ne'
    exact ((a.sub (b.const_mul (3 / 2))).add c).exp
  have hp := saha_pos rho (Tf rho)
  have h2 : HasDerivAt (fun r => Real.sqrt (1 + 4 * saha r (Tf r)))
      (4 * (saha rho (Tf rho) * (-T' / Tf rho ^ 2 - 3 / 2 * (T' / Tf rho) + rho⁻¹)) /
        (2 * Real.sqrt (1 + 4 * saha rho (Tf rho)))) rho :=
    ((h1.const_mul 4).const_add 1).sqrt (by positivity)
  have hroot := root_gt _ hp
  have hq : Real.sqrt (1 + 4 * saha rho (Tf rho)) ^ 2 = 1 + 4 * saha rho (Tf rho) :=
    Real.sq_sqrt (by linarith)
  have h3 := ((h2.const_add 1).inv (by linarith)).const_mul 2
  have hf : frac rho (Tf rho) = 2 / (1 + Real.sqrt (1 + 4 * saha rho (Tf rho))) := rfl
  have e : (fun r => frac r (Tf r)) =
      fun r => 2 * (fun r => 1 + Real.sqrt (1 + 4 * saha r (Tf r)))⁻¹ r := by
    funext r
    simp only [Pi.inv_apply]
    rw [← div_eq_mul_inv]
    rfl
  rw [e]
  refine HasDerivAt.congr_deriv h3 ?_
  rw [hf]
  have hs : saha rho (Tf rho) = (Real.sqrt (1 + 4 * saha rho (Tf rho)) ^ 2 - 1) / 4 := by
    rw [hq]; ring
  generalize Real.sqrt (1 + 4 * saha rho (Tf rho)) = r at *
  rw [hs]
  have r1 : 1 + r ≠ 0 := by linarith
  have r0 : r ≠ 0 := by linarith
  have hT' := hT.ne'
  have hr' := hr.ne'
  have h4 : 2 - 2 / (1 + r) ≠ 0 := by
    have : 2 - 2 / (1 + r) = 2 * r / (1 + r) := by field_simp; ring
    rw [this]
    positivity
  have h5 : 2 - 2 / (1 + r) = 2 * r / (1 + r) := by field_simp; ring
  rw [h5]
  field_simp
  ring

/-- `asq_` is the square of the sound speed: the derivative of the pressure with respect to the density
along every curve on which the specific energy changes by the work of the pressure only. -/
theorem sound_speed (rho : ℝ) (hr : 0 < rho) (Tf : ℝ → ℝ) (hT : 0 < Tf rho) (T' : ℝ)
    (hd : HasDerivAt Tf T' rho)
    (hs : HasDerivAt (fun r => engT r (Tf r) / r) (presT rho (Tf rho) / rho ^ 2) rho) :
    HasDerivAt (fun r => presT r (Tf r)) (asqT rho (Tf rho)) rho := by
  have hx := frac_deriv hr hT hd
  obtain ⟨x', hx'⟩ : ∃ x', x' = -(frac rho (Tf rho) * (1 - frac rho (Tf rho)) /
      (2 - frac rho (Tf rho))) * (1 / rho - T' * (1 / Tf rho ^ 2 + 3 / 2 / Tf rho)) := ⟨_, rfl⟩
  rw [← hx'] at hx
  have hP := ((hasDerivAt_id' rho).mul hd).mul (hx.const_add 1)
  have hu : HasDerivAt (fun r => frac r (Tf r) + 3 / 2 * (Tf r * (1 + frac r (Tf r))))
      (x' + 3 / 2 * (T' * (1 + frac rho (Tf rho)) + Tf rho * x')) rho :=
    hx.add ((hd.mul (hx.const_add 1)).const_mul (3 / 2))
  have hue : (fun r => engT r (Tf r) / r) =ᶠ[nhds rho]
      fun r => frac r (Tf r) + 3 / 2 * (Tf r * (1 + frac r (Tf r))) := by
    filter_upwards [lt_mem_nhds hr] with r hr0
    unfold engT
    have := (show (0 : ℝ) < r from hr0).ne'
    field_simp
  have hu2 := hs.congr_of_eventuallyEq hue.symm
  have key := hu.unique hu2
  have x0 := frac_pos rho (Tf rho)
  have x1 := frac_lt_one rho (Tf rho)
  refine HasDerivAt.congr_deriv hP ?_
  unfold asqT
  unfold presT at key
  simp only [Pi.mul_apply]
  clear hP hu hue hu2 hx hs hd
  generalize frac rho (Tf rho) = x at *
  generalize Tf rho = T at *
  have h2x : 2 - x ≠ 0 := by linarith
  obtain ⟨q, hq⟩ : ∃ q, q = x * (1 - x) / (2 - x) := ⟨_, rfl⟩
  have hqm : q * (2 - x) = x * (1 - x) := by rw [hq]; exact div_mul_cancel₀ _ h2x
  have hq0 : 0 < q := by
    rw [hq]
    exact div_pos (mul_pos x0 (by linarith)) (by linarith)
  rw [← hq] at hx'
  -- the derivative of the temperature
  have hD : 0 < 6 * T ^ 2 * (1 + x) + (2 + 3 * T) ^ 2 * q := by positivity
  have hT1 := hT.ne'
  have hr1 := hr.ne'
  have hxr : rho * x' * (2 * T ^ 2) = -q * (2 * T ^ 2 - rho * T' * (2 + 3 * T)) := by
    rw [hx']
    field_simp
  have hk : rho * (x' + 3 / 2 * (T' * (1 + x) + T * x')) = T * (1 + x) := by
    rw [key]
    field_simp
  have hTd : rho * T' * (6 * T ^ 2 * (1 + x) + (2 + 3 * T) ^ 2 * q) =
      4 * T ^ 3 * (1 + x) + 2 * T ^ 2 * (2 + 3 * T) * q := by
    linear_combination 4 * T ^ 2 * hk - (2 + 3 * T) * hxr
  have hden : 3 * (2 * (T * T) * (2 + x - x * x)) + (2 + 3 * T) * (2 + 3 * T) * (1 - x) * x =
      (2 - x) * (6 * T ^ 2 * (1 + x) + (2 + 3 * T) ^ 2 * q) := by
    linear_combination -(2 + 3 * T) ^ 2 * hqm
  have hnum : 2 * (2 * (T * T) * (2 + x - x * x)) + 2 * T * (4 + 3 * T) * (1 - x) * x =
      (2 - x) * (4 * T ^ 2 * (1 + x) + 2 * T * (4 + 3 * T) * q) := by
    linear_combination -2 * T * (4 + 3 * T) * hqm
  rw [hden, hnum, mul_div_mul_left _ _ h2x]
  have hD' := hD.ne'
  have goal2 : (1 + x) * T * (4 * T ^ 2 * (1 + x) + 2 * T * (4 + 3 * T) * q) =
      (rho * T' * (1 + x) + rho * T * x') * (6 * T ^ 2 * (1 + x) + (2 + 3 * T) ^ 2 * q) := by
    have : 2 * T * ((rho * T' * (1 + x) + rho * T * x') *
        (6 * T ^ 2 * (1 + x) + (2 + 3 * T) ^ 2 * q)) =
        2 * T * ((1 + x) * T * (4 * T ^ 2 * (1 + x) + 2 * T * (4 + 3 * T) * q)) := by
      linear_combination (2 * T * (1 + x) + q * (2 + 3 * T)) * hTd +
        (6 * T ^ 2 * (1 + x) + (2 + 3 * T) ^ 2 * q) * hxr
    exact (mul_left_cancel₀ (by positivity) this).symm
  have : (1 + x) * T * (1 + (4 * T ^ 2 * (1 + x) + 2 * T * (4 + 3 * T) * q) /
      (6 * T ^ 2 * (1 + x) + (2 + 3 * T) ^ 2 * q)) = (1 + x) * T + (1 + x) * T *
      (4 * T ^ 2 * (1 + x) + 2 * T * (4 + 3 * T) * q) /
      (6 * T ^ 2 * (1 + x) + (2 + 3 * T) ^ 2 * q) := by
    field_simp
  rw [this, goal2, mul_div_cancel_right₀ _ hD']
  ring

/-! ### Brackets -/

theorem order_prod (s : St) : (order s).fa * (order s).fb = s.fa * s.fb := by
  unfold order
  split
  · exact mul_comm _ _
  · rfl

theorem invert_fatal (prec td0 : ℝ) (n : ℕ) (f : ℝ → ℝ) (sol ta tb : ℝ) :
    invert prec td0 n f sol ta tb = .fatal ∨ (f ta / sol - 1) * (f tb / sol - 1) ≤ 0 := by
  unfold invert
  dsimp only
  by_cases h : (start (fun t => f t / sol - 1) ta tb td0).fa *
      (start (fun t => f t / sol - 1) ta tb td0).fb > 0
  · left; rw [if_pos h]
  · right
    unfold start at h
    dsimp only at h
    rw [order_prod] at h
    exact not_lt.1 h

theorem loop_not_fatal (prec : ℝ) (g : ℝ → ℝ) : ∀ (n : ℕ) (s : St), loop prec g n s ≠ .fatal := by
  intro n
  induction n with
  | zero => intro s h; cases h
  | succ n ih =>
    intro s h
    unfold loop at h
    split at h
    · dsimp only at h
      split at h
      · cases h
      · exact ih _ h
    · cases h

theorem fatal_iff (prec td0 : ℝ) (n : ℕ) (f : ℝ → ℝ) (sol ta tb : ℝ) :
    invert prec td0 n f sol ta tb = .fatal ↔ 0 < (f ta / sol - 1) * (f tb / sol - 1) := by
  unfold invert
  dsimp only
  have e : (start (fun t => f t / sol - 1) ta tb td0).fa *
      (start (fun t => f t / sol - 1) ta tb td0).fb = (f ta / sol - 1) * (f tb / sol - 1) := by
    unfold start
    dsimp only
    rw [order_prod]
  rw [e]
  by_cases h : (f ta / sol - 1) * (f tb / sol - 1) > 0
  · rw [if_pos h]; exact ⟨fun _ => h, fun _ => rfl⟩
  · rw [if_neg h]; exact ⟨fun c => absurd c (loop_not_fatal _ _ _ _), fun c => absurd c h⟩

theorem upper_end {rho egas eps : ℝ} (hr : 0 < rho) (he : 0 < egas) (heps : 0 ≤ eps) :
    0 < engT rho ((1 + eps) * 2 * (egas / rho) / 3) / egas - 1 := by
  have x0 := frac_pos rho ((1 + eps) * 2 * (egas / rho) / 3)
  rw [sub_pos, one_lt_div he]
  unfold engT
  generalize frac rho ((1 + eps) * 2 * (egas / rho) / 3) = x at *
  have : 3 / 2 * rho * ((1 + eps) * 2 * (egas / rho) / 3) = (1 + eps) * egas := by
    field_simp
  rw [this]
  have a : 0 < x * rho := mul_pos x0 hr
  have b : 0 ≤ eps * egas := mul_nonneg heps he.le
  have c : 0 ≤ eps * egas * x := mul_nonneg b x0.le
  have d : 0 < egas * x := mul_pos he x0
  linarith

/-- The inversion of the pressure always starts from a bracket: no fatal error. -/
theorem pressure_bracketed (prec td0 eps : ℝ) (n : ℕ) (rho pres : ℝ) (hr : 0 < rho) (hp : 0 < pres)
    (heps : 0 ≤ eps) : tempOfPres prec td0 eps n rho pres ≠ .fatal := by
  unfold tempOfPres
  dsimp only
  rw [Ne, fatal_iff, not_lt]
  have x1 := frac_lt_one rho (1 / 2 * (pres / rho))
  have y0 := frac_pos rho ((1 + eps) * (pres / rho))
  apply mul_nonpos_of_nonpos_of_nonneg
  · rw [sub_nonpos, div_le_one hp]
    unfold presT
    have : rho * (1 / 2 * (pres / rho)) = 1 / 2 * pres := by field_simp
    rw [this]
    have := mul_lt_mul_of_pos_left x1 hp
    linarith
  · rw [sub_nonneg, one_le_div hp]
    unfold presT
    generalize frac rho ((1 + eps) * (pres / rho)) = x at *
    have : rho * ((1 + eps) * (pres / rho)) = (1 + eps) * pres := by field_simp
    rw [this]
    have b : 0 ≤ eps * pres := mul_nonneg heps hp.le
    have c : 0 ≤ eps * pres * x := mul_nonneg b y0.le
    have d : 0 < pres * x := mul_pos hp y0
    linarith

/-- The inversion of the energy starts from a bracket if the specific energy is at least `10/9` of the
energy of ionization. -/
theorem energy_bracketed_partial (prec td0 eps : ℝ) (n : ℕ) (rho egas : ℝ) (hr : 0 < rho)
    (he : 10 / 9 * rho ≤ egas) (heps : 0 ≤ eps) : tempOfEnergy prec td0 eps n rho egas ≠ .fatal := by
  have he0 : 0 < egas := by linarith
  have hes : 10 / 9 ≤ egas / rho := by rwa [le_div_iff₀ hr]
  unfold tempOfEnergy
  dsimp only
  rw [Ne, fatal_iff, not_lt]
  apply mul_nonpos_of_nonpos_of_nonneg
  · rw [max_eq_left (by linarith), sub_nonpos, div_le_one he0]
    have x1 := frac_lt_one rho ((egas / rho - 1) / 3)
    unfold engT
    generalize frac rho ((egas / rho - 1) / 3) = x at *
    have : 3 / 2 * rho * ((egas / rho - 1) / 3) = 1 / 2 * (egas - rho) := by field_simp
    rw [this]
    have a := mul_lt_mul_of_pos_left x1 hr
    have b := mul_le_mul_of_nonneg_left x1.le (show 0 ≤ egas - rho by linarith)
    linarith
  · exact (upper_end hr he0 heps).le

theorem exp_bound : Real.exp (100 / 3) ≤ 6 * 10 ^ 14 := by
  have h : Real.exp (100 / 3) ≤ Real.exp 1 ^ 34 := by
    rw [← Real.exp_nat_mul]
    apply Real.exp_le_exp.2
    norm_num
  have e := Real.exp_one_lt_d9
  have p : Real.exp 1 ^ 34 ≤ 2.7182818286 ^ 34 := pow_le_pow_left₀ (Real.exp_pos 1).le e.le 34
  refine h.trans (p.trans ?_)
  norm_num

theorem saha_small {rho : ℝ} (hr : 0 < rho) (h : rho ≤ 1 / 10 ^ 18) :
    saha rho (3 / 100) ≤ 1 / 4 := by
  unfold saha
  rw [Real.exp_add, Real.exp_log hr, sub_eq_add_neg, Real.exp_add]
  have a : Real.exp (1 / (3 / 100)) ≤ 6 * 10 ^ 14 := by
    rw [show (1 : ℝ) / (3 / 100) = 100 / 3 by norm_num]
    exact exp_bound
  have b : Real.exp (-(3 / 2 * Real.log (3 / 100))) ≤ 216 := by
    have l : Real.log (1 / 36) ≤ Real.log (3 / 100) := Real.log_le_log (by norm_num) (by norm_num)
    have m : Real.log (1 / 36) = -2 * Real.log 6 := by
      rw [one_div, Real.log_inv, show (36 : ℝ) = 6 ^ 2 by norm_num, Real.log_pow]
      push_cast
      ring
    have : -(3 / 2 * Real.log (3 / 100)) ≤ 3 * Real.log 6 := by linarith
    calc Real.exp (-(3 / 2 * Real.log (3 / 100))) ≤ Real.exp (3 * Real.log 6) :=
          Real.exp_le_exp.2 this
      _ = 216 := by
          rw [show (3 : ℝ) * Real.log 6 = ((3 : ℕ) : ℝ) * Real.log 6 by norm_num, Real.exp_nat_mul,
            Real.exp_log (by norm_num)]
          norm_num
  have c : Real.exp (1 / (3 / 100)) * Real.exp (-(3 / 2 * Real.log (3 / 100))) ≤
      6 * 10 ^ 14 * 216 := mul_le_mul a b (Real.exp_pos _).le (by positivity)
  have d := mul_le_mul c h hr.le (by positivity)
  refine d.trans ?_
  norm_num

/-- Finding: at low density (at most `1e-18` in units of the equation of state) a specific energy of
`0.9` is not bracketed although it belongs to a temperature: the code stops with a fatal error. -/
theorem energy_unbracketed (prec td0 eps : ℝ) (n : ℕ) (rho : ℝ) (hr : 0 < rho)
    (h : rho ≤ 1 / 10 ^ 18) (heps : 0 ≤ eps) :
    tempOfEnergy prec td0 eps n rho (9 / 10 * rho) = .fatal := by
  have he0 : 0 < 9 / 10 * rho := by linarith
  unfold tempOfEnergy
  dsimp only
  rw [fatal_iff]
  apply mul_pos
  · have e : 9 / 10 * rho / rho = 9 / 10 := by field_simp
    rw [e, show max ((9 : ℝ) / 10 - 1) (1 / 10 * (9 / 10)) / 3 = 3 / 100 by
      rw [max_eq_right (by norm_num)]; norm_num]
    rw [sub_pos, one_lt_div he0]
    have s := saha_small hr h
    have sp := saha_pos rho (3 / 100)
    have x : 41 / 50 < frac rho (3 / 100) := by
      change _ < 2 / (1 + Real.sqrt (1 + 4 * saha rho (3 / 100)))
      have q : Real.sqrt (1 + 4 * saha rho (3 / 100)) < 142 / 100 := by
        rw [Real.sqrt_lt' (by norm_num)]
        linarith
      have := Real.sqrt_nonneg (1 + 4 * saha rho (3 / 100))
      rw [lt_div_iff₀ (by linarith)]
      linarith
    unfold engT
    generalize frac rho (3 / 100) = x at *
    have := mul_lt_mul_of_pos_right x hr
    rename_i y
    nlinarith
  · exact upper_end hr he0 heps

/-! ### Exact temperature -/

theorem frac_cont (rho : ℝ) : ContinuousOn (frac rho) (Set.Ioi 0) := by
  unfold frac
  apply ContinuousOn.div continuousOn_const
  · apply ContinuousOn.add continuousOn_const
    apply ContinuousOn.sqrt
    apply ContinuousOn.add continuousOn_const
    apply ContinuousOn.mul continuousOn_const
    apply ContinuousOn.rexp
    apply ContinuousOn.add _ continuousOn_const
    apply ContinuousOn.sub
    · exact continuousOn_const.div continuousOn_id fun x hx => (show (0 : ℝ) < x from hx).ne'
    · exact continuousOn_const.mul (Real.continuousOn_log.mono fun x hx =>
        (show (0 : ℝ) < x from hx).ne')
  · intro T _
    have := Real.sqrt_nonneg (1 + 4 * Real.exp (1 / T - 3 / 2 * Real.log T + Real.log rho))
    positivity

theorem eng_cont (rho : ℝ) : ContinuousOn (engT rho) (Set.Ioi 0) := by
  have := frac_cont rho
  unfold engT
  fun_prop

theorem pres_cont (rho : ℝ) : ContinuousOn (presT rho) (Set.Ioi 0) := by
  have := frac_cont rho
  unfold presT
  fun_prop

theorem frac_small {rho T : ℝ} (hr : 0 < rho) (hT : 0 < T) (h1 : T ≤ 1) :
    frac rho T ^ 2 ≤ T / rho := by
  have x1 := frac_lt_one rho T
  have x0 := frac_pos rho T
  have e := frac_eq rho T
  have s : rho / T ≤ saha rho T := by
    unfold saha
    rw [Real.exp_add, Real.exp_log hr, div_eq_mul_inv, mul_comm]
    apply mul_le_mul_of_nonneg_right _ hr.le
    have l : Real.log T ≤ 0 := Real.log_nonpos hT.le h1
    have := Real.add_one_le_exp (1 / T - 3 / 2 * Real.log T)
    rw [← one_div]
    linarith
  have : frac rho T ^ 2 * (rho / T) ≤ 1 := by
    have := mul_le_mul_of_nonneg_left s (sq_nonneg (frac rho T))
    linarith
  rw [le_div_iff₀ hr]
  have q : frac rho T ^ 2 * (rho / T) * T = frac rho T ^ 2 * rho := by field_simp
  have := mul_le_mul_of_nonneg_right this hT.le
  linarith

/-- Every positive energy belongs to exactly one temperature. -/
theorem energy_temperature (rho egas : ℝ) (hr : 0 < rho) (he : 0 < egas) :
    ∃! T, 0 < T ∧ engT rho T = egas := by
  obtain ⟨A, hA, hA1, hA2, hA3⟩ : ∃ A : ℝ, 0 < A ∧ A ≤ 1 ∧ A ≤ egas / (12 * rho) ∧
      A ≤ rho * (egas / (4 * rho)) ^ 2 :=
    ⟨min 1 (min (egas / (12 * rho)) (rho * (egas / (4 * rho)) ^ 2)), by positivity,
      min_le_left _ _, (min_le_right _ _).trans (min_le_left _ _),
      (min_le_right _ _).trans (min_le_right _ _)⟩
  have lo : engT rho A ≤ egas := by
    have x1 := frac_lt_one rho A
    have x0 := frac_pos rho A
    have q := frac_small hr hA hA1
    have x2 : frac rho A ≤ egas / (4 * rho) := by
      refine (pow_le_pow_iff_left₀ x0.le (by positivity) two_ne_zero).1 (q.trans ?_)
      rw [div_le_iff₀ hr, mul_comm]
      exact hA3
    unfold engT
    generalize frac rho A = x at *
    have a : x * rho ≤ egas / 4 := by
      rw [le_div_iff₀ (by positivity)] at x2
      linarith
    have b : rho * A ≤ egas / 12 := by
      rw [le_div_iff₀ (by positivity)] at hA2
      linarith
    have c : rho * A * x ≤ rho * A := by
      have : 0 < rho * A := mul_pos hr hA
      exact mul_le_of_le_one_right this.le x1.le
    linarith
  have hi := upper_end (eps := 0) hr he le_rfl
  rw [sub_pos, one_lt_div he] at hi
  obtain ⟨B, hB⟩ : ∃ B, B = (1 + 0) * 2 * (egas / rho) / 3 := ⟨_, rfl⟩
  rw [← hB] at hi
  have hB0 : 0 < B := by rw [hB]; positivity
  have hAB : A ≤ B := by
    by_contra hc
    push Not at hc
    have := eng_mono rho hr (show B ∈ Set.Ioi 0 from hB0) (show A ∈ Set.Ioi 0 from hA) hc
    linarith
  have cont : ContinuousOn (engT rho) (Set.Icc A B) :=
    (eng_cont rho).mono fun x hx => lt_of_lt_of_le hA hx.1
  obtain ⟨T, hT, e⟩ := intermediate_value_Icc hAB cont ⟨lo, hi.le⟩
  have hT0 : 0 < T := lt_of_lt_of_le hA hT.1
  refine ⟨T, ⟨hT0, e⟩, ?_⟩
  rintro U ⟨hU, e'⟩
  exact (eng_mono rho hr).injOn hU hT0 (by rw [e, e'])

/-- Every positive pressure belongs to exactly one temperature. -/
theorem pressure_temperature (rho pres : ℝ) (hr : 0 < rho) (hp : 0 < pres) :
    ∃! T, 0 < T ∧ presT rho T = pres := by
  have hq : 0 < pres / rho := by positivity
  have lo : presT rho (1 / 2 * (pres / rho)) ≤ pres := by
    have x1 := frac_lt_one rho (1 / 2 * (pres / rho))
    unfold presT
    have : rho * (1 / 2 * (pres / rho)) = 1 / 2 * pres := by field_simp
    rw [this]
    have := mul_lt_mul_of_pos_left x1 hp
    linarith
  have hi : pres ≤ presT rho (pres / rho) := by
    have x0 := frac_pos rho (pres / rho)
    unfold presT
    have : rho * (pres / rho) = pres := by field_simp
    rw [this]
    have := mul_pos hp x0
    linarith
  have cont : ContinuousOn (presT rho) (Set.Icc (1 / 2 * (pres / rho)) (pres / rho)) :=
    (pres_cont rho).mono fun x hx => lt_of_lt_of_le (by linarith) hx.1
  obtain ⟨T, hT, e⟩ := intermediate_value_Icc (by linarith) cont ⟨lo, hi⟩
  have hT0 : 0 < T := lt_of_lt_of_le (by linarith) hT.1
  refine ⟨T, ⟨hT0, e⟩, ?_⟩
  rintro U ⟨hU, e'⟩
  exact (pres_mono rho hr).injOn hU hT0 (by rw [e, e'])

/-! ### The inversion -/

/-- Invariant of the loop. -/
structure Inv (g : ℝ → ℝ) (s : St) : Prop where
  va : s.fa = g s.ta
  vb : s.fb = g s.tb
  opp : s.fa * s.fb ≤ 0
  best : |s.fb| ≤ |s.fa|
  pa : 0 < s.ta
  pb : 0 < s.tb

theorem order_inv {g : ℝ → ℝ} {s : St} (va : s.fa = g s.ta) (vb : s.fb = g s.tb)
    (opp : s.fa * s.fb ≤ 0) (pa : 0 < s.ta) (pb : 0 < s.tb) : Inv g (order s) := by
  unfold order
  split
  · rename_i h
    exact ⟨vb, va, by dsimp only; rwa [mul_comm], h.le, pb, pa⟩
  · rename_i h
    exact ⟨va, vb, opp, not_lt.1 h, pa, pb⟩

theorem update_inv {g : ℝ → ℝ} {s : St} (h : Inv g s) (hb : s.fb ≠ 0) {ts : ℝ} (ht : 0 < ts)
    (m : Bool) : Inv g (update g s ts m) := by
  unfold update
  dsimp only
  split
  · rename_i hn
    exact order_inv h.va rfl hn.le h.pa ht
  · rename_i hn
    push Not at hn
    refine order_inv rfl h.vb ?_ ht h.pb
    dsimp only
    have ha : s.fa ≠ 0 := by
      intro h0
      have := h.best
      rw [h0, abs_zero] at this
      exact hb (abs_nonpos_iff.1 this)
    have opp := h.opp
    rcases lt_or_gt_of_ne ha with ha | ha
    · have h1 : g ts ≤ 0 := by
        by_contra hc
        push Not at hc
        have := mul_neg_of_neg_of_pos ha hc
        linarith
      have h2 : 0 ≤ s.fb := by
        by_contra hc
        push Not at hc
        have := mul_pos_of_neg_of_neg ha hc
        linarith
      exact mul_nonpos_of_nonpos_of_nonneg h1 h2
    · have h1 : 0 ≤ g ts := by
        by_contra hc
        push Not at hc
        have := mul_neg_of_pos_of_neg ha hc
        linarith
      have h2 : s.fb ≤ 0 := by
        by_contra hc
        push Not at hc
        have := mul_pos ha hc
        linarith
      exact mul_nonpos_of_nonneg_of_nonpos h1 h2

theorem loop_spec {prec : ℝ} (hprec : 0 < prec) {g : ℝ → ℝ} : ∀ (n : ℕ) (s : St) (t : ℝ), Inv g s →
    loop prec g n s = .ok t →
      0 < t ∧ (|g t| < prec ∨ ∃ a, 0 < a ∧ |a - t| < prec ∧ g a * g t ≤ 0) := by
  intro n
  induction n with
  | zero => intro s t _ h; cases h
  | succ n ih =>
    intro s t hi h
    unfold loop at h
    split at h
    · rename_i hc
      dsimp only at h
      split at h
      · cases h
      · rename_i hp
        refine ih _ t (update_inv hi ?_ (not_le.1 hp) _) h
        intro h0
        have := hc.2
        rw [h0, abs_zero] at this
        linarith
    · rename_i hc
      cases h
      refine ⟨hi.pb, ?_⟩
      rw [← hi.vb]
      by_cases hb : |s.fb| < prec
      · exact Or.inl hb
      · right
        refine ⟨s.ta, hi.pa, ?_, ?_⟩
        · by_contra hd
          exact hc ⟨not_lt.1 hd, not_lt.1 hb⟩
        · rw [← hi.va]
          exact hi.opp

/-- The result of `invert` for a monotone function: within the precision of the exact temperature `T`,
or the function within the relative precision of the value to be inverted. This holds for every value
of the variable that is not initialized. Missing: that the loop ends, and that it does not try a
temperature that is not positive. -/
theorem invert_spec_partial (prec td0 : ℝ) (hprec : 0 < prec) (n : ℕ) (f : ℝ → ℝ)
    (hf : StrictMonoOn f (Set.Ioi 0)) (sol : ℝ) (hs : 0 < sol) (ta tb : ℝ) (ha : 0 < ta) (hb : 0 < tb)
    (T : ℝ) (hT : 0 < T) (he : f T = sol) (t : ℝ) (h : invert prec td0 n f sol ta tb = .ok t) :
    0 < t ∧ (|f t / sol - 1| < prec ∨ |t - T| < prec) := by
  unfold invert at h
  dsimp only at h
  split at h
  · cases h
  · rename_i hc
    have hi : Inv (fun t => f t / sol - 1) (start (fun t => f t / sol - 1) ta tb td0) := by
      have hp : (f ta / sol - 1) * (f tb / sol - 1) ≤ 0 := by
        unfold start at hc
        dsimp only at hc
        rw [order_prod] at hc
        exact not_lt.1 hc
      have := order_inv (g := fun t => f t / sol - 1)
        (s := ⟨ta, tb, 0, td0, f ta / sol - 1, f tb / sol - 1, false⟩) rfl rfl hp ha hb
      exact ⟨this.va, this.vb, this.opp, this.best, this.pa, this.pb⟩
    obtain ⟨p, q⟩ := loop_spec hprec n _ t hi h
    refine ⟨p, ?_⟩
    rcases q with q | ⟨a, a0, ad, ao⟩
    · exact Or.inl q
    · right
      have mono : ∀ u v, 0 < u → 0 < v → (u ≤ v ↔ f u ≤ f v) := fun u v hu hv =>
        (hf.le_iff_le hu hv).symm
      have sgn : ∀ u, 0 < u → (u ≤ T ↔ f u / sol - 1 ≤ 0) := by
        intro u hu
        rw [mono u T hu hT, he, sub_nonpos, div_le_one hs]
      have sgn' : ∀ u, 0 < u → (T ≤ u ↔ 0 ≤ f u / sol - 1) := by
        intro u hu
        rw [mono T u hT hu, he, sub_nonneg, one_le_div hs]
      rw [abs_lt] at ad ⊢
      rcases le_total T t with h1 | h1
      · have h2 := (sgn' t p).1 h1
        rcases eq_or_lt_of_le h2 with h3 | h3
        · have : t ≤ T := (sgn t p).2 (by linarith)
          constructor <;> linarith
        · have : f a / sol - 1 ≤ 0 := by
            by_contra hn
            push Not at hn
            have := mul_pos hn h3
            linarith
          have := (sgn a a0).2 this
          constructor <;> linarith
      · have h2 := (sgn t p).1 h1
        rcases eq_or_lt_of_le h2 with h3 | h3
        · have : T ≤ t := (sgn' t p).2 (by linarith)
          constructor <;> linarith
        · have : 0 ≤ f a / sol - 1 := by
            by_contra hn
            push Not at hn
            have := mul_pos_of_neg_of_neg hn h3
            linarith
          have := (sgn' a a0).2 this
          constructor <;> linarith

/-- Pressure to temperature. -/
theorem pressure_inverted_partial (prec td0 eps : ℝ) (hprec : 0 < prec) (heps : 0 ≤ eps) (n : ℕ)
    (rho pres : ℝ) (hr : 0 < rho) (hp : 0 < pres) (T : ℝ) (hT : 0 < T) (he : presT rho T = pres) (t : ℝ)
    (h : tempOfPres prec td0 eps n rho pres = .ok t) :
    0 < t ∧ (|presT rho t / pres - 1| < prec ∨ |t - T| < prec) := by
  have : 0 < pres / rho := by positivity
  exact invert_spec_partial prec td0 hprec n _ (pres_mono rho hr) pres hp _ _ (by positivity)
    (by positivity) T hT he t h

/-- Energy to temperature. -/
theorem energy_inverted_partial (prec td0 eps : ℝ) (hprec : 0 < prec) (heps : 0 ≤ eps) (n : ℕ)
    (rho egas : ℝ) (hr : 0 < rho) (hp : 0 < egas) (T : ℝ) (hT : 0 < T) (he : engT rho T = egas) (t : ℝ)
    (h : tempOfEnergy prec td0 eps n rho egas = .ok t) :
    0 < t ∧ (|engT rho t / egas - 1| < prec ∨ |t - T| < prec) := by
  have q : 0 < egas / rho := by positivity
  have m : 0 < max (egas / rho - 1) (1 / 10 * (egas / rho)) := lt_max_of_lt_right (by positivity)
  exact invert_spec_partial prec td0 hprec n _ (eng_mono rho hr) egas hp _ _ (by positivity)
    (by positivity) T hT he t h

/-- Finding: the first pass uses `Td`, which is not initialized. In a bracket in ascending order the
pass takes the midpoint if `Td` happens to equal the lower end, and the secant if it is far away. -/
theorem first_pass_undefined (prec : ℝ) (g : ℝ → ℝ) (ta tb : ℝ)
    (hw : prec ≤ tb - ta) (h0 : 0 < tb - ta) (ga : g ta < 0) (gb : 0 < g tb) (hab : |g tb| ≤ |g ta|)
    (ht : 0 ≤ ta) :
    choose prec g (start g ta tb ta) = (1 / 2 * (ta + tb), true) ∧
    choose prec g (start g ta tb (ta - 3 * (tb - ta))) =
      (tb - g tb * (tb - ta) / (g tb - g ta), false) := by
  have hst : ∀ d, start g ta tb d = ⟨ta, tb, ta, d, g ta, g tb, false⟩ := by
    intro d
    unfold start order
    dsimp only
    rw [if_neg (not_lt.2 hab)]
  have hpr : ∀ d, propose g (start g ta tb d) = tb - g tb * (tb - ta) / (g tb - g ta) := by
    intro d
    rw [hst]
    unfold propose
    dsimp only
    rw [if_neg (by simp)]
  obtain ⟨r, hr⟩ : ∃ r, r = g tb / (g tb - g ta) := ⟨_, rfl⟩
  have r0 : 0 < r := by rw [hr]; exact div_pos gb (by linarith)
  have r1 : r < 1 := by rw [hr, div_lt_one (by linarith)]; linarith
  have e : g tb * (tb - ta) / (g tb - g ta) = r * (tb - ta) := by rw [hr]; ring
  have b0 : 0 < r * (tb - ta) := mul_pos r0 h0
  have b1 : r * (tb - ta) < tb - ta := by
    have := mul_lt_mul_of_pos_right r1 h0
    linarith
  constructor
  · unfold choose
    rw [if_pos, hst]
    rw [hpr, hst]
    right; right; left
    refine ⟨rfl, ?_⟩
    dsimp only
    rw [sub_self, abs_zero, mul_zero]
    exact abs_nonneg _
  · unfold choose
    rw [if_neg, hpr]
    rw [hpr, hst, e]
    unfold reject
    dsimp only
    have a1 : |tb - r * (tb - ta) - tb| = r * (tb - ta) := by
      rw [show tb - r * (tb - ta) - tb = -(r * (tb - ta)) by ring, abs_neg, abs_of_pos b0]
    have a2 : |ta - (ta - 3 * (tb - ta))| = 3 * (tb - ta) := by
      rw [show ta - (ta - 3 * (tb - ta)) = 3 * (tb - ta) by ring, abs_of_pos (by linarith)]
    rw [a1, a2]
    rintro ((c | c) | c | c | c | c)
    · linarith
    · linarith
    · exact absurd c.1 (by decide)
    · linarith [c.2]
    · exact absurd c.1 (by decide)
    · linarith [c.2]

/-! ### Non-vacuity -/

/-- `sound_speed`: through every state there is a curve that meets its hypotheses. -/
example (rho T : ℝ) (hr : 0 < rho) (hT : 0 < T) : ∃ (Tf : ℝ → ℝ) (T' : ℝ), Tf rho = T ∧
    HasDerivAt Tf T' rho ∧
    HasDerivAt (fun r => engT r (Tf r) / r) (presT rho (Tf rho) / rho ^ 2) rho := by
  obtain ⟨q, hq⟩ : ∃ q, q = frac rho T * (1 - frac rho T) / (2 - frac rho T) := ⟨_, rfl⟩
  have x0 := frac_pos rho T
  have x1 := frac_lt_one rho T
  have q0 : 0 < q := by
    rw [hq]
    exact div_pos (mul_pos x0 (by linarith)) (by linarith)
  obtain ⟨k, hk⟩ : ∃ k, k = q * (1 / T ^ 2 + 3 / 2 / T) * (1 + 3 / 2 * T) +
      3 / 2 * (1 + frac rho T) := ⟨_, rfl⟩
  have k0 : 0 < k := by rw [hk]; positivity
  obtain ⟨T', hT'⟩ : ∃ T', T' = (presT rho T / rho ^ 2 + q / rho * (1 + 3 / 2 * T)) / k := ⟨_, rfl⟩
  have e : (fun r => T + T' * (r - rho)) rho = T := by simp
  have hd : HasDerivAt (fun r => T + T' * (r - rho)) T' rho := by
    have := (((hasDerivAt_id' rho).sub_const rho).const_mul T').const_add T
    simpa using this
  refine ⟨fun r => T + T' * (r - rho), T', e, hd, ?_⟩
  have hx := frac_deriv hr (by simpa using hT) hd
  have hu := hx.add ((hd.mul (hx.const_add 1)).const_mul (3 / 2))
  have hue : (fun r => engT r (T + T' * (r - rho)) / r) =ᶠ[nhds rho]
      fun r => frac r (T + T' * (r - rho)) + 3 / 2 * ((T + T' * (r - rho)) *
        (1 + frac r (T + T' * (r - rho)))) := by
    filter_upwards [lt_mem_nhds hr] with r hr0
    unfold engT
    have := (show (0 : ℝ) < r from hr0).ne'
    field_simp
  refine HasDerivAt.congr_deriv (hu.congr_of_eventuallyEq hue) ?_
  have hm : T' * k = presT rho T / rho ^ 2 + q / rho * (1 + 3 / 2 * T) := by
    rw [hT']; exact div_mul_cancel₀ _ k0.ne'
  simp only [sub_self, mul_zero, add_zero]
  rw [← hq]
  rw [hk] at hm
  linear_combination hm

/-- `energy_unbracketed`: the energy in question belongs to a temperature. -/
example : ∃ T, 0 < T ∧ engT (1 / 10 ^ 18) T = 9 / 10 * (1 / 10 ^ 18) :=
  (energy_temperature _ _ (by norm_num) (by norm_num)).exists

/-- `first_pass_undefined`: a linear function. -/
example : (fun t : ℝ => t - 2) 0 < 0 ∧ 0 < (fun t : ℝ => t - 2) 3 ∧
    |(fun t : ℝ => t - 2) 3| ≤ |(fun t : ℝ => t - 2) 0| := by
  norm_num [abs_of_neg]

end Verif.Hydrogen
