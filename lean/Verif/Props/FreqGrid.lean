import Verif.Model.FreqGrid
import Verif.Spec.FreqMap
import Mathlib.Tactic
import Mathlib.Analysis.SpecialFunctions.Pow.Asymptotics
import Mathlib.MeasureTheory.Integral.IntegralEqImproper
import Mathlib.Analysis.SpecialFunctions.ImproperIntegrals
import Mathlib.Analysis.Complex.ExponentialBounds

/-!
C100: the frequency grid, the emission of the gas in its bins, and the Wien tail.
-/

namespace Verif.FreqGrid

open scoped BigOperators

/-! ### The grid -/

/-- **C100.** Every frequency given other than zero is positive after the conversion. -/
theorem unit_pos {q x : ℝ} (hq : 0 < q) (hx : x ≠ 0) : 0 < unit q x := by
  unfold unit
  split
  · linarith
  · rename_i h
    exact mul_pos (lt_of_le_of_ne (not_lt.mp h) hx.symm) hq

theorem log_ratio_pos {a b : ℝ} (ha : 0 < a) (h : a < b) : 0 < log10 (b / a) := by
  unfold log10
  apply div_pos
  · exact Real.log_pos (by rw [one_lt_div ha]; exact h)
  · exact Real.log_pos (by norm_num)

theorem grid_log (p : Input) (hl : p.log = true) (n : ℕ) : p.grid (n + 1) = p.lo * p.ratio ^ n := by
  induction n with
  | zero => simp [Input.grid]
  | succ k ih =>
    rw [Input.grid, if_pos hl, ih, pow_succ]
    ring

theorem grid_lin (p : Input) (hl : p.log = false) (n : ℕ) :
    p.grid (n + 1) = p.lo + n * ((p.hi - p.lo) / ((p.nfreq : ℝ) - 2)) := by
  induction n with
  | zero => simp [Input.grid]
  | succ k ih =>
    rw [Input.grid, if_neg (by simp [hl]), ih]
    push_cast
    ring

/-- The ratio after completion. -/
theorem complete_ratio (p : Input) (hlo : 0 < p.lo) (hok : p.accepted = true) (hn : 2 < p.nfreq)
    (hl : p.log = true) : 1 < p.complete.ratio := by
  have hlt : p.lo < p.hi := by
    unfold Input.accepted at hok
    simp only [Bool.not_eq_true', decide_eq_false_iff_not, not_and] at hok
    by_contra hc
    exact hok (not_lt.mp hc) hn
  unfold Input.complete
  rw [if_pos hl]
  by_cases hr : p.ratio > 1
  · rw [if_pos hr, if_pos hn]
    exact hr
  · rw [if_neg hr, if_pos hn]
    apply Real.one_lt_rpow (by norm_num)
    apply div_pos (log_ratio_pos hlo hlt)
    have : (2 : ℝ) < p.nfreq := by exact_mod_cast hn
    linarith

theorem complete_same (p : Input) : p.complete.lo = p.lo ∧ p.complete.log = p.log := by
  unfold Input.complete
  split
  · split <;> split <;> exact ⟨rfl, rfl⟩
  · exact ⟨rfl, rfl⟩

theorem complete_nfreq (p : Input) (hn : 2 < p.nfreq) : p.complete.nfreq = p.nfreq := by
  unfold Input.complete
  split_ifs <;> rfl

/-- **C100.** A grid with a positive lowest frequency and more than two bins that passes the check is a
proper one: its first face is at zero, its faces increase, from `nu_min` to the `nu_max` that is
reported. -/
theorem grid_proper (p : Input) (hlo : 0 < p.lo) (hok : p.accepted = true) (hn : 2 < p.nfreq) :
    FreqMap.Grid p.complete.nfreq.toNat p.complete.grid ∧ p.complete.grid 1 = p.lo ∧
      p.complete.grid (p.complete.nfreq.toNat - 1) = p.complete.hi := by
  have hlt : p.lo < p.hi := by
    have hk := hok
    unfold Input.accepted at hk
    simp only [Bool.not_eq_true', decide_eq_false_iff_not, not_and] at hk
    by_contra hc
    exact hk (not_lt.mp hc) hn
  have hN := complete_nfreq p hn
  obtain ⟨c1, c2⟩ := complete_same p
  obtain ⟨m, hm⟩ : ∃ m : ℕ, p.nfreq = m + 3 := ⟨(p.nfreq - 3).toNat, by omega⟩
  have hN' : p.complete.nfreq.toNat = m + 3 := by rw [hN, hm]; omega
  have hmr : (p.nfreq : ℝ) - 2 = m + 1 := by rw [hm]; push_cast; ring
  have hmp : (0 : ℝ) < m + 1 := by positivity
  rw [hN']
  refine ⟨⟨by omega, rfl, ?_⟩, by rw [Input.grid, c1], ?_⟩
  · intro i _
    cases i with
    | zero => simp [Input.grid, c1, hlo]
    | succ k =>
      cases hl : p.log
      · rw [grid_lin _ (by rw [c2, hl]), grid_lin _ (by rw [c2, hl])]
        have hc : p.complete = p := by unfold Input.complete; simp [hl]
        rw [hc, hmr]
        have : 0 < (p.hi - p.lo) / ((m : ℝ) + 1) := div_pos (by linarith) hmp
        push_cast
        linarith
      · rw [grid_log _ (by rw [c2, hl]), grid_log _ (by rw [c2, hl]), c1]
        have hr := complete_ratio p hlo hok hn hl
        exact mul_lt_mul_of_pos_left (pow_lt_pow_right₀ hr (by omega)) hlo
  · rw [show m + 3 - 1 = (m + 1) + 1 by omega]
    cases hl : p.log
    · rw [grid_lin _ (by rw [c2, hl])]
      have hc : p.complete = p := by unfold Input.complete; simp [hl]
      rw [hc, hmr]
      push_cast
      field_simp
      ring
    · rw [grid_log _ (by rw [c2, hl]), c1]
      unfold Input.complete
      rw [if_pos hl]
      by_cases hr : p.ratio > 1
      · rw [if_pos hr, if_pos hn]
        have : (p.nfreq - 2).toNat = m + 1 := by omega
        simp only [this]
      · rw [if_neg hr, if_pos hn]
        simp only [hmr]
        rw [← Real.rpow_natCast, ← Real.rpow_mul (by norm_num)]
        push_cast
        rw [div_mul_cancel₀ _ hmp.ne']
        unfold log10
        rw [Real.rpow_def_of_pos (by norm_num), mul_div_cancel₀ _ (by positivity),
          Real.exp_log (div_pos (by linarith) hlo)]
        field_simp

example : Input.accepted ⟨10, 0.01, 20, 1, true⟩ = true ∧ (2 : ℤ) < 10 := by
  norm_num [Input.accepted]

/-- **C100.** If the number of bins is left to the code, the last face is the last one of the
given ratio that does not exceed `nu_max`. -/
theorem grid_count (p : Input) (hlo : 0 < p.lo) (hlt : p.lo ≤ p.hi) (hn : p.nfreq ≤ 2)
    (hl : p.log = true) (hr : 1 < p.ratio) :
    2 ≤ p.complete.nfreq ∧ p.complete.grid (p.complete.nfreq.toNat - 1) ≤ p.hi ∧
      p.hi < p.complete.grid (p.complete.nfreq.toNat - 1) * p.ratio := by
  have h10 : (0 : ℝ) < Real.log 10 := Real.log_pos (by norm_num)
  have hlr : 0 < Real.log p.ratio := Real.log_pos hr
  have hhi : 0 < p.hi := by linarith
  have hq : 0 ≤ Real.log (p.hi / p.lo) := Real.log_nonneg (by rw [le_div_iff₀ hlo]; linarith)
  have hc : p.complete = { p with nfreq := trunc (log10 (p.hi / p.lo) / log10 p.ratio + 2) } := by
    unfold Input.complete
    rw [if_pos hl, if_pos hr, if_neg (by omega)]
  have hx : log10 (p.hi / p.lo) / log10 p.ratio = Real.log (p.hi / p.lo) / Real.log p.ratio := by
    unfold log10
    field_simp
  set x := Real.log (p.hi / p.lo) / Real.log p.ratio with hxd
  have hx0 : 0 ≤ x := div_nonneg hq hlr.le
  have ht : trunc (x + 2) = ⌊x⌋ + 2 := by
    unfold trunc
    rw [if_pos (by linarith)]
    exact_mod_cast Int.floor_add_natCast x 2
  obtain ⟨m, hm⟩ : ∃ m : ℕ, ⌊x⌋ = m := ⟨⌊x⌋.toNat, by have := Int.floor_nonneg.mpr hx0; omega⟩
  have hN : p.complete.nfreq = m + 2 := by rw [hc]; simp only [hx, ht, hm]
  have hg : p.complete.grid (p.complete.nfreq.toNat - 1) = p.lo * p.ratio ^ m := by
    have e : p.complete.nfreq.toNat - 1 = m + 1 := by omega
    rw [e, grid_log _ (by rw [hc]; exact hl), hc]
  have hxm : (m : ℝ) ≤ x := by
    have := Int.floor_le x
    rw [hm] at this
    exact_mod_cast this
  have hxm' : x < m + 1 := by
    have := Int.lt_floor_add_one x
    rw [hm] at this
    exact_mod_cast this
  have hlog : Real.log (p.hi / p.lo) = x * Real.log p.ratio := by
    rw [hxd]
    field_simp
  have hdiv : 0 < p.hi / p.lo := div_pos hhi hlo
  have hrp : 0 < p.ratio := by linarith
  refine ⟨by omega, ?_, ?_⟩
  · rw [hg]
    have : p.ratio ^ m ≤ p.hi / p.lo := by
      rw [← Real.log_le_log_iff (pow_pos hrp m) hdiv, Real.log_pow, hlog]
      exact mul_le_mul_of_nonneg_right hxm hlr.le
    rw [le_div_iff₀ hlo] at this
    linarith
  · rw [hg]
    have : p.hi / p.lo < p.ratio ^ (m + 1) := by
      rw [← Real.log_lt_log_iff hdiv (pow_pos hrp _), Real.log_pow, hlog]
      push_cast
      exact mul_lt_mul_of_pos_right hxm' hlr
    rw [div_lt_iff₀ hlo, pow_succ] at this
    linarith

/-- **C100, finding F105.** The lowest frequency zero, the default, is accepted; with a given ratio
all faces of the grid are then zero. -/
theorem zero_frequency (hi : ℝ) (hhi : 0 < hi) (nfreq : ℤ) (_hn : 2 < nfreq) (ratio : ℝ)
    (_hr : 1 < ratio) : let p : Input := ⟨nfreq, 0, hi, ratio, true⟩
    p.accepted = true ∧ ∀ n, p.complete.grid n = 0 := by
  intro p
  refine ⟨by simp [p, Input.accepted, hhi], ?_⟩
  intro n
  obtain ⟨c1, c2⟩ := complete_same p
  cases n with
  | zero => rfl
  | succ k => rw [grid_log _ (by rw [c2]), c1]; simp [p]

/-- **C100, finding F106.** With at most two bins the limits are not compared: the number of bins that
the code finds may be negative. -/
theorem negative_bins : let p : Input := ⟨1, 10000, 1, 10, true⟩
    p.accepted = true ∧ p.complete.nfreq = -2 := by
  intro p
  refine ⟨by simp [p, Input.accepted], ?_⟩
  unfold Input.complete
  simp only [p, if_true]
  rw [if_pos (by norm_num), if_neg (by norm_num)]
  have h10 : Real.log 10 ≠ 0 := (Real.log_pos (by norm_num)).ne'
  have h : log10 (1 / 10000) = -4 := by
    unfold log10
    rw [show (1 / 10000 : ℝ) = ((10 : ℝ) ^ 4)⁻¹ by norm_num, Real.log_inv, Real.log_pow]
    field_simp
    norm_num
  have h2 : log10 10 = 1 := div_self h10
  simp only [h, h2]
  unfold trunc
  norm_num

/-! ### Emission -/

/-- **C100.** The emission spectrum sums to one at every temperature, for every grid that begins at
zero. -/
theorem emission_total (o : ℝ) {n : ℕ} (hn : 1 ≤ n) (g : ℕ → ℝ) (h0 : g 0 = 0) (t : ℝ) :
    ∑ f ∈ Finset.range n, emission o n g t f = 1 := by
  by_cases h1 : n = 1
  · subst h1
    simp [emission]
  · obtain ⟨m, rfl⟩ : ∃ m, n = m + 1 := ⟨n - 1, by omega⟩
    rw [Finset.sum_range_succ]
    have hl : emission o (m + 1) g t m = 1 - fit o (g m / t) := by
      unfold emission
      rw [if_neg h1, if_neg (by omega)]
      simp
    have hs : ∀ f ∈ Finset.range m, emission o (m + 1) g t f =
        fit o (g (f + 1) / t) - fit o (g f / t) := by
      intro f hf
      have := Finset.mem_range.mp hf
      unfold emission intPlanck
      rw [if_neg h1, if_pos (by omega)]
    rw [Finset.sum_congr rfl hs, Finset.sum_range_sub fun f => fit o (g f / t), hl, h0, zero_div]
    have : fit o 0 = 0 := by unfold fit; norm_num
    rw [this]
    ring

theorem log10_bounds {x : ℝ} (h1 : 1.9434 ≤ x) (h2 : x < 5.23754) :
    0.25 ≤ log10 x ∧ log10 x ≤ 0.72 := by
  have h10 : (0 : ℝ) < Real.log 10 := Real.log_pos (by norm_num)
  have hx : 0 < x := by linarith
  unfold log10
  constructor
  · rw [le_div_iff₀ h10]
    have : Real.log 10 ≤ Real.log (x ^ 4) := by
      apply Real.log_le_log (by norm_num)
      calc (10 : ℝ) ≤ 1.9434 ^ 4 := by norm_num
        _ ≤ x ^ 4 := pow_le_pow_left₀ (by norm_num) h1 4
    rw [Real.log_pow] at this
    push_cast at this
    linarith
  · rw [div_le_iff₀ h10]
    have : Real.log (x ^ 25) ≤ Real.log (10 ^ 18) := by
      apply Real.log_le_log (by positivity)
      calc x ^ 25 ≤ 5.23754 ^ 25 := pow_le_pow_left₀ hx.le h2.le 25
        _ ≤ 10 ^ 18 := by norm_num
    rw [Real.log_pow, Real.log_pow] at this
    push_cast at this
    linarith

/-- `e^x` against the first terms of its series. -/
theorem exp_cubic {x : ℝ} (hx : 0 ≤ x) : 6 + 6 * x + 3 * x * x + x * x * x ≤ 6 * Real.exp x := by
  have h := Real.sum_le_exp_of_nonneg hx 4
  simp [Finset.sum_range_succ, Nat.factorial] at h
  nlinarith

/-- **C100.** The fit to the fraction of the black body below a frequency lies between zero and one. -/
theorem fit_range {o x : ℝ} (ho : 0 ≤ o) (ho1 : o * 90 ≤ 1) (hx : 0 ≤ x) :
    0 ≤ fit o x ∧ fit o x ≤ 1 := by
  unfold fit
  by_cases h1 : x < 1.9434
  · rw [if_pos h1]
    have e : 0.051329911273422 * (x * (x * x)) - 0.019248716727533 * x * (x * (x * x))
      + 0.002566495563671 * (x * x) * (x * (x * x))
      - 3.055351861513195 * 1e-5 * (x * x * (x * x) * (x * (x * x))) =
      x ^ 3 * (0.051329911273422 - 0.019248716727533 * x + 0.002566495563671 * x ^ 2
        - 3.055351861513195 * 1e-5 * x ^ 4) := by ring
    rw [e]
    have h3 : 0 ≤ x ^ 3 := by positivity
    have h3' : x ^ 3 ≤ 8 := by
      calc x ^ 3 ≤ 2 ^ 3 := pow_le_pow_left₀ hx (by linarith) 3
        _ = 8 := by norm_num
    have h2 : x ^ 2 ≤ 4 := by
      calc x ^ 2 ≤ 2 ^ 2 := pow_le_pow_left₀ hx (by linarith) 2
        _ = 4 := by norm_num
    have h4 : x ^ 4 ≤ 16 := by
      calc x ^ 4 ≤ 2 ^ 4 := pow_le_pow_left₀ hx (by linarith) 4
        _ = 16 := by norm_num
    have h20 : 0 ≤ x ^ 2 := by positivity
    have h40 : 0 ≤ x ^ 4 := by positivity
    have l : 0 ≤ 0.051329911273422 - 0.019248716727533 * x + 0.002566495563671 * x ^ 2
        - 3.055351861513195 * 1e-5 * x ^ 4 := by norm_num at *; linarith
    have u : 0.051329911273422 - 0.019248716727533 * x + 0.002566495563671 * x ^ 2
        - 3.055351861513195 * 1e-5 * x ^ 4 ≤ 1 / 8 := by norm_num at *; linarith
    exact ⟨mul_nonneg h3 l, by nlinarith⟩
  · rw [if_neg h1]
    by_cases h2 : x < 5.23754
    · rw [if_pos h2]
      obtain ⟨a, b⟩ := log10_bounds (not_lt.mp h1) h2
      refine ⟨by positivity, ?_⟩
      apply Real.rpow_le_one_of_one_le_of_nonpos (by norm_num)
      generalize log10 x = l at *
      have : 0 ≤ (0.72 - l) * (l - 0.25) := mul_nonneg (by linarith) (by linarith)
      nlinarith [mul_nonneg (mul_nonneg (by linarith : (0 : ℝ) ≤ l) (by linarith : (0 : ℝ) ≤ l))
        (by linarith : (0 : ℝ) ≤ l)]
    · rw [if_neg h2]
      split
      · have hp : 0 ≤ 6 + 6 * x + 3 * x * x + x * x * x := by positivity
        have he := exp_cubic hx
        have hE := Real.exp_pos (-x)
        have h6 : Real.exp (-x) * (6 + 6 * x + 3 * x * x + x * x * x) ≤ 6 := by
          calc _ ≤ Real.exp (-x) * (6 * Real.exp x) := mul_le_mul_of_nonneg_left he hE.le
            _ = 6 := by rw [Real.exp_neg]; field_simp
        have h7 : 0 ≤ Real.exp (-x) * (6 + 6 * x + 3 * x * x + x * x * x) := by positivity
        have e : 15 * o * Real.exp (-x) * (6 + 6 * x + 3 * x * x + x * x * x) =
          15 * o * (Real.exp (-x) * (6 + 6 * x + 3 * x * x + x * x * x)) := by ring
        rw [e]
        generalize Real.exp (-x) * (6 + 6 * x + 3 * x * x + x * x * x) = w at *
        constructor
        · nlinarith
        · nlinarith [mul_nonneg ho h7]
      · norm_num

/-! The three branches of the fit. -/

theorem low_mono {x y : ℝ} (hx : 0 ≤ x) (hxy : x ≤ y) (hy : y ≤ 1.9434) :
    0.051329911273422 * (x * (x * x)) - 0.019248716727533 * x * (x * (x * x))
      + 0.002566495563671 * (x * x) * (x * (x * x))
      - 3.055351861513195 * 1e-5 * (x * x * (x * x) * (x * (x * x))) ≤
    0.051329911273422 * (y * (y * y)) - 0.019248716727533 * y * (y * (y * y))
      + 0.002566495563671 * (y * y) * (y * (y * y))
      - 3.055351861513195 * 1e-5 * (y * y * (y * y) * (y * (y * y))) := by
  let q : ℝ → ℝ := fun x => 0.051329911273422 * x ^ 3 - 0.019248716727533 * x ^ 4
      + 0.002566495563671 * x ^ 5 - 3.055351861513195 * 1e-5 * x ^ 7
  have hd : ∀ x, HasDerivAt q (0.051329911273422 * (3 * x ^ 2) - 0.019248716727533 * (4 * x ^ 3)
      + 0.002566495563671 * (5 * x ^ 4) - 3.055351861513195 * 1e-5 * (7 * x ^ 6)) x := by
    intro x
    have := (((hasDerivAt_pow 3 x).const_mul 0.051329911273422).sub
      ((hasDerivAt_pow 4 x).const_mul 0.019248716727533)).add
      ((hasDerivAt_pow 5 x).const_mul 0.002566495563671) |>.sub
      ((hasDerivAt_pow 7 x).const_mul (3.055351861513195 * 1e-5))
    exact this.congr_deriv (by norm_num)
  have hm : MonotoneOn q (Set.Icc 0 1.9434) := by
    apply monotoneOn_of_deriv_nonneg (convex_Icc _ _)
    · exact fun x _ => (hd x).continuousAt.continuousWithinAt
    · exact fun x _ => (hd x).differentiableAt.differentiableWithinAt
    · intro x hx
      rw [interior_Icc] at hx
      rw [(hd x).deriv]
      have h0 : 0 ≤ x := hx.1.le
      have h1 : x ≤ 1.9434 := hx.2.le
      have h4 : x ^ 4 ≤ 16 := by
        calc x ^ 4 ≤ 2 ^ 4 := pow_le_pow_left₀ h0 (by linarith) 4
          _ = 16 := by norm_num
      have e : 0.051329911273422 * (3 * x ^ 2) - 0.019248716727533 * (4 * x ^ 3)
          + 0.002566495563671 * (5 * x ^ 4) - 3.055351861513195 * 1e-5 * (7 * x ^ 6) =
          x ^ 2 * (0.051329911273422 * 3 - 0.019248716727533 * 4 * x
          + 0.002566495563671 * 5 * x ^ 2 - 3.055351861513195 * 1e-5 * 7 * x ^ 4) := by ring
      rw [e]
      apply mul_nonneg (by positivity)
      norm_num at *
      nlinarith [sq_nonneg (x - 1.9434)]
  have := hm ⟨hx, by linarith⟩ ⟨by linarith, hy⟩ hxy
  simp only [q] at this
  linarith

theorem exponent_mono {a b : ℝ} (ha : 0.25 ≤ a) (hab : a ≤ b) (hb : b ≤ 0.72) :
    -0.6874 * a * a * a - 0.5698 * a * a + 2.671 * a - 1.476 ≤
      -0.6874 * b * b * b - 0.5698 * b * b + 2.671 * b - 1.476 := by
  have e : (-0.6874 * b * b * b - 0.5698 * b * b + 2.671 * b - 1.476) -
      (-0.6874 * a * a * a - 0.5698 * a * a + 2.671 * a - 1.476) =
      (b - a) * (2.671 - 0.5698 * (a + b) - 0.6874 * (a * a + a * b + b * b)) := by ring
  have h1 : a * a ≤ 0.72 * 0.72 := mul_le_mul (by linarith) (by linarith) (by linarith) (by norm_num)
  have h2 : a * b ≤ 0.72 * 0.72 := mul_le_mul (by linarith) hb (by linarith) (by norm_num)
  have h3 : b * b ≤ 0.72 * 0.72 := mul_le_mul hb hb (by linarith) (by norm_num)
  have : 0 ≤ (b - a) * (2.671 - 0.5698 * (a + b) - 0.6874 * (a * a + a * b + b * b)) := by
    apply mul_nonneg (by linarith)
    norm_num at *
    linarith
  linarith

theorem log10_mono {x y : ℝ} (hx : 0 < x) (hxy : x ≤ y) : log10 x ≤ log10 y := by
  unfold log10
  exact div_le_div_of_nonneg_right (Real.log_le_log hx hxy) (Real.log_pos (by norm_num)).le

theorem high_anti {x y : ℝ} (hx : 0 ≤ x) (hxy : x ≤ y) :
    Real.exp (-y) * (6 + 6 * y + 3 * y * y + y * y * y) ≤
      Real.exp (-x) * (6 + 6 * x + 3 * x * x + x * x * x) := by
  let q : ℝ → ℝ := fun x => Real.exp (-x) * (6 + 6 * x + 3 * x ^ 2 + x ^ 3)
  have hd : ∀ x, HasDerivAt q (-(x ^ 3 * Real.exp (-x))) x := by
    intro x
    have h1 := (hasDerivAt_id x).neg.exp
    have h2 := ((((hasDerivAt_id x).const_mul 6).const_add 6).add
      ((hasDerivAt_pow 2 x).const_mul 3)).add (hasDerivAt_pow 3 x)
    refine (h1.mul h2).congr_deriv ?_
    simp
    ring
  have hm : AntitoneOn q (Set.Ici 0) := by
    apply antitoneOn_of_deriv_nonpos (convex_Ici _)
    · exact fun x _ => (hd x).continuousAt.continuousWithinAt
    · exact fun x _ => (hd x).differentiableAt.differentiableWithinAt
    · intro x hx
      rw [interior_Ici] at hx
      rw [(hd x).deriv]
      have : 0 ≤ x := (Set.mem_Ioi.mp hx).le
      have : 0 ≤ x ^ 3 * Real.exp (-x) := by positivity
      linarith
  have := hm (Set.mem_Ici.mpr hx) (Set.mem_Ici.mpr (le_trans hx hxy)) hxy
  simp only [q] at this
  have e : ∀ z : ℝ, 6 + 6 * z + 3 * z ^ 2 + z ^ 3 = 6 + 6 * z + 3 * z * z + z * z * z := by
    intro z; ring
  rwa [e, e] at this

/-- The middle branch lies below the value of the upper one where they meet. -/
theorem mid_le {x : ℝ} (h1 : 1.9434 ≤ x) (h2 : x < 5.23754) :
    (10 : ℝ) ^ (-0.6874 * log10 x * log10 x * log10 x - 0.5698 * log10 x * log10 x
      + 2.671 * log10 x - 1.476) ≤ 0.78445 := by
  obtain ⟨a, _⟩ := log10_bounds h1 h2
  have h10 : (0 : ℝ) < Real.log 10 := Real.log_pos (by norm_num)
  have hx : 0 < x := by linarith
  have b : log10 x ≤ 105 / 146 := by
    unfold log10
    rw [div_le_iff₀ h10]
    have : Real.log (x ^ 146) ≤ Real.log (10 ^ 105) := by
      apply Real.log_le_log (by positivity)
      calc x ^ 146 ≤ 5.23754 ^ 146 := pow_le_pow_left₀ hx.le h2.le 146
        _ ≤ 10 ^ 105 := by norm_num
    rw [Real.log_pow, Real.log_pow] at this
    push_cast at this
    linarith
  have hm := exponent_mono a b (by norm_num)
  have he : -0.6874 * log10 x * log10 x * log10 x - 0.5698 * log10 x * log10 x
      + 2.671 * log10 x - 1.476 ≤ -(29 / 275) := le_trans hm (by norm_num)
  calc _ ≤ (10 : ℝ) ^ (-(29 / 275) : ℝ) := Real.rpow_le_rpow_of_exponent_le (by norm_num) he
    _ ≤ 0.78445 := by
      rw [← Real.log_le_log_iff (by positivity) (by norm_num), Real.log_rpow (by norm_num)]
      have hp : (10 : ℝ)⁻¹ ^ 29 ≤ 0.78445 ^ 275 := by
        rw [show 275 = 25 * 11 from rfl, pow_mul]
        norm_num
      have : Real.log ((10 : ℝ)⁻¹ ^ 29) ≤ Real.log (0.78445 ^ 275) :=
        Real.log_le_log (by positivity) hp
      rw [Real.log_pow, Real.log_pow, Real.log_inv] at this
      push_cast at this
      linarith

theorem high_ge {o x : ℝ} (ho1 : o ≤ 0.01026599) (h : 5.23754 ≤ x) :
    0.78445 ≤ 1 - 15 * o * Real.exp (-x) * (6 + 6 * x + 3 * x * x + x * x * x) := by
  have h1 := high_anti (by norm_num : (0 : ℝ) ≤ 5.23754) h
  have he : (188.19 : ℝ) ≤ Real.exp 5.23754 := by
    have g1 := Real.exp_one_gt_d9
    have g2 := Real.sum_le_exp_of_nonneg (by norm_num : (0 : ℝ) ≤ 0.23754) 5
    simp only [Finset.sum_range_succ, Finset.sum_range_zero, Nat.factorial] at g2
    have e : Real.exp 5.23754 = Real.exp 1 ^ 5 * Real.exp 0.23754 := by
      rw [← Real.exp_nat_mul, ← Real.exp_add]
      norm_num
    rw [e]
    have g3 : (2.7182818283 : ℝ) ^ 5 ≤ Real.exp 1 ^ 5 := pow_le_pow_left₀ (by norm_num) g1.le 5
    calc (188.19 : ℝ) ≤ 2.7182818283 ^ 5 * 1.2681 := by norm_num
      _ ≤ Real.exp 1 ^ 5 * Real.exp 0.23754 := by
        apply mul_le_mul g3 _ (by norm_num) (by positivity)
        refine le_trans ?_ g2
        norm_num
  have hE : Real.exp (-5.23754) ≤ 1 / 188.19 := by
    rw [Real.exp_neg, ← one_div]
    exact one_div_le_one_div_of_le (by norm_num) he
  have h2 : Real.exp (-x) * (6 + 6 * x + 3 * x * x + x * x * x) ≤
      1 / 188.19 * (6 + 6 * 5.23754 + 3 * 5.23754 * 5.23754 + 5.23754 * 5.23754 * 5.23754) :=
    le_trans h1 (mul_le_mul_of_nonneg_right hE (by norm_num))
  have hx : 0 ≤ x := by linarith
  have h0 : 0 ≤ Real.exp (-x) * (6 + 6 * x + 3 * x * x + x * x * x) := by positivity
  have e : 15 * o * Real.exp (-x) * (6 + 6 * x + 3 * x * x + x * x * x) =
    15 * o * (Real.exp (-x) * (6 + 6 * x + 3 * x * x + x * x * x)) := by ring
  rw [e]
  generalize Real.exp (-x) * (6 + 6 * x + 3 * x * x + x * x * x) = w at *
  have : o * w ≤ 0.01026599 * (1 / 188.19 * (6 + 6 * 5.23754 + 3 * 5.23754 * 5.23754 +
      5.23754 * 5.23754 * 5.23754)) := mul_le_mul ho1 h2 h0 (by norm_num)
  norm_num at this ⊢
  linarith

theorem mid_ge {x : ℝ} (h1 : 1.9434 ≤ x) (h2 : x < 5.23754) :
    0.1697 ≤ (10 : ℝ) ^ (-0.6874 * log10 x * log10 x * log10 x - 0.5698 * log10 x * log10 x
      + 2.671 * log10 x - 1.476) := by
  obtain ⟨_, b⟩ := log10_bounds h1 h2
  have h10 : (0 : ℝ) < Real.log 10 := Real.log_pos (by norm_num)
  have hx : 0 < x := by linarith
  have a : 15 / 52 ≤ log10 x := by
    unfold log10
    rw [le_div_iff₀ h10]
    have : Real.log (10 ^ 15) ≤ Real.log (x ^ 52) := by
      apply Real.log_le_log (by positivity)
      calc (10 : ℝ) ^ 15 ≤ 1.9434 ^ 52 := by norm_num
        _ ≤ x ^ 52 := pow_le_pow_left₀ (by norm_num) h1 52
    rw [Real.log_pow, Real.log_pow] at this
    push_cast at this
    linarith
  have hm := exponent_mono (by norm_num) a b
  have he : -(77 / 100) ≤ -0.6874 * log10 x * log10 x * log10 x - 0.5698 * log10 x * log10 x
      + 2.671 * log10 x - 1.476 := le_trans (by norm_num) hm
  calc (0.1697 : ℝ) ≤ (10 : ℝ) ^ (-(77 / 100) : ℝ) := by
        rw [← Real.log_le_log_iff (by norm_num) (by positivity), Real.log_rpow (by norm_num)]
        have : Real.log (0.1697 ^ 100) ≤ Real.log ((10 : ℝ)⁻¹ ^ 77) :=
          Real.log_le_log (by positivity) (by norm_num)
        rw [Real.log_pow, Real.log_pow, Real.log_inv] at this
        push_cast at this
        linarith
    _ ≤ _ := Real.rpow_le_rpow_of_exponent_le (by norm_num) he

/-- **C100.** The fit does not decrease, except perhaps from just below the first seam of its branches
to beyond it. -/
theorem fit_mono_partial {o x y : ℝ} (ho : 0 ≤ o) (ho1 : o ≤ 0.01026599) (hx : 0 ≤ x) (hxy : x ≤ y)
    (hseam : x ≤ 1.94 ∨ 1.9434 ≤ x ∨ y < 1.9434) : fit o x ≤ fit o y := by
  have hr := fit_range ho (by linarith : o * 90 ≤ 1) hx
  by_cases hy1 : y < 1.9434
  · unfold fit
    rw [if_pos (by linarith), if_pos hy1]
    exact low_mono hx hxy hy1.le
  have hy1' := not_lt.mp hy1
  have hlow : x < 1.9434 → fit o x ≤ 0.1697 := by
    intro h
    have h194 : x ≤ 1.94 := by
      rcases hseam with h' | h' | h'
      · exact h'
      · linarith
      · exact absurd h' hy1
    unfold fit
    rw [if_pos h]
    refine le_trans (low_mono hx h194 (by norm_num)) ?_
    norm_num
  by_cases hy2 : y < 5.23754
  · have hfy : 0.1697 ≤ fit o y := by
      unfold fit
      rw [if_neg hy1, if_pos hy2]
      exact mid_ge hy1' hy2
    by_cases hx1 : x < 1.9434
    · exact le_trans (hlow hx1) hfy
    · unfold fit
      rw [if_neg hx1, if_pos (by linarith), if_neg hy1, if_pos hy2]
      apply Real.rpow_le_rpow_of_exponent_le (by norm_num)
      exact exponent_mono (log10_bounds (not_lt.mp hx1) (by linarith)).1
        (log10_mono (by linarith [not_lt.mp hx1]) hxy) (log10_bounds hy1' hy2).2
  · have hy2' := not_lt.mp hy2
    by_cases hy3 : y < 50
    · have hfy : fit o y = 1 - 15 * o * Real.exp (-y) * (6 + 6 * y + 3 * y * y + y * y * y) := by
        unfold fit
        rw [if_neg hy1, if_neg hy2, if_pos hy3]
      have hge := high_ge ho1 hy2'
      by_cases hx1 : x < 1.9434
      · rw [hfy]
        have := hlow hx1
        linarith
      · by_cases hx2 : x < 5.23754
        · rw [hfy]
          refine le_trans ?_ hge
          unfold fit
          rw [if_neg hx1, if_pos hx2]
          exact mid_le (not_lt.mp hx1) hx2
        · rw [hfy]
          unfold fit
          rw [if_neg hx1, if_neg hx2, if_pos (by linarith)]
          have := mul_le_mul_of_nonneg_left (high_anti hx hxy) (by linarith : 0 ≤ 15 * o)
          linarith
    · have hfy : fit o y = 1 := by
        unfold fit
        rw [if_neg hy1, if_neg hy2, if_neg hy3]
      rw [hfy]
      exact hr.2

/-- **C100.** No bin of a proper grid emits a negative amount, at any temperature, unless its lower
face lies just below the first seam of the fit. -/
theorem emission_nonneg_partial {o : ℝ} (ho : 0 ≤ o) (ho1 : o ≤ 0.01026599) {n : ℕ} {g : ℕ → ℝ}
    (hg : FreqMap.Grid n g) {t : ℝ} (ht : 0 < t) {f : ℕ} (hf : f < n)
    (hseam : g f / t ≤ 1.94 ∨ 1.9434 ≤ g f / t) : 0 ≤ emission o n g t f := by
  have hpos : ∀ i, i < n → 0 ≤ g i := by
    intro i
    induction i with
    | zero => intro _; rw [hg.zero]
    | succ k ih => intro h; exact le_trans (ih (by omega)) (hg.lt k h).le
  unfold emission
  rw [if_neg (by have := hg.two; omega)]
  split
  · rename_i h
    unfold intPlanck
    have := fit_mono_partial ho ho1 (div_nonneg (hpos f hf) ht.le)
      (div_le_div_of_nonneg_right (hg.lt f (by omega)).le ht.le)
      (hseam.elim Or.inl fun h => Or.inr (Or.inl h))
    linarith
  · have := (fit_range ho (by linarith : o * 90 ≤ 1)
      (div_nonneg (hpos (n - 1) (by omega)) ht.le)).2
    linarith

/-- The constant of the code meets the hypotheses. -/
example : (0 : ℝ) ≤ 0.010265982254684 ∧ (0.010265982254684 : ℝ) ≤ 0.01026599 := by norm_num

/-! ### The Wien tail -/

/-- The antiderivatives. -/
theorem tail (P : ℝ → ℝ) (P' : ℝ → ℝ) (k : ℕ) (hP : ∀ u, HasDerivAt P (P' u) u)
    (hk : ∀ u, P u - P' u = u ^ k)
    (hlim : Filter.Tendsto (fun u => P u * Real.exp (-u)) Filter.atTop (nhds 0)) {t : ℝ} (ht : 0 < t)
    {nu : ℝ} (hnu : 0 ≤ nu) :
    ∫ x in Set.Ioi nu, x ^ k * Real.exp (-(x / t)) = t ^ (k + 1) * (P (nu / t) * Real.exp (-(nu / t))) := by
  have hd : ∀ x ∈ Set.Ici nu, HasDerivAt (fun x => -(t ^ (k + 1)) * (P (x / t) * Real.exp (-(x / t))))
      (x ^ k * Real.exp (-(x / t))) x := by
    intro x _
    have hu : HasDerivAt (fun x : ℝ => x / t) (1 / t) x := (hasDerivAt_id x).div_const t
    have h1 := (hP (x / t)).comp x hu
    have h2 := hu.neg.exp
    have h3 := (h1.mul h2).const_mul (-(t ^ (k + 1)))
    refine h3.congr_deriv ?_
    have hq : P' (x / t) = P (x / t) - (x / t) ^ k := by linarith [hk (x / t)]
    simp only [Function.comp, hq, Pi.neg_apply]
    rw [div_pow, pow_succ]
    field_simp
    ring
  have hp : ∀ x ∈ Set.Ioi nu, 0 ≤ x ^ k * Real.exp (-(x / t)) := by
    intro x hx
    have : 0 ≤ x := le_trans hnu (le_of_lt hx)
    positivity
  have hl : Filter.Tendsto (fun x => -(t ^ (k + 1)) * (P (x / t) * Real.exp (-(x / t)))) Filter.atTop
      (nhds 0) := by
    have h1 : Filter.Tendsto (fun x : ℝ => x / t) Filter.atTop Filter.atTop :=
      Filter.tendsto_id.atTop_div_const ht
    have h2 := (hlim.comp h1).const_mul (-(t ^ (k + 1)))
    simpa using h2
  rw [MeasureTheory.integral_Ioi_of_hasDerivAt_of_nonneg' hd hp hl]
  ring

theorem tail2 {t : ℝ} (ht : 0 < t) {nu : ℝ} (hnu : 0 ≤ nu) :
    ∫ x in Set.Ioi nu, x ^ 2 * Real.exp (-(x / t)) =
      t ^ 3 * ((2 + 2 * (nu / t) + (nu / t) ^ 2) * Real.exp (-(nu / t))) := by
  apply tail (fun u => 2 + 2 * u + u ^ 2) (fun u => 2 + 2 * u) 2 _ _ _ ht hnu
  · intro u
    have := (((hasDerivAt_id u).const_mul 2).const_add 2).add (hasDerivAt_pow 2 u)
    refine this.congr_deriv ?_
    norm_num
  · intro u; ring
  · have h0 := Real.tendsto_pow_mul_exp_neg_atTop_nhds_zero 0
    have h1 := Real.tendsto_pow_mul_exp_neg_atTop_nhds_zero 1
    have h2 := Real.tendsto_pow_mul_exp_neg_atTop_nhds_zero 2
    have := ((h0.const_mul 2).add (h1.const_mul 2)).add h2
    simp only [mul_zero, add_zero] at this
    refine this.congr fun u => ?_
    ring

theorem tail3 {t : ℝ} (ht : 0 < t) {nu : ℝ} (hnu : 0 ≤ nu) :
    ∫ x in Set.Ioi nu, x ^ 3 * Real.exp (-(x / t)) =
      t ^ 4 * ((6 + 6 * (nu / t) + 3 * (nu / t) ^ 2 + (nu / t) ^ 3) * Real.exp (-(nu / t))) := by
  apply tail (fun u => 6 + 6 * u + 3 * u ^ 2 + u ^ 3) (fun u => 6 + 6 * u + 3 * u ^ 2) 3 _ _ _ ht hnu
  · intro u
    have := ((((hasDerivAt_id u).const_mul 6).const_add 6).add
      ((hasDerivAt_pow 2 u).const_mul 3)).add (hasDerivAt_pow 3 u)
    refine this.congr_deriv ?_
    norm_num
    ring
  · intro u; ring
  · have h0 := Real.tendsto_pow_mul_exp_neg_atTop_nhds_zero 0
    have h1 := Real.tendsto_pow_mul_exp_neg_atTop_nhds_zero 1
    have h2 := Real.tendsto_pow_mul_exp_neg_atTop_nhds_zero 2
    have h3 := Real.tendsto_pow_mul_exp_neg_atTop_nhds_zero 3
    have := (((h0.const_mul 6).add (h1.const_mul 6)).add (h2.const_mul 3)).add h3
    simp only [mul_zero, add_zero] at this
    refine this.congr fun u => ?_
    ring

theorem tail4 {t : ℝ} (ht : 0 < t) {nu : ℝ} (hnu : 0 ≤ nu) :
    ∫ x in Set.Ioi nu, x ^ 4 * Real.exp (-(x / t)) =
      t ^ 5 * ((24 + 24 * (nu / t) + 12 * (nu / t) ^ 2 + 4 * (nu / t) ^ 3 + (nu / t) ^ 4) *
        Real.exp (-(nu / t))) := by
  apply tail (fun u => 24 + 24 * u + 12 * u ^ 2 + 4 * u ^ 3 + u ^ 4)
    (fun u => 24 + 24 * u + 12 * u ^ 2 + 4 * u ^ 3) 4 _ _ _ ht hnu
  · intro u
    have := (((((hasDerivAt_id u).const_mul 24).const_add 24).add
      ((hasDerivAt_pow 2 u).const_mul 12)).add ((hasDerivAt_pow 3 u).const_mul 4)).add
        (hasDerivAt_pow 4 u)
    refine this.congr_deriv ?_
    norm_num
    ring
  · intro u; ring
  · have h0 := Real.tendsto_pow_mul_exp_neg_atTop_nhds_zero 0
    have h1 := Real.tendsto_pow_mul_exp_neg_atTop_nhds_zero 1
    have h2 := Real.tendsto_pow_mul_exp_neg_atTop_nhds_zero 2
    have h3 := Real.tendsto_pow_mul_exp_neg_atTop_nhds_zero 3
    have h4 := Real.tendsto_pow_mul_exp_neg_atTop_nhds_zero 4
    have := ((((h0.const_mul 24).add (h1.const_mul 24)).add (h2.const_mul 12)).add
      (h3.const_mul 4)).add h4
    simp only [mul_zero, add_zero] at this
    refine this.congr fun u => ?_
    ring

/-- **C100.** For radiation with a Wien spectrum of any strength `a` and the temperature `t` in the
last bin, of energy `J`, the code finds the exact integrals of `nu J`, of `(J/nu)^2` and of the photon
number, and the occupation at the face. -/
theorem wien_exact {t : ℝ} (ht : 0 < t) {nu : ℝ} (hnu : 0 ≤ nu) (a p : ℝ) :
    let spec : ℝ → ℝ := fun x => a * x ^ 3 * Real.exp (-(x / t))
    let J := ∫ x in Set.Ioi nu, spec x
    (wien J nu t).1 = ∫ x in Set.Ioi nu, x * spec x ∧
    (wien J nu t).2 = ∫ x in Set.Ioi nu, (spec x / x) ^ 2 ∧
    (wien2 p J nu t).1 = ∫ x in Set.Ioi nu, p / 15 * (spec x / x) ∧
    (0 < nu → (wien2 p J nu t).2 = p / 15 * (spec nu / nu ^ 3)) := by
  intro spec J
  have hJ : J = a * (t ^ 4 * ((6 + 6 * (nu / t) + 3 * (nu / t) ^ 2 + (nu / t) ^ 3) *
      Real.exp (-(nu / t)))) := by
    rw [← tail3 ht hnu, ← MeasureTheory.integral_const_mul]
    simp only [J, spec, mul_assoc]
  have hy : 0 ≤ nu / t := div_nonneg hnu ht.le
  have i1 : ∫ x in Set.Ioi nu, x * spec x = a * ∫ x in Set.Ioi nu, x ^ 4 * Real.exp (-(x / t)) := by
    rw [← MeasureTheory.integral_const_mul]
    congr 1
    funext x
    simp only [spec]
    ring
  have i2 : ∫ x in Set.Ioi nu, (spec x / x) ^ 2 =
      a ^ 2 * ∫ x in Set.Ioi nu, x ^ 4 * Real.exp (-(x / (t / 2))) := by
    rw [← MeasureTheory.integral_const_mul]
    apply MeasureTheory.setIntegral_congr_fun measurableSet_Ioi
    intro x hx
    have hx0 : x ≠ 0 := (lt_of_le_of_lt hnu hx).ne'
    have : Real.exp (-(x / (t / 2))) = Real.exp (-(x / t)) ^ 2 := by
      rw [← Real.exp_nat_mul]
      congr 1
      field_simp
      ring
    simp only [spec, this]
    field_simp
  have i3 : ∫ x in Set.Ioi nu, p / 15 * (spec x / x) =
      p / 15 * a * ∫ x in Set.Ioi nu, x ^ 2 * Real.exp (-(x / t)) := by
    rw [← MeasureTheory.integral_const_mul]
    apply MeasureTheory.setIntegral_congr_fun measurableSet_Ioi
    intro x hx
    have hx0 : x ≠ 0 := (lt_of_le_of_lt hnu hx).ne'
    simp only [spec]
    field_simp
  rw [i1, i2, i3, tail4 ht hnu, tail2 ht hnu, tail4 (by positivity) hnu, hJ]
  have e2 : Real.exp (-(nu / (t / 2))) = Real.exp (-(nu / t)) ^ 2 := by
    rw [← Real.exp_nat_mul]
    congr 1
    field_simp
    ring
  have e3 : nu / (t / 2) = 2 * (nu / t) := by field_simp
  rw [e2, e3]
  have hs : nu = nu / t * t := by field_simp
  unfold wien wien2
  simp only [spec]
  generalize Real.exp (-(nu / t)) = E
  generalize hyd : nu / t = y at *
  have hj : 6 + 6 * y + 3 * y * y + y * y * y ≠ 0 := by positivity
  have hj' : 6 + 6 * y + 3 * y ^ 2 + y ^ 3 = 6 + 6 * y + 3 * y * y + y * y * y := by ring
  rw [hj']
  generalize 6 + 6 * y + 3 * y * y + y * y * y = c at *
  refine ⟨?_, ?_, ?_, ?_⟩
  · field_simp
  · field_simp
    ring
  · field_simp
  · intro h0
    have : nu ≠ 0 := h0.ne'
    field_simp

/-- **C100.** The way back from the photon number to the energy is exact. -/
theorem wien_round_trip {p o : ℝ} (hpo : p * o = 1) {t nu : ℝ} (ht : 0 < t) (hnu : 0 ≤ nu) (j : ℝ) :
    unwien o (wien2 p j nu t).1 nu t = j := by
  have hy : 0 ≤ nu / t := div_nonneg hnu ht.le
  unfold unwien wien2
  simp only
  generalize nu / t = y at *
  have hj : 6 + 6 * y + 3 * y * y + y * y * y ≠ 0 := by positivity
  have hn : 2 + 2 * y + y * y ≠ 0 := by positivity
  generalize 6 + 6 * y + 3 * y * y + y * y * y = c at *
  generalize 2 + 2 * y + y * y = d at *
  field_simp
  linear_combination j * hpo

/-- **C100, finding F107.** The comment of `InverseConvertBBJNNu2` says that it undoes
`ConvertBBJNNu2` exactly; it does not. -/
theorem number_not_inverse : ofNumber (toNumber (10 ^ 100) 1) 1 < 10 ^ 100 := by
  have h10 : (0 : ℝ) < Real.log 10 := Real.log_pos (by norm_num)
  have hl : log10 ((10 : ℝ) ^ 100 / (1 * 1 * 1 * 1)) = 100 := by
    unfold log10
    rw [mul_one, mul_one, mul_one, div_one, Real.log_pow]
    push_cast
    field_simp
  have hn : toNumber (10 ^ 100) 1 = (10 : ℝ) ^ (75.4373 : ℝ) := by
    unfold toNumber
    simp only [hl]
    norm_num
  rw [hn]
  unfold ofNumber
  simp only [mul_one, div_one]
  rw [Real.log_rpow (by norm_num)]
  rw [← Real.exp_log (show (0 : ℝ) < 10 ^ 100 by positivity), Real.exp_lt_exp, Real.log_pow]
  have hbig : (2 : ℝ) < Real.log 10 := by
    rw [Real.lt_log_iff_exp_lt (by norm_num)]
    have := Real.exp_one_lt_d9
    calc Real.exp 2 = Real.exp 1 * Real.exp 1 := by rw [← Real.exp_add]; norm_num
      _ < 10 := by nlinarith [Real.exp_pos 1]
  rw [if_pos (by linarith)]
  push_cast
  rw [div_lt_iff₀ (by norm_num)]
  linarith

end Verif.FreqGrid
