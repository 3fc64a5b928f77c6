import Verif.Spec.RadExchange
import Verif.Lemmas.RadExchange
import Mathlib.Tactic.NormNum
import Mathlib.Algebra.BigOperators.Fin

/-!
# C84: exchange of energy between radiation and gas
-/

namespace Verif.RadX

open Finset Verif.RadX.Spec

variable {N : ℕ}

/-! ### the quartic -/

/-- `FouthPolyRoot` never fails for the signs of the source step and returns the only
nonnegative root: exactly as long as its discriminant is at most `BIG_NUMBER`, and with a
residual of at most `1e-20` of the constant always. -/
theorem quartic_root {c t : ℝ} (hc : 0 < c) (ht : t < 0) :
    ∃ x, quarticRoot c t = some x ∧ 0 ≤ x ∧ |c * x ^ 4 + x + t| ≤ 1 / 10 ^ 20 * |t| ∧
      (1 / 4 + 64 * |t| ^ 3 * c / 27 ≤ 10 ^ 20 →
        c * x ^ 4 + x + t = 0 ∧ ∀ y, 0 ≤ y → c * y ^ 4 + y + t = 0 → y = x) := by
  obtain ⟨x, h1, h2, h3, h4⟩ := quarticRoot_some hc ht
  refine ⟨x, h1, h2, ?_, ?_⟩
  · rw [abs_of_neg ht]; exact h3
  · intro h
    rw [abs_of_neg ht] at h
    have hz : c * x ^ 4 + x + t = 0 := h4 (by unfold big; norm_num at *; linarith)
    exact ⟨hz, fun y hy hyz => quartic_unique hc.le hy h2 hyz hz⟩

/-- A root that can be checked by hand: `x^4 + x - 2` at one. -/
example : ∃ x, quarticRoot 1 (-2) = some x ∧ x = 1 := by
  obtain ⟨x, h1, h2, _, h4⟩ := quartic_root (c := 1) (t := -2) (by norm_num) (by norm_num)
  obtain ⟨_, h6⟩ := h4 (by norm_num)
  exact ⟨x, h1, (h6 1 (by norm_num) (by norm_num)).symm⟩

/-! ### coefficients -/

theorem rR_nonneg {q : Cell N} (h : Physical q) : 0 ≤ rR q := by
  have := h.red; have := h.ct; have := h.sa; have := h.ss
  unfold rR; positivity

theorem rP_nonneg {q : Cell N} (h : Physical q) : 0 ≤ rP q := by
  have := h.red; have := h.ct; have := h.sp
  unfold rP; positivity

theorem rE_nonneg {q : Cell N} (h : Physical q) : 0 ≤ rE q := by
  have := h.red; have := h.ct; have := h.spe
  unfold rE; positivity

theorem den_pos {q : Cell N} (h : Physical q) (n : Fin N) : 0 < q.im n + rR q * q.tc n := by
  have h1 := h.im n
  have h2 := mul_nonneg (rR_nonneg h) (h.tc n).le
  linarith

theorem vn_pos {q : Cell N} (h : Physical q) (n : Fin N) : 0 < vn q n :=
  one_div_pos.mpr (den_pos h n)

theorem vn_mul {q : Cell N} (h : Physical q) (n : Fin N) :
    vn q n * (q.im n + rR q * q.tc n) = 1 := by
  unfold vn; exact one_div_mul_cancel (den_pos h n).ne'

theorem one_sub_suma3 {q : Cell N} (h : Physical q) :
    1 - suma3 q = ∑ n, q.w n * (q.im n * vn q n) + rE q * suma0 q := by
  unfold suma3 suma0
  rw [← h.norm, Finset.sum_mul, ← Finset.sum_sub_distrib, Finset.mul_sum,
    ← Finset.sum_add_distrib]
  refine Finset.sum_congr rfl fun n _ => ?_
  have := vn_mul h n
  unfold vn2
  linear_combination (-q.w n) * this

theorem suma0_nonneg {q : Cell N} (h : Physical q) : 0 ≤ suma0 q :=
  Finset.sum_nonneg fun n _ => mul_nonneg (h.w n) (mul_nonneg (h.tc n).le (vn_pos h n).le)

theorem suma2_nonneg {q : Cell N} (h : Physical q) : 0 ≤ suma2 q :=
  Finset.sum_nonneg fun n _ => mul_nonneg (mul_nonneg (h.ir n) (h.w n)) (vn_pos h n).le

theorem sumIm_pos {q : Cell N} (h : Physical q) : 0 < ∑ n, q.w n * (q.im n * vn q n) := by
  have hnn : ∀ n ∈ (Finset.univ : Finset (Fin N)), 0 ≤ q.w n * (q.im n * vn q n) := fun n _ =>
    mul_nonneg (h.w n) (mul_nonneg (by linarith [h.im n]) (vn_pos h n).le)
  refine lt_of_le_of_ne (Finset.sum_nonneg hnn) fun hz => ?_
  have := (Finset.sum_eq_zero_iff_of_nonneg hnn).mp hz.symm
  have hw : ∀ n, q.w n = 0 := by
    intro n
    have h1 := this n (Finset.mem_univ n)
    have h2 : 0 < q.im n * vn q n := mul_pos (by linarith [h.im n]) (vn_pos h n)
    rcases mul_eq_zero.mp h1 with h1 | h1
    · exact h1
    · exact absurd h1 h2.ne'
  have hn := h.norm
  simp [hw] at hn

theorem one_sub_suma3_pos {q : Cell N} (h : Physical q) : 0 < 1 - suma3 q := by
  rw [one_sub_suma3 h]
  have := sumIm_pos h
  have := mul_nonneg (rE_nonneg h) (suma0_nonneg h)
  linarith

theorem coef1_eq {q : Cell N} (h : Physical q) :
    coef1 q = q.prat * (q.ct * q.sp) * q.gm1 / q.rho *
      ((∑ n, q.w n * (q.im n * vn q n)) / (1 - suma3 q)) := by
  have h0 := (one_sub_suma3_pos h).ne'
  have hr := h.rho.ne'
  have hs := one_sub_suma3 h
  have he : q.ct * q.spe * suma1 q = q.ct * q.sp * (rE q * suma0 q) := by
    unfold suma1 rP rE; ring
  unfold coef1
  rw [he]
  field_simp
  rw [hs]; ring_nf

theorem coef1_nonneg {q : Cell N} (h : Physical q) : 0 ≤ coef1 q := by
  rw [coef1_eq h]
  have := h.prat; have := h.ct; have := h.sp; have := h.gm1; have := h.rho
  have := sumIm_pos h
  have := one_sub_suma3_pos h
  positivity

theorem coef0_le {q : Cell N} (h : Physical q) : coef0 q ≤ -q.tgas := by
  have := h.prat; have := h.ct; have := h.spe; have := h.gm1; have := h.rho
  have := suma2_nonneg h
  have := one_sub_suma3_pos h
  have : 0 ≤ q.ct * q.spe * q.prat * suma2 q * q.gm1 / (q.rho * (1 - suma3 q)) := by positivity
  unfold coef0; linarith

/-- No cell is bad, the new temperature is not negative and solves the quartic. -/
theorem newT_spec {q : Cell N} (h : Physical q) :
    (newT q).2 = true ∧ 0 ≤ (newT q).1 ∧
    |coef1 q * (newT q).1 ^ 4 + (newT q).1 + coef0 q|
      ≤ tiny * max ((newT q).1 ^ 4) (-coef0 q) ∧
    (coef1 q = 0 ∨ (tiny < coef1 q ∧ 1 / 4 + 64 * (-coef0 q) ^ 3 * coef1 q / 27 ≤ big ^ 2) →
      coef1 q * (newT q).1 ^ 4 + (newT q).1 + coef0 q = 0) := by
  have hc := coef1_nonneg h
  have h0 : coef0 q < 0 := by linarith [coef0_le h, h.tgas]
  have ht : 0 < tiny := by unfold tiny; positivity
  by_cases hb : tiny < |coef1 q|
  · have hcp : 0 < coef1 q := by rw [abs_of_nonneg hc] at hb; linarith
    obtain ⟨x, h1, h2, h3, h4⟩ := quarticRoot_some hcp h0
    have hT : newT q = (x, true) := by
      unfold newT; rw [if_pos hb, h1]
    rw [hT]
    refine ⟨rfl, h2, ?_, ?_⟩
    · exact h3.trans (mul_le_mul_of_nonneg_left (le_max_right _ _) ht.le)
    · rintro (hz | ⟨_, hz⟩)
      · exact absurd hz hcp.ne'
      · exact h4 hz
  · have hT : newT q = (-coef0 q, true) := by
      unfold newT; rw [if_neg hb]
    rw [hT]
    have hcl : coef1 q ≤ tiny := by rw [abs_of_nonneg hc] at hb; linarith
    refine ⟨rfl, by dsimp only; linarith, ?_, ?_⟩
    · have e : coef1 q * (-coef0 q) ^ 4 + -coef0 q + coef0 q = coef1 q * (-coef0 q) ^ 4 := by ring
      dsimp only
      rw [e, abs_of_nonneg (mul_nonneg hc (by positivity))]
      calc coef1 q * (-coef0 q) ^ 4 ≤ tiny * (-coef0 q) ^ 4 :=
            mul_le_mul_of_nonneg_right hcl (by positivity)
        _ ≤ tiny * max ((-coef0 q) ^ 4) (-coef0 q) :=
            mul_le_mul_of_nonneg_left (le_max_left _ _) ht.le
    · rintro (hz | ⟨hz, _⟩)
      · dsimp only; rw [hz]; ring
      · linarith

theorem pow4 (x : ℝ) : x * x * x * x = x ^ 4 := by ring

theorem newJ_eq {q : Cell N} (h : Physical q) :
    newJ q * (1 - suma3 q) = suma1 q * (newT q).1 ^ 4 + suma2 q := by
  unfold newJ
  rw [pow4, div_mul_cancel₀ _ (one_sub_suma3_pos h).ne']

/-- The update in closed form. -/
theorem newI0_eq {q : Cell N} (h : Physical q) (n : Fin N) :
    newI0 q n = vn q n * (q.ir n + q.tc n * ((rR q - rE q) * newJ q
      + rP q * (newT q).1 ^ 4)) := by
  have hv := vn_mul h n
  have ht := (h.tc n).ne'
  unfold newI0 vn2
  rw [pow4]
  have e : ((q.im n - 1) / q.tc n + rR q) * q.ir n * (q.tc n * vn q n)
      = q.ir n * (1 - vn q n) := by
    field_simp
    linear_combination (q.ir n) * hv
  linear_combination -e

theorem mean_newI0 {q : Cell N} (h : Physical q) : mean q (newI0 q) = newJ q := by
  have hj := newJ_eq h
  have e : mean q (newI0 q) = suma2 q
      + suma0 q * ((rR q - rE q) * newJ q + rP q * (newT q).1 ^ 4) := by
    unfold mean suma2 suma0
    rw [Finset.sum_mul, ← Finset.sum_add_distrib]
    refine Finset.sum_congr rfl fun n _ => ?_
    rw [newI0_eq h]; unfold vn2; ring
  rw [e]
  unfold suma3 suma1 at hj
  linear_combination -hj

theorem newI_eq {q : Cell N} (h : Physical q) (hf : ∀ n, tiny < newI q n) (n : Fin N) :
    newI q n = newI0 q n := by
  have h1 := (newT_spec h).1
  have h2 := hf n
  unfold newI at *
  rw [if_pos h1] at *
  rcases lt_max_iff.mp h2 with h3 | h3
  · exact max_eq_left h3.le
  · exact absurd h3 (lt_irrefl _)

/-! ### the step -/

/-- The new intensities solve the transfer equation differenced backward in time with the new
temperature and the new mean intensity, for every time step and all opacities, wherever the
floor of the intensities does not act. -/
theorem exchange_transfer (q : Cell N) (h : Physical q) (hf : ∀ n, 1 / 10 ^ 20 < newI q n) :
    Transfer q (newI q) (newT q).1 := by
  have hi := newI_eq h hf
  have hm : mean q (newI q) = newJ q := by
    rw [← mean_newI0 h]; unfold mean
    exact Finset.sum_congr rfl fun n _ => by rw [hi n]
  intro n
  rw [hm, hi n]
  have hv := vn_mul h n
  have e := newI0_eq h n
  have e2 : newI0 q n * (q.im n + rR q * q.tc n)
      = q.ir n + q.tc n * ((rR q - rE q) * newJ q + rP q * (newT q).1 ^ 4) := by
    rw [e]
    linear_combination (q.ir n + q.tc n * ((rR q - rE q) * newJ q
      + rP q * (newT q).1 ^ 4)) * hv
  unfold rR rE rP at e2
  linear_combination e2

/-- The gas gains what it absorbs less what it emits, to a relative accuracy of `1e-20`; exactly
unless the coefficient of the quartic is tiny but not zero or its discriminant is big. -/
theorem exchange_gas (q : Cell N) (h : Physical q) (hf : ∀ n, 1 / 10 ^ 20 < newI q n) :
    |gasResidual q (newI q) (newT q).1|
      ≤ 1 / 10 ^ 20 * max (q.rho / q.gm1 * (newT q).1 ^ 4)
          (q.rho / q.gm1 * q.tgas + q.prat * q.ct * q.spe * mean q (newI q)) ∧
    (coef1 q = 0 ∨ (1 / 10 ^ 20 < coef1 q ∧
        1 / 4 + 64 * |coef0 q| ^ 3 * coef1 q / 27 ≤ 10 ^ 20) →
      gasResidual q (newI q) (newT q).1 = 0) := by
  have hi := newI_eq h hf
  have hm : mean q (newI q) = newJ q := by
    rw [← mean_newI0 h]; unfold mean
    exact Finset.sum_congr rfl fun n _ => by rw [hi n]
  have hs := one_sub_suma3_pos h
  have hj := newJ_eq h
  have hr := h.rho
  have hg := h.gm1
  have hk : 0 < q.rho / q.gm1 := by positivity
  obtain ⟨_, hT0, hb, hx⟩ := newT_spec h
  have hres : gasResidual q (newI q) (newT q).1
      = q.rho / q.gm1 * (coef1 q * (newT q).1 ^ 4 + (newT q).1 + coef0 q) := by
    unfold gasResidual
    rw [hm]
    have hj' : newJ q = (suma1 q * (newT q).1 ^ 4 + suma2 q) / (1 - suma3 q) := by
      rw [eq_div_iff hs.ne']; exact hj
    rw [hj']
    unfold coef1 coef0
    generalize 1 - suma3 q = D at *
    have := hs.ne'
    field_simp
    ring
  have hc0 : q.rho / q.gm1 * (-coef0 q)
      ≤ q.rho / q.gm1 * q.tgas + q.prat * q.ct * q.spe * newJ q := by
    have e : q.rho / q.gm1 * (-coef0 q) = q.rho / q.gm1 * q.tgas
        + q.prat * q.ct * q.spe * (suma2 q / (1 - suma3 q)) := by
      unfold coef0
      generalize 1 - suma3 q = D at *
      have := hs.ne'
      field_simp
      ring
    rw [e]
    have hle : suma2 q / (1 - suma3 q) ≤ newJ q := by
      rw [div_le_iff₀ hs, hj]
      have : 0 ≤ suma1 q * (newT q).1 ^ 4 :=
        mul_nonneg (mul_nonneg (suma0_nonneg h) (rP_nonneg h)) (by positivity)
      linarith
    have hp := h.prat; have hct := h.ct; have hse := h.spe
    have := mul_le_mul_of_nonneg_left hle (show 0 ≤ q.prat * q.ct * q.spe by positivity)
    linarith
  constructor
  · rw [hres, abs_mul, abs_of_pos hk, hm]
    calc q.rho / q.gm1 * |coef1 q * (newT q).1 ^ 4 + (newT q).1 + coef0 q|
        ≤ q.rho / q.gm1 * (tiny * max ((newT q).1 ^ 4) (-coef0 q)) :=
          mul_le_mul_of_nonneg_left hb hk.le
      _ = tiny * max (q.rho / q.gm1 * (newT q).1 ^ 4) (q.rho / q.gm1 * (-coef0 q)) := by
          rw [← mul_max_of_nonneg _ _ hk.le]; ring
      _ ≤ _ := mul_le_mul_of_nonneg_left (max_le_max le_rfl hc0)
          (by unfold tiny; positivity)
  · intro hc
    have h0 : coef0 q < 0 := by linarith [coef0_le h, h.tgas]
    rw [abs_of_neg h0] at hc
    rw [hres, hx, mul_zero]
    rcases hc with hc | hc
    · exact Or.inl hc
    · exact Or.inr ⟨hc.1, by unfold big; norm_num at *; exact hc.2⟩

/-- Explicit transport: what the gas gains the radiation loses, in the co-moving frame. -/
theorem transfer_conserves (q : Cell N) (h : Physical q) (him : ∀ n, q.im n = 1) (I : Fin N → ℝ)
    (T : ℝ) (ht : Transfer q I T) :
    q.rho / q.gm1 * (T - q.tgas) + q.prat / q.red * ∑ n, q.w n / q.tc n * (I n - q.ir n)
      = gasResidual q I T := by
  have e : ∑ n, q.w n / q.tc n * (I n - q.ir n)
      = q.red * q.ct * (q.sp * T ^ 4 - q.spe * mean q I) := by
    have e1 : ∀ n, q.w n / q.tc n * (I n - q.ir n) = q.red * q.ct *
        (q.w n * (q.sp * T ^ 4 + (q.sa + q.ss - q.spe) * mean q I)
          - (q.sa + q.ss) * (q.w n * I n)) := by
      intro n
      have h1 := ht n
      rw [him n, one_mul] at h1
      have h2 := (h.tc n).ne'
      have h3 : I n - q.ir n = q.red * q.ct * q.tc n *
          (q.sp * T ^ 4 + (q.sa + q.ss - q.spe) * mean q I - (q.sa + q.ss) * I n) := by
        linarith
      rw [h3]; field_simp
    rw [Finset.sum_congr rfl fun n _ => e1 n, ← Finset.mul_sum, Finset.sum_sub_distrib,
      ← Finset.sum_mul, ← Finset.mul_sum, h.norm]
    unfold mean; ring
  rw [e]
  unfold gasResidual
  have := h.red.ne'
  field_simp

/-- No intensity and no temperature becomes negative: the floor raises only intensities below
`1e-20`, if the energy mean opacity does not exceed the total one. -/
theorem exchange_positive (q : Cell N) (h : Physical q) (hs : q.spe ≤ q.sa + q.ss) (n : Fin N) :
    0 ≤ (newT q).1 ∧ (newT q).2 = true ∧ 0 ≤ newI0 q n ∧ newI q n = max (newI0 q n) (1 / 10 ^ 20) := by
  obtain ⟨hg, hT, _, _⟩ := newT_spec h
  refine ⟨hT, hg, ?_, ?_⟩
  · rw [newI0_eq h]
    have hj : 0 ≤ newJ q := by
      have := newJ_eq h
      have hp := one_sub_suma3_pos h
      have h1 : 0 ≤ suma1 q * (newT q).1 ^ 4 + suma2 q :=
        add_nonneg (mul_nonneg (mul_nonneg (suma0_nonneg h) (rP_nonneg h)) (by positivity))
          (suma2_nonneg h)
      rw [← this] at h1
      by_contra hc
      push Not at hc
      nlinarith
    have hd : 0 ≤ rR q - rE q := by
      have : rR q - rE q = q.red * q.ct * (q.sa + q.ss - q.spe) := by unfold rR rE; ring
      rw [this]
      exact mul_nonneg (mul_nonneg h.red.le h.ct) (by linarith)
    have := h.ir n
    have := (h.tc n).le
    have := rP_nonneg h
    have := (vn_pos h n).le
    positivity
  · unfold newI; rw [if_pos hg]; rfl

theorem not_below_mean {q : Cell N} (h : Physical q) (I : Fin N → ℝ)
    (hI : ∀ n, I n < mean q I) : False := by
  have hz : ∑ n, q.w n * (mean q I - I n) = 0 := by
    simp only [mul_sub, Finset.sum_sub_distrib, ← Finset.sum_mul, h.norm]
    unfold mean; ring
  have hnn : ∀ n ∈ (Finset.univ : Finset (Fin N)), 0 ≤ q.w n * (mean q I - I n) := fun n _ =>
    mul_nonneg (h.w n) (by linarith [hI n])
  have := (Finset.sum_eq_zero_iff_of_nonneg hnn).mp hz
  have hw : ∀ n, q.w n = 0 := by
    intro n
    rcases mul_eq_zero.mp (this n (Finset.mem_univ n)) with h1 | h1
    · exact h1
    · linarith [hI n]
  have hn := h.norm
  simp [hw] at hn

theorem not_above_mean {q : Cell N} (h : Physical q) (I : Fin N → ℝ)
    (hI : ∀ n, mean q I < I n) : False := by
  refine not_below_mean h (fun n => -I n) fun n => ?_
  have : mean q (fun n => -I n) = -mean q I := by simp [mean]
  rw [this]; linarith [hI n]

/-- Neither gas nor radiation becomes hotter than the hotter of both was: for equal Planck and
energy means, any solution of the two equations. -/
theorem no_overheating (q : Cell N) (h : Physical q) (him : ∀ n, q.im n = 1)
    (hse : q.spe = q.sp) (hs : q.spe ≤ q.sa + q.ss) (hpr : 0 < q.prat * q.ct * q.sp)
    (I : Fin N → ℝ) (T : ℝ) (hT : 0 ≤ T) (ht : Transfer q I T) (hg : gasResidual q I T = 0)
    (M : ℝ) (hM : 0 ≤ M) (h1 : q.tgas ≤ M) (h2 : ∀ n, q.ir n ≤ M ^ 4) :
    T ≤ M ∧ ∀ n, I n ≤ M ^ 4 := by
  have hk : 0 < q.rho / q.gm1 := div_pos h.rho h.gm1
  have hb : 0 ≤ q.red * q.ct := mul_nonneg h.red.le h.ct
  set J := mean q I with hJ
  -- the mean is at most the larger of the two sources
  have hJle : ∀ X, M ^ 4 ≤ X → T ^ 4 ≤ X → J ≤ X := by
    intro X hX1 hX2
    by_contra hc
    push Not at hc
    refine not_below_mean h I fun n => ?_
    have he := ht n
    rw [him n, one_mul, hse, ← hJ] at he
    have hp : 0 ≤ q.red * q.ct * q.tc n := mul_nonneg hb (h.tc n).le
    by_contra hn
    push Not at hn
    rw [← hJ] at hn
    have hin : q.sp * T ^ 4 + (q.sa + q.ss - q.sp) * J - (q.sa + q.ss) * I n ≤ 0 := by
      have a1 : q.sp * T ^ 4 ≤ q.sp * J := mul_le_mul_of_nonneg_left (by linarith) h.sp
      have a2 : (q.sa + q.ss) * J ≤ (q.sa + q.ss) * I n :=
        mul_le_mul_of_nonneg_left hn (by linarith [h.sa, h.ss])
      nlinarith
    have := mul_nonpos_of_nonneg_of_nonpos hp hin
    have := h2 n
    linarith
  have hTM : T ≤ M := by
    by_contra hc
    push Not at hc
    have h4 : M ^ 4 ≤ T ^ 4 := pow_le_pow_left₀ hM hc.le 4
    have hj := hJle (T ^ 4) h4 le_rfl
    unfold gasResidual at hg
    rw [← hJ, hse] at hg
    have : 0 ≤ q.prat * q.ct * (q.sp * T ^ 4 - q.sp * J) := by
      have : q.prat * q.ct * (q.sp * T ^ 4 - q.sp * J)
          = q.prat * q.ct * q.sp * (T ^ 4 - J) := by ring
      rw [this]
      exact mul_nonneg hpr.le (by linarith)
    have : 0 < q.rho / q.gm1 * (T - q.tgas) := mul_pos hk (by linarith)
    linarith
  have h4 : T ^ 4 ≤ M ^ 4 := pow_le_pow_left₀ hT hTM 4
  have hJM := hJle (M ^ 4) le_rfl h4
  refine ⟨hTM, fun n => ?_⟩
  by_contra hn
  push Not at hn
  have he := ht n
  rw [him n, one_mul, hse, ← hJ] at he
  have hp : 0 ≤ q.red * q.ct * q.tc n := mul_nonneg hb (h.tc n).le
  have hin : q.sp * T ^ 4 + (q.sa + q.ss - q.sp) * J - (q.sa + q.ss) * I n ≤ 0 := by
    have a1 : q.sp * T ^ 4 ≤ q.sp * I n := mul_le_mul_of_nonneg_left (by linarith) h.sp
    have a2 : (q.sa + q.ss - q.sp) * J ≤ (q.sa + q.ss - q.sp) * I n :=
      mul_le_mul_of_nonneg_left (by linarith) (by rw [← hse]; linarith)
    nlinarith
  have := mul_nonpos_of_nonneg_of_nonpos hp hin
  have := h2 n
  linarith

/-- Neither becomes cooler than the cooler of both was. -/
theorem no_overcooling (q : Cell N) (h : Physical q) (him : ∀ n, q.im n = 1)
    (hse : q.spe = q.sp) (hs : q.spe ≤ q.sa + q.ss) (hpr : 0 < q.prat * q.ct * q.sp)
    (I : Fin N → ℝ) (T : ℝ) (hT : 0 ≤ T) (ht : Transfer q I T) (hg : gasResidual q I T = 0)
    (M : ℝ) (hM : 0 ≤ M) (h1 : M ≤ q.tgas) (h2 : ∀ n, M ^ 4 ≤ q.ir n) :
    M ≤ T ∧ ∀ n, M ^ 4 ≤ I n := by
  have hk : 0 < q.rho / q.gm1 := div_pos h.rho h.gm1
  have hb : 0 ≤ q.red * q.ct := mul_nonneg h.red.le h.ct
  set J := mean q I with hJ
  have hJle : ∀ X, X ≤ M ^ 4 → X ≤ T ^ 4 → X ≤ J := by
    intro X hX1 hX2
    by_contra hc
    push Not at hc
    refine not_above_mean h I fun n => ?_
    have he := ht n
    rw [him n, one_mul, hse, ← hJ] at he
    have hp : 0 ≤ q.red * q.ct * q.tc n := mul_nonneg hb (h.tc n).le
    by_contra hn
    push Not at hn
    rw [← hJ] at hn
    have hin : 0 ≤ q.sp * T ^ 4 + (q.sa + q.ss - q.sp) * J - (q.sa + q.ss) * I n := by
      have a1 : q.sp * J ≤ q.sp * T ^ 4 := mul_le_mul_of_nonneg_left (by linarith) h.sp
      have a2 : (q.sa + q.ss) * I n ≤ (q.sa + q.ss) * J :=
        mul_le_mul_of_nonneg_left hn (by linarith [h.sa, h.ss])
      nlinarith
    have := mul_nonneg hp hin
    have := h2 n
    linarith
  have hTM : M ≤ T := by
    by_contra hc
    push Not at hc
    have h4 : T ^ 4 ≤ M ^ 4 := pow_le_pow_left₀ hT hc.le 4
    have hj := hJle (T ^ 4) h4 le_rfl
    unfold gasResidual at hg
    rw [← hJ, hse] at hg
    have : q.prat * q.ct * (q.sp * T ^ 4 - q.sp * J) ≤ 0 := by
      have : q.prat * q.ct * (q.sp * T ^ 4 - q.sp * J)
          = q.prat * q.ct * q.sp * (T ^ 4 - J) := by ring
      rw [this]
      exact mul_nonpos_of_nonneg_of_nonpos hpr.le (by linarith)
    have : q.rho / q.gm1 * (T - q.tgas) < 0 := mul_neg_of_pos_of_neg hk (by linarith)
    linarith
  have h4 : M ^ 4 ≤ T ^ 4 := pow_le_pow_left₀ hM hTM 4
  have hJM := hJle (M ^ 4) le_rfl h4
  refine ⟨hTM, fun n => ?_⟩
  by_contra hn
  push Not at hn
  have he := ht n
  rw [him n, one_mul, hse, ← hJ] at he
  have hp : 0 ≤ q.red * q.ct * q.tc n := mul_nonneg hb (h.tc n).le
  have hin : 0 ≤ q.sp * T ^ 4 + (q.sa + q.ss - q.sp) * J - (q.sa + q.ss) * I n := by
    have a1 : q.sp * I n ≤ q.sp * T ^ 4 := mul_le_mul_of_nonneg_left (by linarith) h.sp
    have a2 : (q.sa + q.ss - q.sp) * I n ≤ (q.sa + q.ss - q.sp) * J :=
      mul_le_mul_of_nonneg_left (by linarith) (by rw [← hse]; linarith)
    nlinarith
  have := mul_nonneg hp hin
  have := h2 n
  linarith

/-- Thermal equilibrium: gas and radiation of one temperature keep it, and nothing else solves
the equations. -/
theorem equilibrium (q : Cell N) (h : Physical q) (him : ∀ n, q.im n = 1)
    (hse : q.spe = q.sp) (hs : q.spe ≤ q.sa + q.ss) (hpr : 0 < q.prat * q.ct * q.sp)
    (heq : ∀ n, q.ir n = q.tgas ^ 4) (I : Fin N → ℝ) (T : ℝ) (hT : 0 ≤ T) :
    (Transfer q I T ∧ gasResidual q I T = 0) ↔ (T = q.tgas ∧ ∀ n, I n = q.tgas ^ 4) := by
  constructor
  · rintro ⟨ht, hg⟩
    obtain ⟨a1, a2⟩ := no_overheating q h him hse hs hpr I T hT ht hg q.tgas h.tgas.le le_rfl
      fun n => (heq n).le
    obtain ⟨b1, b2⟩ := no_overcooling q h him hse hs hpr I T hT ht hg q.tgas h.tgas.le le_rfl
      fun n => (heq n).ge
    exact ⟨le_antisymm a1 b1, fun n => le_antisymm (a2 n) (b2 n)⟩
  · rintro ⟨rfl, hI⟩
    have hm : mean q I = q.tgas ^ 4 := by
      unfold mean
      rw [Finset.sum_congr rfl fun n _ => by rw [hI n], ← Finset.sum_mul, h.norm, one_mul]
    constructor
    · intro n
      rw [him n, hI n, heq n, hm, hse]; ring
    · unfold gasResidual
      rw [hm, hse]; ring

/-- A cell for which the theorems speak: two angles, gas at temperature one, isotropic radiation
of twice the equilibrium intensity. -/
noncomputable def sample : Cell 2 where
  w := fun _ => 1 / 2
  tc := fun _ => 1
  im := fun _ => 1
  ir := fun _ => 2
  ct := 1
  red := 1
  prat := 1
  gm1 := 2 / 3
  rho := 1
  tgas := 1
  sa := 1
  sp := 1
  spe := 1
  ss := 0

theorem sample_physical : Physical sample := by
  constructor <;> simp [sample]

theorem sample_vn (n : Fin 2) : vn sample n = 1 / 2 := by
  simp only [vn, rR, sample]; norm_num

theorem sample_coef : coef1 sample = 1 / 3 ∧ coef0 sample = -(5 / 3) := by
  have h0 : suma0 sample = 1 / 2 := by
    simp only [suma0, vn2, sample_vn]; simp [sample]
  have h2 : suma2 sample = 1 := by
    simp only [suma2, sample_vn]; simp [sample]
  have h3 : suma3 sample = 0 := by
    simp only [suma3, rR, rE]; simp [sample]
  have h1 : suma1 sample = 1 / 2 := by
    simp only [suma1, rP, h0]; simp [sample]
  unfold coef1 coef0
  rw [h1, h2, h3]
  constructor <;> simp [sample] <;> norm_num

/-- The hypotheses of `exchange_transfer`, `exchange_gas`, `transfer_conserves`,
`no_overheating` and `no_overcooling` hold for it: its temperature solves
`T^4/3 + T = 5/3`, so that gas and radiation end between the two temperatures. -/
example : Transfer sample (newI sample) (newT sample).1 ∧
    gasResidual sample (newI sample) (newT sample).1 = 0 ∧
    1 ≤ (newT sample).1 ∧ (newT sample).1 ^ 4 ≤ 2 := by
  have hp := sample_physical
  obtain ⟨hc1, hc0⟩ := sample_coef
  obtain ⟨hg, hT, _, hx⟩ := newT_spec hp
  have hq := hx (Or.inr ⟨by rw [hc1]; unfold tiny; norm_num,
    by rw [hc1, hc0]; unfold big; norm_num⟩)
  rw [hc1, hc0] at hq
  have h1 : 1 ≤ (newT sample).1 ^ 4 := by
    by_contra hc
    push Not at hc
    have : 4 / 3 < (newT sample).1 := by linarith
    have := one_lt_pow₀ (show 1 < (newT sample).1 by linarith) (n := 4) (by norm_num)
    linarith
  have hT1 : 1 ≤ (newT sample).1 := by
    by_contra hc
    push Not at hc
    have := pow_lt_one₀ hT hc (n := 4) (by norm_num)
    linarith
  have hf : ∀ n, 1 / 10 ^ 20 < newI sample n := by
    intro n
    obtain ⟨_, _, _, h3⟩ := exchange_positive sample hp (by simp [sample]) n
    rw [h3, newI0_eq hp, sample_vn]
    refine lt_max_of_lt_left ?_
    have e : rR sample - rE sample = 0 := by simp [rR, rE, sample]
    have e2 : rP sample = 1 := by simp [rP, sample]
    have e3 : sample.ir n = 2 := rfl
    have e4 : sample.tc n = 1 := rfl
    rw [e, e2, e3, e4]
    have : (1:ℝ) / 10 ^ 20 < 1 := by norm_num
    linarith
  have ht := exchange_transfer sample hp hf
  have hgz := (exchange_gas sample hp hf).2 (Or.inr ⟨by rw [hc1]; norm_num,
    by rw [hc1, hc0]; norm_num [abs_of_nonpos]⟩)
  exact ⟨ht, hgz, hT1, by linarith⟩

end Verif.RadX
