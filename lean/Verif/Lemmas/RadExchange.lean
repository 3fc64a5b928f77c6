import Verif.Model.RadExchange
import Mathlib.Tactic.LinearCombination
import Mathlib.Tactic.FieldSimp
import Mathlib.Tactic.Positivity
import Mathlib.Tactic.Ring
import Mathlib.Tactic.Linarith
import Mathlib.Algebra.BigOperators.Ring.Finset
import Mathlib.Algebra.Order.BigOperators.Group.Finset
import Mathlib.Algebra.BigOperators.Field

namespace Verif.RadX

open Finset

/-! ### the quartic -/

theorem cube_root {x : ℝ} (hx : 0 ≤ x) : (x ^ (1 / 3 : ℝ)) ^ 3 = x := by
  rw [← Real.rpow_natCast, ← Real.rpow_mul hx]; norm_num

theorem rpow_neg_two_thirds {x : ℝ} (hx : 0 < x) :
    x ^ (-2 / 3 : ℝ) = 1 / (x ^ (1 / 3 : ℝ)) ^ 2 := by
  rw [← Real.rpow_natCast, ← Real.rpow_mul hx.le, one_div, ← Real.rpow_neg hx.le]; norm_num

theorem cube_inj {a b : ℝ} (ha : 0 ≤ a) (hb : 0 ≤ b) (h : a ^ 3 = b ^ 3) : a = b :=
  (pow_left_inj₀ ha hb (by norm_num)).mp h

/-- The tail of `FouthPolyRoot`, given `y = zroot` before scaling, `k` the cube root of `c`. -/
theorem quartic_tail {c t k y : ℝ} (hk : 0 < k) (hc : c = k ^ 3) (hy : 0 < y) (hy1 : y ≤ 1) :
    let z := y * (1 / k ^ 2)
    let r := √z
    let d2 := -z + 2 / (c * r)
    let x := 0.5 * (√d2 - r)
    0 ≤ d2 ∧ 0 ≤ x ∧ c * x ^ 4 + x + t = -(y ^ 3 - 4 * t * k * y - 1) / (4 * k * y) := by
  intro z r d2 x
  have hz : 0 < z := by positivity
  have hr : 0 < r := Real.sqrt_pos.mpr hz
  have hr2 : r ^ 2 = z := Real.sq_sqrt hz.le
  have hzk : z * k ^ 2 = y := by simp only [z]; field_simp
  have hc0 : 0 < c := by rw [hc]; positivity
  have hcr : (c * r ^ 3) ^ 2 = y ^ 3 := by
    have : (c * r ^ 3) ^ 2 = c ^ 2 * (r ^ 2) ^ 3 := by ring
    rw [this, hr2, hc, ← hzk]; ring
  have hle : c * r ^ 3 ≤ 1 := by
    have h1 : (c * r ^ 3) ^ 2 ≤ 1 := by rw [hcr]; exact pow_le_one₀ hy.le hy1
    have h0 : 0 ≤ c * r ^ 3 := by positivity
    nlinarith
  have hd : z ≤ d2 := by
    have : z ≤ 1 / (c * r) := by
      rw [le_div_iff₀ (by positivity), ← hr2]; nlinarith
    simp only [d2]
    have e : 2 / (c * r) = 1 / (c * r) + 1 / (c * r) := by ring
    linarith
  have hd0 : 0 ≤ d2 := hz.le.trans hd
  have hrs : r ≤ √d2 := Real.sqrt_le_sqrt hd
  have hs2 : √d2 ^ 2 = d2 := Real.sq_sqrt hd0
  refine ⟨hd0, by simp only [x]; linarith, ?_⟩
  -- x² + r x + p = 0
  set s := √d2 with hs
  have hx : x = (s - r) / 2 := by simp only [x]; ring
  have hd2 : s ^ 2 * (c * r) = -(r ^ 2) * (c * r) + 2 := by
    rw [hs2, hr2]; simp only [d2]; field_simp
  have hq : x ^ 2 + r * x + (r ^ 2 / 2 - 1 / (2 * c * r)) = 0 := by
    rw [hx]; field_simp; linear_combination hd2
  have hfac : c * x ^ 4 + x + t
      = c * (x ^ 2 + r * x + (r ^ 2 / 2 - 1 / (2 * c * r)))
          * (x ^ 2 - r * x + (r ^ 2 / 2 + 1 / (2 * c * r)))
        + (t - c * (r ^ 4 / 4 - 1 / (4 * c ^ 2 * r ^ 2))) := by
    field_simp; ring
  rw [hfac, hq, mul_zero, zero_mul, zero_add]
  have h4 : r ^ 4 = z ^ 2 := by rw [← hr2]; ring
  rw [h4, hr2, hc]
  rw [← hzk]
  field_simp
  ring

theorem quartic_unique {c t x y : ℝ} (hc : 0 ≤ c) (hx : 0 ≤ x) (hy : 0 ≤ y)
    (h1 : c * x ^ 4 + x + t = 0) (h2 : c * y ^ 4 + y + t = 0) : x = y := by
  rcases lt_trichotomy x y with h | h | h
  · have := pow_lt_pow_left₀ h hx (n := 4) (by norm_num)
    nlinarith
  · exact h
  · have := pow_lt_pow_left₀ h hy (n := 4) (by norm_num)
    nlinarith

set_option maxHeartbeats 800000 in
/-- `FouthPolyRoot` always finds a root for the signs it is called with. -/
theorem quarticRoot_some {c t : ℝ} (hc : 0 < c) (ht : t < 0) :
    ∃ x, quarticRoot c t = some x ∧ 0 ≤ x ∧
      |c * x ^ 4 + x + t| ≤ tiny * (-t) ∧
      (1 / 4 + 64 * (-t) ^ 3 * c / 27 ≤ big ^ 2 → c * x ^ 4 + x + t = 0) := by
  set d := 0.25 - 64 * (t * t * t) * c / 27 with hd
  have ht3 : 0 < (-t) ^ 3 := by apply pow_pos; linarith
  have hdp : d = 1 / 4 + 64 * (-t) ^ 3 * c / 27 := by rw [hd]; ring
  have hgt : 1 / 4 < d := by rw [hdp]; linarith [show 0 < 64 * (-t) ^ 3 * c / 27 by positivity]
  have hd0 : ¬ d < 0 := by linarith
  set d1 := √d with hd1
  have hd1sq : d1 ^ 2 = d := Real.sq_sqrt (by linarith)
  have hd1p : 0 ≤ d1 := Real.sqrt_nonneg _
  have hhalf : 1 / 2 < d1 := by nlinarith
  have hn1 : ¬ d1 < 0.5 := by norm_num; linarith
  set k := c ^ (1 / 3 : ℝ) with hk
  have hkp : 0 < k := Real.rpow_pos_of_pos hc _
  have hk3 : k ^ 3 = c := cube_root hc.le
  have hk2 : c ^ (-2 / 3 : ℝ) = 1 / k ^ 2 := rpow_neg_two_thirds hc
  have main : ∀ y, (if big < d1 then d1 ^ (-2 / 3 : ℝ) / 3
      else (0.5 + d1) ^ (1 / 3 : ℝ) - (-0.5 + d1) ^ (1 / 3 : ℝ)) = y → 0 < y → y ≤ 1 →
      ∃ x, quarticRoot c t = some x ∧ 0 ≤ x ∧
        c * x ^ 4 + x + t = -(y ^ 3 - 4 * t * k * y - 1) / (4 * k * y) := by
    intro y hy0 hy hy1
    obtain ⟨h1, h2, h3⟩ := quartic_tail (t := t) hkp hk3.symm hy hy1
    refine ⟨_, ?_, h2, h3⟩
    unfold quarticRoot
    simp only
    rw [if_neg hd0, if_neg hn1, hy0, if_neg (by linarith), hk2, if_neg (by linarith),
      if_neg (by linarith)]
  by_cases hb : big < d1
  · -- approximate branch
    set m := d1 ^ (1 / 3 : ℝ) with hm
    have hmp : 0 < m := Real.rpow_pos_of_pos (by linarith) _
    have hm3 : m ^ 3 = d1 := cube_root hd1p
    have hbig : (10:ℝ) ^ 10 < d1 := hb
    set y := d1 ^ (-2 / 3 : ℝ) / 3 with hy
    have hym : y = 1 / (3 * m ^ 2) := by
      rw [hy, rpow_neg_two_thirds (by linarith)]; field_simp; rw [hm]
    have hyp : 0 < y := by rw [hym]; positivity
    have hm1 : 1 ≤ m := by
      by_contra hcon
      push Not at hcon
      have := pow_lt_one₀ hmp.le hcon (n := 3) (by norm_num)
      rw [hm3] at this
      have : (1:ℝ) ≤ 10 ^ 10 := by norm_num
      linarith
    have hy1 : y ≤ 1 := by
      rw [hym, div_le_one (by positivity)]; nlinarith
    obtain ⟨x, hx, hx0, hres⟩ := main y (if_pos hb) hyp hy1
    refine ⟨x, hx, hx0, ?_, ?_⟩
    · -- b = -4tk/3 has cube d - 1/4
      set b := -(4 * t * k) / 3 with hbdef
      have hbp : 0 < b := by rw [hbdef]; nlinarith [mul_pos hkp (neg_pos.mpr ht)]
      have hb3 : b ^ 3 = d1 ^ 2 - 1 / 4 := by
        rw [hd1sq, hdp, hbdef, ← hk3]; ring
      have hm6 : (m ^ 2) ^ 3 = d1 ^ 2 := by rw [← hm3]; ring
      have hbm : b < m ^ 2 := by
        by_contra hcon
        push Not at hcon
        have := pow_le_pow_left₀ (by positivity) hcon 3
        rw [hm6, hb3] at this; linarith
      set q := b / m ^ 2 with hq
      have hq0 : 0 < q := by positivity
      have hq1 : q < 1 := by rw [hq, div_lt_one (by positivity)]; exact hbm
      have hq3 : q ^ 3 = 1 - 1 / (4 * d1 ^ 2) := by
        have : d1 ≠ 0 := by linarith
        rw [hq, div_pow, hm6, hb3]; field_simp
      have hbq : b = q * m ^ 2 := by rw [hq]; field_simp
      have hρ : y ^ 3 - 4 * t * k * y - 1 = 1 / (27 * d1 ^ 2) + q - 1 := by
        have e : -(4 * t * k) = 3 * b := by rw [hbdef]; ring
        have e2 : y ^ 3 - 4 * t * k * y - 1 = y ^ 3 + (-(4 * t * k)) * y - 1 := by ring
        rw [e2, e, hbq, hym, ← hm6]; field_simp; ring
      have hqlow : 1 - 1 / (4 * d1 ^ 2) ≤ q := by 
        rw [← hq3]
        calc q ^ 3 ≤ q ^ 1 := pow_le_pow_of_le_one hq0.le hq1.le (by norm_num)
          _ = q := pow_one q
      have hsq : (10:ℝ) ^ 20 ≤ d1 ^ 2 := by
        have := pow_le_pow_left₀ (by positivity) hbig.le 2
        rwa [← pow_mul] at this
      have hd1sq0 : 0 ≤ d1 ^ 2 := sq_nonneg d1
      have hu : 1 / (4 * d1 ^ 2) ≤ 1 / (4 * 10 ^ 20) :=
        one_div_le_one_div_of_le (by positivity) (by linarith)
      have hu' : 1 / (27 * d1 ^ 2) ≤ 1 / (4 * 10 ^ 20) :=
        one_div_le_one_div_of_le (by positivity) (by linarith)
      have hu0 : 0 < 1 / (27 * d1 ^ 2) := by
        have : d1 ≠ 0 := by linarith
        positivity
      have hρa : |y ^ 3 - 4 * t * k * y - 1| ≤ 1 / (4 * 10 ^ 20) := by
        rw [hρ, abs_le]; constructor <;> linarith
      rw [hres, abs_div, abs_neg, abs_of_pos (show 0 < 4 * k * y by positivity),
        div_le_iff₀ (by positivity)]
      refine hρa.trans ?_
      have hyq : (-t) * (4 * k * y) = q := by
        have e : (-t) * (4 * k) = 3 * b := by rw [hbdef]; ring
        rw [show (-t) * (4 * k * y) = ((-t) * (4 * k)) * y by ring, e, hbq, hym]; field_simp
      have : tiny * (-t) * (4 * k * y) = tiny * q := by rw [← hyq]; ring
      rw [this, tiny]
      have : (1:ℝ) / 4 ≤ q := by
        have : (1:ℝ) / (4 * 10 ^ 20) ≤ 3 / 4 := by norm_num
        linarith
      calc (1:ℝ) / (4 * 10 ^ 20) = 1 / 10 ^ 20 * (1 / 4) := by norm_num
        _ ≤ 1 / 10 ^ 20 * q := by
          apply mul_le_mul_of_nonneg_left this; positivity
    · intro hsmall
      rw [← hdp, ← hd1sq] at hsmall
      have h10 : (0:ℝ) ≤ big := by unfold big; positivity
      have := pow_lt_pow_left₀ hb h10 (n := 2) (by norm_num)
      linarith
  · -- exact branch
    set A := (0.5 + d1) ^ (1 / 3 : ℝ) with hA
    set B := (-0.5 + d1) ^ (1 / 3 : ℝ) with hB
    have hA3 : A ^ 3 = 0.5 + d1 := cube_root (by norm_num; linarith)
    have hB3 : B ^ 3 = -0.5 + d1 := cube_root (by norm_num; linarith)
    have hA0 : 0 < A := Real.rpow_pos_of_pos (by norm_num; linarith) _
    have hB0 : 0 < B := Real.rpow_pos_of_pos (by norm_num; linarith) _
    have hAB : A * B = -(4 * t * k) / 3 := by
      refine cube_inj (by positivity) ?_ ?_
      · nlinarith [mul_pos hkp (neg_pos.mpr ht)]
      · have e1 : (A * B) ^ 3 = A ^ 3 * B ^ 3 := by ring
        have e2 : (-(4 * t * k) / 3) ^ 3 = 64 * (-t) ^ 3 * k ^ 3 / 27 := by ring
        rw [e1, hA3, hB3, e2, hk3]
        linear_combination hd1sq + hdp
    set y := A - B with hy
    have hcub : y ^ 3 = 1 + 4 * t * k * y := by
      have : y ^ 3 = A ^ 3 - B ^ 3 - 3 * (A * B) * y := by rw [hy]; ring
      rw [this, hA3, hB3, hAB]; ring
    have hyp : 0 < y := by
      rw [hy]
      have : B ^ 3 < A ^ 3 := by rw [hA3, hB3]; norm_num
      have := lt_of_pow_lt_pow_left₀ 3 hA0.le this
      linarith
    have hy1 : y ≤ 1 := by
      by_contra hcon
      push Not at hcon
      have : 1 < y ^ 3 := one_lt_pow₀ hcon (by norm_num)
      have : 4 * t * k * y < 0 := by
        have h0 := mul_pos (mul_pos hkp hyp) (neg_pos.mpr ht)
        have e : 4 * t * k * y = -(4 * (k * y * -t)) := by ring
        rw [e]; linarith
      linarith
    obtain ⟨x, hx, hx0, hres⟩ := main y (if_neg hb) hyp hy1
    have hz : c * x ^ 4 + x + t = 0 := by
      rw [hres, hcub]; field_simp; ring
    refine ⟨x, hx, hx0, ?_, fun _ => hz⟩
    rw [hz, abs_zero]
    have : 0 < tiny := by unfold tiny; positivity
    exact mul_nonneg this.le (by linarith)

end Verif.RadX
