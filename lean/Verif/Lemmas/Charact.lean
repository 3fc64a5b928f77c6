import Verif.Spec.Charact
import Verif.Lemmas.Reconstruct
import Mathlib.Tactic.Linarith
import Mathlib.Tactic.LinearCombination
import Mathlib.Tactic.FieldSimp
import Mathlib.Tactic.Positivity
import Mathlib.Tactic.NormNum

namespace Verif.Charact
open Verif.Riemann (Gas)

variable {g : Gas} {bx : ℝ} {w : Col}

theorem Phys.d_pos (h : Phys g w) : 0 < w 0 := by cases g <;> exact h.1

theorem asq_eq (g : Gas) (w : Col) : asq g w = sound2 g w := by
  cases g
  · simp only [asq, sound2]; ring
  · rfl

theorem Phys.asq_pos (h : Phys g w) : 0 < asq g w := by
  cases g
  · obtain ⟨h1, h2, h3⟩ := h
    simp only [asq]; positivity
  · obtain ⟨h1, h2⟩ := h
    simp only [asq]; positivity

theorem snd_sq (h : Phys g w) : snd g w ^ 2 = asq g w := by
  cases g
  · exact Real.sq_sqrt h.asq_pos.le
  · rfl

theorem snd_pos (h : Phys g w) : 0 < snd g w := by
  cases g
  · exact Real.sqrt_pos.mpr h.asq_pos
  · exact h.2

theorem gamp_eq (h : Phys g w) : gamp g w = w 0 * asq g w := by
  have := h.d_pos
  cases g
  · simp only [gamp, asq]; field_simp
  · simp only [gamp, asq]; ring

/-- `cfsq`, `cssq` are the roots of the dispersion relation, with the speed of sound between them. -/
theorem roots (h : Phys g w) :
    w 0 * (cfsq g bx w + cssq g bx w) = w 0 * asq g w + bx ^ 2 + btsq g w ∧
    w 0 * (cfsq g bx w * cssq g bx w) = asq g w * bx ^ 2 ∧
    0 < cfsq g bx w ∧ 0 ≤ cssq g bx w ∧ cssq g bx w ≤ asq g w ∧ asq g w ≤ cfsq g bx w ∧
    w 0 * cssq g bx w ≤ bx ^ 2 ∧ bx ^ 2 ≤ w 0 * cfsq g bx w := by
  have hd := h.d_pos
  have ha := h.asq_pos
  set d := w 0
  set A := asq g w
  have hG : gamp g w = d * A := gamp_eq h
  set t := btsq g w with ht
  have t0 : 0 ≤ t := by rw [ht]; unfold btsq; positivity
  have x0 : 0 ≤ bx ^ 2 := sq_nonneg _
  set q := (bx * bx + t - d * A) * (bx * bx + t - d * A) + 4 * (d * A) * t with hq
  have dA : 0 < d * A := mul_pos hd ha
  have q0 : 0 ≤ q := by
    rw [hq]
    have := mul_nonneg dA.le t0
    nlinarith [mul_self_nonneg (bx * bx + t - d * A)]
  set R := Real.sqrt q
  have R0 : 0 ≤ R := Real.sqrt_nonneg _
  have RR : R * R = q := Real.mul_self_sqrt q0
  have hC0 : cfsq0 g bx w = 1 / 2 * (bx ^ 2 + t + d * A + R) := by
    unfold cfsq0
    simp only [hG, ← ht, ← hq]
    ring
  set C := cfsq0 g bx w
  have C0 : 0 < C := by rw [hC0]; linarith
  have hP : C * (bx ^ 2 + t + d * A - C) = d * A * bx ^ 2 := by
    rw [hC0]; linear_combination (-1 / 4) * RR + (-1/4) * hq
  have hf : d * cfsq g bx w = C := by
    unfold cfsq
    change d * (C * (1 / d)) = C
    field_simp
  have hs : d * cssq g bx w = bx ^ 2 + t + d * A - C := by
    have : d * A * (bx * bx) / C = bx ^ 2 + t + d * A - C := by
      rw [div_eq_iff C0.ne']; linear_combination -hP
    unfold cssq
    rw [hG, show cfsq0 g bx w = C from rfl, this]
    change d * ((bx ^ 2 + t + d * A - C) * (1 / d)) = _
    field_simp
  -- comparisons of the root with its coefficients
  have c1 : d * A ≤ C := by
    have : d * A - bx ^ 2 - t ≤ R := by
      apply Real.le_sqrt_of_sq_le
      rw [hq]; nlinarith [mul_nonneg dA.le t0]
    rw [hC0]; linarith
  have c2 : bx ^ 2 ≤ C := by
    have : bx ^ 2 - d * A - t ≤ R := by
      apply Real.le_sqrt_of_sq_le
      rw [hq]; nlinarith [mul_nonneg x0 t0, mul_nonneg dA.le t0]
    rw [hC0]; linarith
  have c3 : bx ^ 2 + t + d * A - C ≤ d * A := by
    have : bx ^ 2 + t - d * A ≤ R := by
      apply Real.le_sqrt_of_sq_le
      rw [hq]; nlinarith [mul_nonneg dA.le t0]
    rw [hC0]; linarith
  have c4 : bx ^ 2 + t + d * A - C ≤ bx ^ 2 := by
    have : t + d * A - bx ^ 2 ≤ R := by
      apply Real.le_sqrt_of_sq_le
      rw [hq]; nlinarith [mul_nonneg x0 t0, mul_nonneg dA.le t0]
    rw [hC0]; linarith
  have c5 : 0 ≤ bx ^ 2 + t + d * A - C := by
    by_contra hn
    push Not at hn
    have := mul_neg_of_pos_of_neg C0 hn
    rw [hP] at this
    nlinarith [mul_nonneg dA.le x0]
  refine ⟨?_, ?_, ?_, ?_, ?_, ?_, ?_, ?_⟩
  · rw [mul_add, hf, hs]; ring
  · apply mul_left_cancel₀ hd.ne'
    calc d * (d * (cfsq g bx w * cssq g bx w)) = (d * cfsq g bx w) * (d * cssq g bx w) := by ring
      _ = d * (A * bx ^ 2) := by rw [hf, hs, hP]; ring
  · exact (pos_iff_pos_of_mul_pos (by rw [hf]; exact C0)).mp hd
  · exact nonneg_of_mul_nonneg_right (by rw [hs]; exact c5) hd
  · exact le_of_mul_le_mul_left (by rw [hs]; exact c3) hd
  · exact le_of_mul_le_mul_left (by rw [hf]; exact c1) hd
  · rw [hs]; exact c4
  · rw [hf]; exact c2

theorem sgn_sq (x : ℝ) : sgn x * sgn x = 1 := by unfold sgn; split <;> norm_num

theorem sgn_abs (x : ℝ) : |x| = sgn x * x := by
  unfold sgn
  split
  · rename_i h; rw [abs_of_neg h]; ring
  · rename_i h; rw [abs_of_nonneg (not_lt.mp h)]; ring

/-- The algebra of the normalisation of the eigenvectors. -/
structure Facts (bx r ir a ia cf cs alf als s bt : ℝ) : Prop where
  r_ir : r * ir = 1
  a_ia : a * ia = 1
  one : alf ^ 2 + als ^ 2 = 1
  mean : alf ^ 2 * cf ^ 2 + als ^ 2 * cs ^ 2 = a ^ 2
  m1 : als * ir * bt = ia * alf * (cf ^ 2 - a ^ 2)
  m2 : alf * ir * bt = ia * als * (a ^ 2 - cs ^ 2)
  m3 : ir * bx = ia * cf * cs * s
  ss : s * s = 1

theorem facts (h : Phys g w) :
    Facts bx (Real.sqrt (w 0)) (1 / Real.sqrt (w 0)) (snd g w) (1 / snd g w) (Real.sqrt (cfsq g bx w))
      (Real.sqrt (cssq g bx w)) (alphaF g bx w) (alphaS g bx w) (sgn bx) (Real.sqrt (btsq g w)) := by
  have hd := h.d_pos
  obtain ⟨hsum, hprod, hf0, hs0, hsa, haf, -, -⟩ := roots (bx := bx) h
  have hr : 0 < Real.sqrt (w 0) := Real.sqrt_pos.mpr hd
  have hr2 : Real.sqrt (w 0) ^ 2 = w 0 := Real.sq_sqrt hd.le
  have ha := snd_pos h
  have ha2 := snd_sq h
  have hcf2 : Real.sqrt (cfsq g bx w) ^ 2 = cfsq g bx w := Real.sq_sqrt hf0.le
  have hcs2 : Real.sqrt (cssq g bx w) ^ 2 = cssq g bx w := Real.sq_sqrt hs0
  have hcf0 := Real.sqrt_nonneg (cfsq g bx w)
  have hcs0 := Real.sqrt_nonneg (cssq g bx w)
  have t0 : 0 ≤ btsq g w := by unfold btsq; positivity
  have hbt2 : Real.sqrt (btsq g w) ^ 2 = btsq g w := Real.sq_sqrt t0
  have hbt0 := Real.sqrt_nonneg (btsq g w)
  -- the transverse field from the speeds
  have key : btsq g w * asq g w = w 0 * ((asq g w - cssq g bx w) * (cfsq g bx w - asq g w)) := by
    linear_combination (-asq g w) * hsum + hprod
  have m3 : 1 / Real.sqrt (w 0) * bx = 1 / snd g w * Real.sqrt (cfsq g bx w) * Real.sqrt (cssq g bx w) * sgn bx := by
    have e : snd g w * |bx| = Real.sqrt (w 0) * (Real.sqrt (cfsq g bx w) * Real.sqrt (cssq g bx w)) := by
      rw [← sq_eq_sq₀ (by positivity) (by positivity), mul_pow, mul_pow, mul_pow, sq_abs, ha2, hr2, hcf2, hcs2, hprod]
    rw [sgn_abs] at e
    have hs := sgn_sq bx
    generalize sgn bx = s at *
    generalize Real.sqrt (w 0) = r at *
    generalize snd g w = a at *
    generalize Real.sqrt (cfsq g bx w) = cf at *
    generalize Real.sqrt (cssq g bx w) = cs at *
    field_simp
    linear_combination s * e - a * bx * hs
  -- the normalisation
  have norm : alphaF g bx w ^ 2 + alphaS g bx w ^ 2 = 1 ∧
      alphaF g bx w ^ 2 * cfsq g bx w + alphaS g bx w ^ 2 * cssq g bx w = asq g w ∧
      alphaS g bx w * Real.sqrt (btsq g w) * snd g w = Real.sqrt (w 0) * alphaF g bx w * (cfsq g bx w - asq g w) ∧
      alphaF g bx w * Real.sqrt (btsq g w) * snd g w = Real.sqrt (w 0) * alphaS g bx w * (asq g w - cssq g bx w) := by
    have zero : (asq g w - cssq g bx w) * (cfsq g bx w - asq g w) = 0 → Real.sqrt (btsq g w) = 0 := by
      intro hz
      rw [hz, mul_zero] at key
      rcases mul_eq_zero.mp key with h1 | h1
      · rw [h1, Real.sqrt_zero]
      · exact absurd h1 h.asq_pos.ne'
    unfold alphaF alphaS
    split
    · rename_i h1
      have e1 : cfsq g bx w = asq g w := by linarith
      rw [zero (by rw [e1]; ring), e1]
      refine ⟨?_, ?_, ?_, ?_⟩ <;> ring
    · rename_i h1
      push Not at h1
      split
      · rename_i h2
        have e1 : asq g w = cssq g bx w := by linarith
        rw [zero (by rw [e1]; ring), e1]
        refine ⟨?_, ?_, ?_, ?_⟩ <;> ring
      · rename_i h2
        push Not at h2
        split
        · rename_i h3
          have e1 : cfsq g bx w = asq g w := by linarith
          rw [zero (by rw [e1]; ring), e1]
          refine ⟨?_, ?_, ?_, ?_⟩ <;> ring
        · rename_i h3
          push Not at h3
          rw [Real.sqrt_div h2.le, Real.sqrt_div h3.le]
          have hx2 : Real.sqrt (asq g w - cssq g bx w) ^ 2 = asq g w - cssq g bx w := Real.sq_sqrt h2.le
          have hy2 : Real.sqrt (cfsq g bx w - asq g w) ^ 2 = cfsq g bx w - asq g w := Real.sq_sqrt h3.le
          have hz2 : Real.sqrt (cfsq g bx w - cssq g bx w) ^ 2 = cfsq g bx w - cssq g bx w := Real.sq_sqrt h1.le
          have hx := Real.sqrt_pos.mpr h2
          have hy := Real.sqrt_pos.mpr h3
          have hz := Real.sqrt_pos.mpr h1
          have hbt : Real.sqrt (btsq g w) * snd g w = Real.sqrt (w 0) *
              (Real.sqrt (asq g w - cssq g bx w) * Real.sqrt (cfsq g bx w - asq g w)) := by
            rw [← sq_eq_sq₀ (by positivity) (by positivity), mul_pow, mul_pow, mul_pow, hbt2, ha2, hr2, hx2, hy2, key]
          generalize Real.sqrt (asq g w - cssq g bx w) = x at *
          generalize Real.sqrt (cfsq g bx w - asq g w) = y at *
          generalize Real.sqrt (cfsq g bx w - cssq g bx w) = z at *
          generalize Real.sqrt (w 0) = r at *
          refine ⟨?_, ?_, ?_, ?_⟩
          · rw [div_pow, div_pow, ← add_div, div_eq_one_iff_eq (by positivity), hx2, hy2, hz2]; ring
          · rw [div_pow, div_pow, div_mul_eq_mul_div, div_mul_eq_mul_div, ← add_div, div_eq_iff (by positivity), hx2, hy2, hz2]
            ring
          · rw [mul_assoc, hbt, ← hy2]; ring
          · rw [mul_assoc, hbt, ← hx2]; ring
  obtain ⟨n1, n2, n3, n4⟩ := norm
  refine ⟨mul_one_div_cancel hr.ne', mul_one_div_cancel ha.ne', n1, ?_, ?_, ?_, m3, sgn_sq bx⟩
  · rw [hcf2, hcs2, ha2, n2]
  · rw [hcf2, ha2]
    field_simp
    linear_combination n3
  · rw [hcs2, ha2]
    field_simp
    linear_combination n4

end Verif.Charact

namespace Verif.Charact
open Verif.Riemann (Gas)

/-- The transverse unit vector used for the projection. -/
theorem unit (g : Gas) (w : Col) :
    bet2 1 g w ^ 2 + bet3 0 g w ^ 2 = 1 ∧ w (IBY g) = Real.sqrt (btsq g w) * bet2 1 g w ∧
      w (IBZ g) = Real.sqrt (btsq g w) * bet3 0 g w := by
  have t0 : 0 ≤ btsq g w := by unfold btsq; positivity
  unfold bet2 bet3
  by_cases h : Real.sqrt (btsq g w) = 0
  · rw [if_neg (not_not.mpr h), if_neg (not_not.mpr h), h]
    rw [Real.sqrt_eq_zero t0] at h
    unfold btsq at h
    have h1 : w (IBY g) = 0 := by nlinarith [sq_nonneg (w (IBY g)), sq_nonneg (w (IBZ g))]
    have h2 : w (IBZ g) = 0 := by nlinarith [sq_nonneg (w (IBY g)), sq_nonneg (w (IBZ g))]
    rw [h1, h2]
    refine ⟨?_, ?_, ?_⟩ <;> ring
  · rw [if_pos h, if_pos h]
    have hq : Real.sqrt (btsq g w) ^ 2 = w (IBY g) ^ 2 + w (IBZ g) ^ 2 := Real.sq_sqrt t0
    refine ⟨?_, (mul_div_cancel₀ _ h).symm, (mul_div_cancel₀ _ h).symm⟩
    rw [div_pow, div_pow, ← add_div, hq, div_self]
    rw [← hq]; positivity

/-- The same facts without divisions. -/
theorem Facts.poly {bx r ir a ia cf cs alf als s bt : ℝ} (F : Facts bx r ir a ia cf cs alf als s bt) :
    a * als * bt = r * alf * (cf ^ 2 - a ^ 2) ∧ a * alf * bt = r * als * (a ^ 2 - cs ^ 2) ∧ a * bx = r * cf * cs * s ∧
    alf * cf * bt + cs * als * s * bx = cf * als * a * r ∧ als * cs * bt + cs * alf * a * r = cf * alf * s * bx := by
  obtain ⟨h1, h2, h3, h4, m1, m2, m3, ss⟩ := F
  have hr : r ≠ 0 := left_ne_zero_of_mul_eq_one h1
  have ha : a ≠ 0 := left_ne_zero_of_mul_eq_one h2
  have e1 : a * als * bt = r * alf * (cf ^ 2 - a ^ 2) := by
    linear_combination (a * r) * m1 - a * als * bt * h1 + r * alf * (cf ^ 2 - a ^ 2) * h2
  have e2 : a * alf * bt = r * als * (a ^ 2 - cs ^ 2) := by
    linear_combination (a * r) * m2 - a * alf * bt * h1 + r * als * (a ^ 2 - cs ^ 2) * h2
  have e3 : a * bx = r * cf * cs * s := by
    linear_combination (a * r) * m3 - a * bx * h1 + r * cf * cs * s * h2
  refine ⟨e1, e2, e3, ?_, ?_⟩
  · apply mul_left_cancel₀ ha
    linear_combination cf * e2 + cs * als * s * e3 + cs ^ 2 * als * r * cf * ss
  · apply mul_left_cancel₀ ha
    linear_combination cs * e1 - cf * alf * s * e3 - cf ^ 2 * alf * r * cs * ss

variable {bx r ir a ia cf cs alf als s bt : ℝ}

theorem fast_eig (F : Facts bx r ir a ia cf cs alf als s bt) (sg V p u X B : ℝ) (hs : sg * sg = 1) :
    alf * ((V * p + r ^ 2 * a ^ 2 * u) - sg * cf * (r ^ 2 * V * u + p + bt * B)) + sg * cs * als * s * (r ^ 2 * V * X - bx * B)
        + als * a * r * (V * B + bt * u - bx * X)
      = (V - sg * cf) * (alf * (p - sg * cf * r ^ 2 * u) + sg * cs * als * s * r ^ 2 * X + als * a * r * B) := by
  obtain ⟨m1, m2, m3, m4, m5⟩ := F.poly
  linear_combination u * r * m1 - X * als * r * m3 - sg * B * m4 + (-cf ^ 2 * alf * r ^ 2 * u + cf * cs * als * s * r ^ 2 * X) * hs

theorem slow_eig (F : Facts bx r ir a ia cf cs alf als s bt) (sg V p u X B : ℝ) (hs : sg * sg = 1) :
    als * ((V * p + r ^ 2 * a ^ 2 * u) - sg * cs * (r ^ 2 * V * u + p + bt * B)) - sg * cf * alf * s * (r ^ 2 * V * X - bx * B)
        - alf * a * r * (V * B + bt * u - bx * X)
      = (V - sg * cs) * (als * (p - sg * cs * r ^ 2 * u) - sg * cf * alf * s * r ^ 2 * X - alf * a * r * B) := by
  obtain ⟨m1, m2, m3, m4, m5⟩ := F.poly
  linear_combination -u * r * m2 + X * alf * r * m3 - sg * B * m5 + (-cs ^ 2 * als * r ^ 2 * u - cf * cs * alf * s * r ^ 2 * X) * hs

end Verif.Charact
