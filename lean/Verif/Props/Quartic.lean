import Verif.Model.Quartic
import Mathlib.Topology.Order.IntermediateValue
import Mathlib.Topology.Algebra.Polynomial
import Mathlib.Tactic.FieldSimp
import Mathlib.Tactic.LinearCombination
import Mathlib.Tactic.Positivity

/-!
# C92: the temperature equation `coef4 T⁴ + T + tconst = 0` is solved exactly
-/

namespace Verif.Quartic

/-! ### Lemmas -/

theorem cpow_pos {x : ℝ} (hx : 0 < x) (e : ℝ) : cpow x e = some (x ^ e) := by
  unfold cpow
  rw [if_neg (not_lt.2 hx.le), if_neg (fun h => hx.ne' h.1)]

theorem cpow_nonneg {x e : ℝ} (hx : 0 ≤ x) (he : 0 < e) : cpow x e = some (x ^ e) := by
  unfold cpow
  rw [if_neg (not_lt.2 hx), if_neg (fun h => absurd h.2 (not_lt.2 he.le))]

theorem cube_root {x : ℝ} (hx : 0 ≤ x) : (x ^ (1 / 3 : ℝ)) ^ 3 = x := by
  rw [← Real.rpow_natCast, ← Real.rpow_mul hx]
  norm_num

theorem inv_pow {c : ℝ} (hc : 0 < c) : (c ^ (-2 / 3 : ℝ)) ^ 3 = 1 / c ^ 2 := by
  rw [← Real.rpow_natCast, ← Real.rpow_mul hc.le]
  norm_num

theorem cube_inj {a b : ℝ} (h : a ^ 3 = b ^ 3) : a = b :=
  (Odd.strictMono_pow (by decide : Odd 3)).injective h

/-- The root of the resolvent `z³ - 4 t/c z - 1/c² = 0` gives the root of the quartic. -/
theorem from_resolvent {c t z : ℝ} (hc : 0 < c) (ht : t ≤ 0) (hz : 0 < z)
    (h : z ^ 3 - 4 * t / c * z - 1 / c ^ 2 = 0) :
    0 ≤ -z + 2 / (c * Real.sqrt z) ∧
    0 ≤ 1 / 2 * (Real.sqrt (-z + 2 / (c * Real.sqrt z)) - Real.sqrt z) ∧
    c * (1 / 2 * (Real.sqrt (-z + 2 / (c * Real.sqrt z)) - Real.sqrt z)) ^ 4 +
      1 / 2 * (Real.sqrt (-z + 2 / (c * Real.sqrt z)) - Real.sqrt z) + t = 0 := by
  obtain ⟨r, hr⟩ : ∃ r, r = Real.sqrt z := ⟨_, rfl⟩
  have hr0 : 0 < r := by rw [hr]; exact Real.sqrt_pos.2 hz
  have hrz : r ^ 2 = z := by rw [hr]; exact Real.sq_sqrt hz.le
  rw [← hr]
  have h' : c ^ 2 * z ^ 3 - 4 * t * c * z = 1 := by
    field_simp at h
    linarith
  have hle : (c * (z * r)) ^ 2 ≤ 1 := by
    have e : (c * (z * r)) ^ 2 = c ^ 2 * z ^ 3 := by
      rw [← hrz]; ring
    rw [e]
    have : 0 ≤ -(4 * t * c * z) := by
      have : 0 ≤ (-t) * (c * z) := mul_nonneg (by linarith) (mul_pos hc hz).le
      linarith
    linarith
  have h1 : c * (z * r) ≤ 1 := by
    have hp : 0 < c * (z * r) := mul_pos hc (mul_pos hz hr0)
    nlinarith
  have hcr : 0 < c * r := mul_pos hc hr0
  have hd : z ≤ -z + 2 / (c * r) := by
    have : 2 * z ≤ 2 / (c * r) := by
      rw [le_div_iff₀ hcr]; linarith
    linarith
  have hd0 : 0 ≤ -z + 2 / (c * r) := le_trans hz.le hd
  obtain ⟨s, hs⟩ : ∃ s, s = Real.sqrt (-z + 2 / (c * r)) := ⟨_, rfl⟩
  have hs2 : s ^ 2 = -z + 2 / (c * r) := by rw [hs]; exact Real.sq_sqrt hd0
  rw [← hs]
  refine ⟨hd0, ?_, ?_⟩
  · have : r ≤ s := by
      rw [hr, hs]
      exact Real.sqrt_le_sqrt hd
    linarith
  · have hs2' : c * r * s ^ 2 = -(c * r ^ 3) + 2 := by
      rw [hs2, ← hrz]; field_simp
    have h'' : c ^ 2 * r ^ 6 - 4 * t * c * r ^ 2 = 1 := by
      rw [← hrz] at h'; linarith
    -- everything times `16 c r²`
    have key : (16 * c * r ^ 2) *
        (c * (1 / 2 * (s - r)) ^ 4 + 1 / 2 * (s - r) + t) = 0 := by
      linear_combination (c * r * s ^ 2 - 4 * c * r ^ 2 * s + 5 * c * r ^ 3 + 2) * hs2' - 4 * h''
    have hne : 16 * c * r ^ 2 ≠ 0 := by positivity
    exact (mul_eq_zero.1 key).resolve_left hne

/-- The root of the resolvent found by the code. -/
theorem resolvent {c t : ℝ} (hc : 0 < c) (δ : ℝ) (hδ : 1 / 2 ≤ δ)
    (hδ2 : δ ^ 2 = 1 / 4 - 64 * (t * t * t) * c / 27) :
    0 < (1 / 2 + δ) ^ (1 / 3 : ℝ) - (-1 / 2 + δ) ^ (1 / 3 : ℝ) ∧
    (((1 / 2 + δ) ^ (1 / 3 : ℝ) - (-1 / 2 + δ) ^ (1 / 3 : ℝ)) * c ^ (-2 / 3 : ℝ)) ^ 3 -
      4 * t / c * (((1 / 2 + δ) ^ (1 / 3 : ℝ) - (-1 / 2 + δ) ^ (1 / 3 : ℝ)) * c ^ (-2 / 3 : ℝ)) -
      1 / c ^ 2 = 0 := by
  have ha : (0 : ℝ) ≤ 1 / 2 + δ := by linarith
  have hb : (0 : ℝ) ≤ -1 / 2 + δ := by linarith
  have hu := cube_root ha
  have hv := cube_root hb
  have hlt : (-1 / 2 + δ) ^ (1 / 3 : ℝ) < (1 / 2 + δ) ^ (1 / 3 : ℝ) :=
    Real.rpow_lt_rpow hb (by linarith) (by norm_num)
  have hf := inv_pow hc
  generalize (1 / 2 + δ) ^ (1 / 3 : ℝ) = u at *
  generalize (-1 / 2 + δ) ^ (1 / 3 : ℝ) = v at *
  generalize c ^ (-2 / 3 : ℝ) = f at *
  refine ⟨by linarith, ?_⟩
  -- `3 u v = -4 t f c`
  have key : 3 * (u * v) = -4 * t * (f * c) := by
    apply cube_inj
    have e1 : (3 * (u * v)) ^ 3 = 27 * (u ^ 3 * v ^ 3) := by ring
    have e2 : (-4 * t * (f * c)) ^ 3 = -64 * t ^ 3 * (f ^ 3 * c ^ 3) := by ring
    rw [e1, e2, hu, hv, hf]
    have e3 : 1 / c ^ 2 * c ^ 3 = c := by field_simp
    rw [e3]
    linear_combination 27 * hδ2
  have huv : u ^ 3 - v ^ 3 = 1 := by rw [hu, hv]; ring
  have e4 : ((u - v) * f) ^ 3 = (u - v) ^ 3 / c ^ 2 := by rw [mul_pow, hf]; ring
  rw [e4]
  field_simp
  linear_combination huv - (u - v) * key

/-- There is at most one root that is not negative. -/
theorem unique_root {c t : ℝ} (hc : 0 < c) {x y : ℝ} (hx : 0 ≤ x) (hy : 0 ≤ y)
    (h1 : c * x ^ 4 + x + t = 0) (h2 : c * y ^ 4 + y + t = 0) : x = y := by
  rcases lt_trichotomy x y with h | h | h
  · have := mul_le_mul_of_nonneg_left (pow_le_pow_left₀ hx h.le 4) hc.le
    linarith
  · exact h
  · have := mul_le_mul_of_nonneg_left (pow_le_pow_left₀ hy h.le 4) hc.le
    linarith

/-! ### Theorems -/

/-- A positive coefficient: a result is found if and only if there is a root that is not negative,
and it is this root. In the branch for very large numbers (`delta1 > BIG_NUMBER`) the code uses an
approximation; the hypothesis `hb` excludes it. -/
theorem root_found_partial (big c t : ℝ) (hc : 0 < c)
    (hb : Real.sqrt (1 / 4 - 64 * (t * t * t) * c / 27) ≤ big) (x : ℝ) :
    polyRoot big c t = some x ↔ 0 ≤ x ∧ c * x ^ 4 + x + t = 0 := by
  by_cases ht : t ≤ 0
  · have h3 : t * t * t ≤ 0 :=
      mul_nonpos_of_nonneg_of_nonpos (mul_self_nonneg t) ht
    have hq : 1 / 4 ≤ 1 / 4 - 64 * (t * t * t) * c / 27 := by
      have := mul_nonpos_of_nonpos_of_nonneg h3 hc.le
      linarith
    have hδ : 1 / 2 ≤ Real.sqrt (1 / 4 - 64 * (t * t * t) * c / 27) := by
      apply Real.le_sqrt_of_sq_le
      linarith
    have hδ2 := Real.sq_sqrt (le_trans (by norm_num) hq)
    unfold polyRoot
    simp only
    rw [if_neg (by linarith)]
    generalize Real.sqrt (1 / 4 - 64 * (t * t * t) * c / 27) = δ at *
    obtain ⟨r1, r2⟩ := resolvent hc δ hδ hδ2
    rw [if_neg (by linarith), if_neg (by linarith), cpow_pos (by linarith),
      cpow_nonneg (by linarith : (0 : ℝ) ≤ -1 / 2 + δ) (by norm_num)]
    simp only [Option.bind_some, Option.map_some]
    rw [if_neg (not_lt.2 r1.le), cpow_pos hc]
    simp only
    have hz := mul_pos r1 (Real.rpow_pos_of_pos hc (-2 / 3))
    generalize ((1 / 2 + δ) ^ (1 / 3 : ℝ) - (-1 / 2 + δ) ^ (1 / 3 : ℝ)) * c ^ (-2 / 3 : ℝ) = z at *
    obtain ⟨q1, q2, q3⟩ := from_resolvent hc ht hz r2
    rw [if_neg (not_lt.2 q1), if_neg (not_lt.2 q2)]
    constructor
    · intro h
      rw [← Option.some.inj h]
      exact ⟨q2, q3⟩
    · rintro ⟨h1, h2⟩
      rw [unique_root hc q2 h1 q3 h2]
  · have ht' : 0 < t := not_le.1 ht
    have hn : polyRoot big c t = none := by
      unfold polyRoot
      simp only
      split
      · rfl
      · rename_i h
        rw [if_pos]
        rw [Real.sqrt_lt' (by norm_num)]
        have : 0 < t * t * t * c := by positivity
        linarith
    rw [hn]
    constructor
    · intro h; cases h
    · rintro ⟨h1, h2⟩
      have : 0 ≤ c * x ^ 4 := by positivity
      linarith

/-- With a constant term that is not positive, the root is found. -/
theorem root_exists_partial (big c t : ℝ) (hc : 0 < c) (ht : t ≤ 0)
    (hb : Real.sqrt (1 / 4 - 64 * (t * t * t) * c / 27) ≤ big) :
    ∃ x, polyRoot big c t = some x ∧ 0 ≤ x ∧ x ≤ -t ∧ c * x ^ 4 + x + t = 0 := by
  have cont : ContinuousOn (fun x : ℝ => c * x ^ 4 + x + t) (Set.Icc 0 (-t)) := by fun_prop
  have hn : 0 ≤ -t := by linarith
  have := intermediate_value_Icc hn cont
  obtain ⟨x, hx, h⟩ := this (show (0 : ℝ) ∈ _ by
    constructor
    · simpa using ht
    · have : 0 ≤ c * (-t) ^ 4 := by positivity
      linarith)
  exact ⟨x, (root_found_partial big c t hc hb x).2 ⟨hx.1, h⟩, hx.1, hx.2, h⟩

/-- Finding F94: a negative leading coefficient always gives the return value -1, although there is a
positive root for every positive constant term. -/
theorem negative_fails (big c t : ℝ) (hc : c < 0) :
    polyRoot big c t = none ∧ (0 < t → ∃ x, 0 < x ∧ c * x ^ 4 + x + t = 0) := by
  constructor
  · have e : cpow c (-2 / 3) = none := by
      unfold cpow
      rw [if_pos hc]
    unfold polyRoot
    simp only [e]
    repeat' split
    all_goals rfl
  · intro ht
    have cont : ContinuousOn (fun x : ℝ => c * x ^ 4 + x + t) (Set.Icc 0 (1 + (1 + t) / -c)) := by
      fun_prop
    have hm : (0 : ℝ) ≤ 1 + (1 + t) / -c := by
      have : 0 ≤ (1 + t) / -c := div_nonneg (by linarith) (by linarith)
      linarith
    have := intermediate_value_Icc' hm cont
    obtain ⟨x, hx, h⟩ := this (show (0 : ℝ) ∈ _ by
      constructor
      · obtain ⟨m, hm'⟩ : ∃ m, m = 1 + (1 + t) / -c := ⟨_, rfl⟩
        rw [← hm']
        have h1 : 1 ≤ m := by
          have : 0 ≤ (1 + t) / -c := div_nonneg (by linarith) (by linarith)
          linarith
        have h2 : (m - 1) * -c = 1 + t := by
          rw [hm', add_sub_cancel_left, div_mul_cancel₀ _ (neg_ne_zero.2 hc.ne)]
        have h3 : m ≤ m ^ 4 := le_self_pow₀ h1 (by norm_num)
        have h4 : m * m ≤ m ^ 4 := by
          have := pow_le_pow_right₀ h1 (by norm_num : 2 ≤ 4)
          nlinarith
        nlinarith
      · simpa using ht.le)
    refine ⟨x, lt_of_le_of_ne hx.1 ?_, h⟩
    rintro rfl
    simp at h
    linarith

/-- Finding F94: `EffectiveBlackBody` never uses the solution of its equation
`(1/y)⁴ - (5/π⁴)(1/y) - a = 0`: it returns `a^(-1/4)`, which is never a solution. -/
theorem effective_never_solved (big pi4 a : ℝ) (hp : 0 < pi4) (ha : 0 < a) :
    ∃ y, effective big pi4 a = some y ∧ 0 < y ∧ (1 / y) ^ 4 = a ∧
      (1 / y) ^ 4 - 5 / pi4 * (1 / y) - a < 0 := by
  unfold effective
  rw [(negative_fails big (-pi4 * (1 / 5)) (a * (1 / 5) * pi4) (by linarith)).1]
  have h1 : 0 < 1 / a := by positivity
  refine ⟨(1 / a) ^ (1 / 4 : ℝ), cpow_pos h1 _, Real.rpow_pos_of_pos h1 _, ?_⟩
  have e : (1 / (1 / a) ^ (1 / 4 : ℝ)) ^ 4 = a := by
    rw [div_pow, ← Real.rpow_natCast, ← Real.rpow_natCast, ← Real.rpow_mul h1.le]
    norm_num
  refine ⟨e, ?_⟩
  rw [e]
  have : 0 < 5 / pi4 * (1 / (1 / a) ^ (1 / 4 : ℝ)) := by positivity
  linarith

/-! ### Concrete cases -/

/-- `T⁴ + T - 2 = 0`: the hypotheses hold, and the result is 1. -/
example : polyRoot (10 ^ 10) 1 (-2) = some 1 := by
  rw [root_found_partial _ _ _ (by norm_num)]
  · norm_num
  · rw [Real.sqrt_le_left (by norm_num)]
    norm_num

example : polyRoot (10 ^ 10) (-1) 2 = none := (negative_fails _ _ _ (by norm_num)).1

end Verif.Quartic
