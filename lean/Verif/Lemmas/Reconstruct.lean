import Verif.Spec.Reconstruct
import Mathlib.Tactic.Linarith
import Mathlib.Tactic.Ring
import Mathlib.Tactic.FieldSimp
import Mathlib.Tactic.Positivity

/-!
# Helper lemmas for reconstruction
-/
namespace Verif.Recon
variable {K : Type} [Field K] [LinearOrder K]

section
variable [IsStrictOrderedRing K]

/-- What a limited slope must satisfy: `p`, `r` are the relative distances from the centre to
the two faces, `a`, `b` the differences to the two neighbours. -/
def Lim (p r a b s : K) : Prop :=
  (a * b ≤ 0 → s = 0) ∧
  (0 < a → 0 < b → 0 ≤ s ∧ p * s ≤ b ∧ r * s ≤ a) ∧
  (a < 0 → b < 0 → s ≤ 0 ∧ b ≤ p * s ∧ a ≤ r * s)

theorem Lim.neg {p r a b s : K} (h : Lim p r (-a) (-b) (-s)) : Lim p r a b s := by
  obtain ⟨h0, h1, h2⟩ := h
  refine ⟨fun h => ?_, fun ha hb => ?_, fun ha hb => ?_⟩
  · have := h0 (by simpa using h)
    simpa using this
  · have := h2 (by simpa using ha) (by simpa using hb)
    simp only [mul_neg] at this
    exact ⟨by linarith [this.1], by linarith [this.2.1], by linarith [this.2.2]⟩
  · have := h1 (by simpa using ha) (by simpa using hb)
    simp only [mul_neg] at this
    exact ⟨by linarith [this.1], by linarith [this.2.1], by linarith [this.2.2]⟩

/-- A slope function that is odd and limited for positive differences is limited. -/
theorem lim_of_pos {p r : K} (f : K → K → K) (h0 : ∀ a b, a * b ≤ 0 → f a b = 0)
    (hneg : ∀ a b, f (-a) (-b) = -f a b)
    (hpos : ∀ a b, 0 < a → 0 < b → 0 ≤ f a b ∧ p * f a b ≤ b ∧ r * f a b ≤ a) (a b : K) :
    Lim p r a b (f a b) := by
  refine ⟨h0 a b, hpos a b, fun ha hb => ?_⟩
  have := hpos (-a) (-b) (by simpa using ha) (by simpa using hb)
  rw [hneg] at this
  simp only [mul_neg] at this
  exact ⟨by linarith [this.1], by linarith [this.2.1], by linarith [this.2.2]⟩

theorem sign_cases (a b : K) : a * b ≤ 0 ∨ (0 < a ∧ 0 < b) ∨ (a < 0 ∧ b < 0) := by
  rcases le_or_gt (a * b) 0 with h | h
  · exact Or.inl h
  · exact Or.inr (mul_pos_iff.1 h)

theorem between_left (a b : K) : Between a b a := ⟨min_le_left _ _, le_max_left _ _⟩
theorem between_right (a b : K) : Between a b b := ⟨min_le_right _ _, le_max_right _ _⟩

theorem Lim.between {p r qm qc qp s : K} (hp : 0 ≤ p) (hr : 0 ≤ r)
    (h : Lim p r (qc - qm) (qp - qc) s) :
    Between qc qp (qc + p * s) ∧ Between qm qc (qc - r * s) := by
  obtain ⟨h0, h1, h2⟩ := h
  rcases sign_cases (qc - qm) (qp - qc) with h | ⟨ha, hb⟩ | ⟨ha, hb⟩
  · rw [h0 h]
    simp only [mul_zero, add_zero, sub_zero]
    exact ⟨between_left _ _, between_right _ _⟩
  · obtain ⟨e0, e1, e2⟩ := h1 ha hb
    have := mul_nonneg hp e0
    have := mul_nonneg hr e0
    refine ⟨⟨(min_le_left _ _).trans (by linarith), le_trans (by linarith) (le_max_right _ _)⟩,
      ⟨(min_le_left _ _).trans (by linarith), le_trans (by linarith) (le_max_right _ _)⟩⟩
  · obtain ⟨e0, e1, e2⟩ := h2 ha hb
    have := mul_nonpos_of_nonneg_of_nonpos hp e0
    have := mul_nonpos_of_nonneg_of_nonpos hr e0
    refine ⟨⟨(min_le_right _ _).trans (by linarith), le_trans (by linarith) (le_max_left _ _)⟩,
      ⟨(min_le_right _ _).trans (by linarith), le_trans (by linarith) (le_max_left _ _)⟩⟩

/-! ## The limiters -/

theorem minmod_zero {d a b : K} (h : d ≤ 0) : minmod d a b = 0 := by
  unfold minmod; rw [if_pos h]

theorem minmod_pos {d a b : K} (h : 0 < d) (ha : 0 < a) : minmod d a b = min a b := by
  unfold minmod; rw [if_neg (not_le.2 h), if_pos ha.le]

theorem minmod_neg' {d a b : K} (h : 0 < d) (ha : a < 0) : minmod d a b = max a b := by
  unfold minmod; rw [if_neg (not_le.2 h), if_neg (not_le.2 ha)]

theorem vanLeer_zero {a b : K} (h : a * b ≤ 0) : vanLeer a b = 0 := by
  simp only [vanLeer]; rw [if_pos h]

theorem vanLeer_pos {a b : K} (h : 0 < a * b) : vanLeer a b = 2 * (a * b) / (a + b) := by
  simp only [vanLeer]; rw [if_neg (not_le.2 h)]

theorem vanLeerM_zero {f c a b : K} (h : a * b ≤ 0) : vanLeerM f c a b = 0 := by
  simp only [vanLeerM]; rw [if_pos h]

theorem vanLeerM_pos {f c a b : K} (h : 0 < a * b) : vanLeerM f c a b =
    a * b * (f * b + c * a) / (b * b + a * a + a * b * (f + c - 2)) := by
  simp only [vanLeerM]; rw [if_neg (not_le.2 h)]

theorem vanLeer_neg (a b : K) : vanLeer (-a) (-b) = -vanLeer a b := by
  rcases le_or_gt (a * b) 0 with h | h
  · rw [vanLeer_zero (by simpa using h), vanLeer_zero h, neg_zero]
  · rw [vanLeer_pos (by simpa using h), vanLeer_pos h, ← neg_add, div_neg, neg_mul_neg]

theorem vanLeerM_neg (f c a b : K) : vanLeerM f c (-a) (-b) = -vanLeerM f c a b := by
  rcases le_or_gt (a * b) 0 with h | h
  · rw [vanLeerM_zero (by simpa using h), vanLeerM_zero h, neg_zero]
  · rw [vanLeerM_pos (by simpa using h), vanLeerM_pos h]
    simp only [mul_neg, neg_mul, neg_neg]
    rw [← neg_add, mul_neg, neg_div]

theorem vanLeer_bound {a b : K} (ha : 0 < a) (hb : 0 < b) :
    0 ≤ vanLeer a b ∧ vanLeer a b ≤ 2 * a ∧ vanLeer a b ≤ 2 * b := by
  rw [vanLeer_pos (mul_pos ha hb)]
  have hs : 0 < a + b := add_pos ha hb
  refine ⟨by positivity, ?_, ?_⟩
  · rw [div_le_iff₀ hs]; nlinarith [mul_pos ha ha]
  · rw [div_le_iff₀ hs]; nlinarith [mul_pos hb hb]

theorem vanLeerM_bound {f c a b : K} (ha : 0 < a) (hb : 0 < b) (hf : 0 < f) (hc : 0 < c)
    (h1 : 2 * f + c ≤ f * (f + c)) (h2 : 2 * c + f ≤ c * (f + c)) :
    0 ≤ vanLeerM f c a b ∧ vanLeerM f c a b ≤ f * a ∧ vanLeerM f c a b ≤ c * b := by
  rw [vanLeerM_pos (mul_pos ha hb)]
  have hab := mul_pos ha hb
  have hD : 0 < b * b + a * a + a * b * (f + c - 2) := by
    have : 0 < a * b * (f + c) := by positivity
    nlinarith [mul_self_nonneg (b - a)]
  refine ⟨by positivity, ?_, ?_⟩
  · rw [div_le_iff₀ hD]
    have e : f * a * (b * b + a * a + a * b * (f + c - 2)) - a * b * (f * b + c * a)
        = a * (a * b * (f * (f + c) - (2 * f + c)) + f * (a * a)) := by ring
    have : 0 ≤ a * (a * b * (f * (f + c) - (2 * f + c)) + f * (a * a)) := by
      have : 0 ≤ f * (f + c) - (2 * f + c) := by linarith
      positivity
    linarith
  · rw [div_le_iff₀ hD]
    have e : c * b * (b * b + a * a + a * b * (f + c - 2)) - a * b * (f * b + c * a)
        = b * (a * b * (c * (f + c) - (2 * c + f)) + c * (b * b)) := by ring
    have : 0 ≤ b * (a * b * (c * (f + c) - (2 * c + f)) + c * (b * b)) := by
      have : 0 ≤ c * (f + c) - (2 * c + f) := by linarith
      positivity
    linarith

/-! ## The slopes -/

variable {m : Line K} {i : Int}

theorem Line.Cell.p_pos (h : m.Cell i) : 0 < m.xf (i + 1) - m.xv i := by linarith [h.hi]
theorem Line.Cell.r_pos (h : m.Cell i) : 0 < m.xv i - m.xf i := by linarith [h.lo]
theorem Line.Cell.dxf_pos (h : m.Cell i) : 0 < m.dxf i := by linarith [h.dxf, h.lo, h.hi]
theorem Line.Cell.dxv_pos (h : m.Cell i) : 0 < m.dxv i := by linarith [h.dxv, h.hi, h.next]
theorem Line.Cell.dxv'_pos (h : m.Cell i) : 0 < m.dxv (i - 1) := by linarith [h.dxv', h.lo, h.prev]
theorem Line.Cell.p_le (h : m.Cell i) : m.xf (i + 1) - m.xv i ≤ m.dxv i := by
  linarith [h.dxv, h.next]
theorem Line.Cell.r_le (h : m.Cell i) : m.xv i - m.xf i ≤ m.dxv (i - 1) := by
  linarith [h.dxv', h.prev]

theorem Line.Cell.p_ratio (h : m.Cell i) :
    0 < (m.xf (i + 1) - m.xv i) / m.dxf i ∧ (m.xf (i + 1) - m.xv i) / m.dxf i ≤ 1 :=
  ⟨div_pos h.p_pos h.dxf_pos, (div_le_one h.dxf_pos).2 (by linarith [h.dxf, h.lo])⟩

theorem Line.Cell.r_ratio (h : m.Cell i) :
    0 < (m.xv i - m.xf i) / m.dxf i ∧ (m.xv i - m.xf i) / m.dxf i ≤ 1 :=
  ⟨div_pos h.r_pos h.dxf_pos, (div_le_one h.dxf_pos).2 (by linarith [h.dxf, h.hi])⟩

theorem Line.Cell.mid (h : m.Cell i) (hm : m.Mid i) :
    (m.xf (i + 1) - m.xv i) / m.dxf i = 1 / 2 ∧ (m.xv i - m.xf i) / m.dxf i = 1 / 2 := by
  have := h.dxf_pos.ne'
  unfold Line.Mid at hm
  constructor
  · rw [div_eq_iff this, h.dxf, hm]; ring
  · rw [div_eq_iff this, h.dxf, hm]; ring

/-- The slope in any direction, as a limiter applied to weighted differences. -/
theorem slopeX2_eq (mm flat : Bool) (a b : K) :
    slopeX2 mm flat m i a b = slopeX1 mm flat m i a b := by
  unfold slopeX2 slopeX1
  simp only [mul_div_assoc]

theorem lim_minmod {p r u v a b : K} (hp : 0 ≤ p) (hr : 0 ≤ r) (hu : 0 < u) (hv : 0 < v)
    (h1 : p * v ≤ 1) (h2 : r * u ≤ 1) : Lim p r a b (minmod (a * b) (a * u) (b * v)) := by
  refine ⟨fun h => minmod_zero h, fun ha hb => ?_, fun ha hb => ?_⟩
  · rw [minmod_pos (mul_pos ha hb) (mul_pos ha hu)]
    refine ⟨le_min (by positivity) (by positivity), ?_, ?_⟩
    · calc p * min (a * u) (b * v) ≤ p * (b * v) :=
            mul_le_mul_of_nonneg_left (min_le_right _ _) hp
        _ = b * (p * v) := by ring
        _ ≤ b := by nlinarith
    · calc r * min (a * u) (b * v) ≤ r * (a * u) :=
            mul_le_mul_of_nonneg_left (min_le_left _ _) hr
        _ = a * (r * u) := by ring
        _ ≤ a := by nlinarith
  · rw [minmod_neg' (mul_pos_of_neg_of_neg ha hb) (mul_neg_of_neg_of_pos ha hu)]
    refine ⟨max_le (mul_neg_of_neg_of_pos ha hu).le (mul_neg_of_neg_of_pos hb hv).le, ?_, ?_⟩
    · calc b ≤ b * (p * v) := by nlinarith
        _ = p * (b * v) := by ring
        _ ≤ p * max (a * u) (b * v) := mul_le_mul_of_nonneg_left (le_max_right _ _) hp
    · calc a ≤ a * (r * u) := by nlinarith
        _ = r * (a * u) := by ring
        _ ≤ r * max (a * u) (b * v) := mul_le_mul_of_nonneg_left (le_max_left _ _) hr

theorem lim_vanLeer {p r u v : K} (hp : 0 ≤ p) (hr : 0 ≤ r) (hu : 0 < u) (hv : 0 < v)
    (h1 : 2 * (p * v) ≤ 1) (h2 : 2 * (r * u) ≤ 1) (a b : K) :
    Lim p r a b (vanLeer (b * v) (a * u)) := by
  refine lim_of_pos (fun a b => vanLeer (b * v) (a * u)) (fun a b h => vanLeer_zero ?_)
    (fun a b => ?_) (fun a b ha hb => ?_) a b
  · have := mul_nonpos_of_nonpos_of_nonneg h (mul_pos hu hv).le
    linarith [this, (by ring : a * b * (u * v) = b * v * (a * u))]
  · simp only [neg_mul]; exact vanLeer_neg _ _
  · obtain ⟨e0, e1, e2⟩ := vanLeer_bound (mul_pos hb hv) (mul_pos ha hu)
    refine ⟨e0, ?_, ?_⟩
    · calc p * vanLeer (b * v) (a * u) ≤ p * (2 * (b * v)) := mul_le_mul_of_nonneg_left e1 hp
        _ = b * (2 * (p * v)) := by ring
        _ ≤ b := by nlinarith
    · calc r * vanLeer (b * v) (a * u) ≤ r * (2 * (a * u)) := mul_le_mul_of_nonneg_left e2 hr
        _ = a * (2 * (r * u)) := by ring
        _ ≤ a := by nlinarith

theorem lim_vanLeerM {p r u v f c : K} (hp : 0 ≤ p) (hr : 0 ≤ r) (hu : 0 < u) (hv : 0 < v)
    (hf : 0 < f) (hc : 0 < c) (h1 : p * (f * v) ≤ 1) (h2 : r * (c * u) ≤ 1)
    (g1 : 2 * f + c ≤ f * (f + c)) (g2 : 2 * c + f ≤ c * (f + c)) (a b : K) :
    Lim p r a b (vanLeerM f c (b * v) (a * u)) := by
  refine lim_of_pos (fun a b => vanLeerM f c (b * v) (a * u)) (fun a b h => vanLeerM_zero ?_)
    (fun a b => ?_) (fun a b ha hb => ?_) a b
  · have := mul_nonpos_of_nonpos_of_nonneg h (mul_pos hu hv).le
    linarith [this, (by ring : a * b * (u * v) = b * v * (a * u))]
  · simp only [neg_mul]; exact vanLeerM_neg _ _ _ _
  · obtain ⟨e0, e1, e2⟩ := vanLeerM_bound (mul_pos hb hv) (mul_pos ha hu) hf hc g1 g2
    refine ⟨e0, ?_, ?_⟩
    · calc p * vanLeerM f c (b * v) (a * u) ≤ p * (f * (b * v)) :=
            mul_le_mul_of_nonneg_left e1 hp
        _ = b * (p * (f * v)) := by ring
        _ ≤ b := by nlinarith
    · calc r * vanLeerM f c (b * v) (a * u) ≤ r * (c * (a * u)) :=
            mul_le_mul_of_nonneg_left e2 hr
        _ = a * (r * (c * u)) := by ring
        _ ≤ a := by nlinarith

/-- `vanLeer` is symmetric. -/
theorem vanLeer_comm (a b : K) : vanLeer a b = vanLeer b a := by
  simp only [vanLeer, mul_comm a b, add_comm a b]

theorem slopeX1_lim {mm flat : Bool} (h : m.Cell i) (hflat : flat = true → m.Mid i)
    (hvl : mm = false → flat = false → m.Smooth i) (a b : K) :
    Lim ((m.xf (i + 1) - m.xv i) / m.dxf i) ((m.xv i - m.xf i) / m.dxf i) a b
      (slopeX1 mm flat m i a b) := by
  have hd := h.dxf_pos
  have hv := h.dxv_pos
  have hu := h.dxv'_pos
  have p0 := h.p_ratio.1.le
  have r0 := h.r_ratio.1.le
  have w1 : (m.xf (i + 1) - m.xv i) / m.dxf i * (m.dxf i / m.dxv i) =
      (m.xf (i + 1) - m.xv i) / m.dxv i := by field_simp
  have w2 : (m.xv i - m.xf i) / m.dxf i * (m.dxf i / m.dxv (i - 1)) =
      (m.xv i - m.xf i) / m.dxv (i - 1) := by field_simp
  cases mm <;> cases flat
  · simp only [slopeX1, Bool.false_eq_true, if_false]
    obtain ⟨g1, g2⟩ := hvl rfl rfl
    have f0 : 0 < m.dxv i / (m.xf (i + 1) - m.xv i) := div_pos hv h.p_pos
    have c0 : 0 < m.dxv (i - 1) / (m.xv i - m.xf i) := div_pos hu h.r_pos
    rw [mul_div_assoc, mul_div_assoc]
    refine lim_vanLeerM p0 r0 (div_pos hd hu) (div_pos hd hv) f0 c0 (le_of_eq ?_) (le_of_eq ?_)
      g1 (by linarith [g2]) a b
    · have := h.p_pos.ne'; field_simp
    · have := h.r_pos.ne'; field_simp
  · simp only [slopeX1, Bool.false_eq_true, if_false, if_true]
    obtain ⟨e1, e2⟩ := h.mid (hflat rfl)
    rw [e1, e2]
    have := lim_vanLeer (p := (1 / 2 : K)) (r := 1 / 2) (u := 1) (v := 1) (by norm_num)
      (by norm_num) one_pos one_pos (by norm_num) (by norm_num) a b
    rwa [mul_one, mul_one, vanLeer_comm] at this
  · simp only [slopeX1, Bool.false_eq_true, if_false, if_true]
    rw [mul_div_assoc, mul_div_assoc]
    refine lim_minmod p0 r0 (div_pos hd hu) (div_pos hd hv) ?_ ?_
    · rw [w1, div_le_one hv]; exact h.p_le
    · rw [w2, div_le_one hu]; exact h.r_le
  · simp only [slopeX1, if_true]
    have := lim_minmod (a := a) (b := b) p0 r0 (one_pos (α := K)) (one_pos (α := K))
      (by simpa using h.p_ratio.2) (by simpa using h.r_ratio.2)
    simpa only [mul_one] using this

theorem slopeX3_lim {mm flat : Bool} (h : m.Cell i) (hflat : flat = true → m.Mid i)
    (hvl : mm = false → flat = false →
      2 * (m.xf (i + 1) - m.xv i) ≤ m.dxv i ∧ 2 * (m.xv i - m.xf i) ≤ m.dxv (i - 1)) (a b : K) :
    Lim ((m.xf (i + 1) - m.xv i) / m.dxf i) ((m.xv i - m.xf i) / m.dxf i) a b
      (slopeX3 mm flat m i a b) := by
  cases mm <;> cases flat
  · simp only [slopeX3, Bool.false_eq_true, if_false]
    have hd := h.dxf_pos
    have hv := h.dxv_pos
    have hu := h.dxv'_pos
    obtain ⟨g1, g2⟩ := hvl rfl rfl
    refine lim_vanLeer h.p_ratio.1.le h.r_ratio.1.le (div_pos hd hu) (div_pos hd hv) ?_ ?_ a b
    · have : 2 * ((m.xf (i + 1) - m.xv i) / m.dxf i * (m.dxf i / m.dxv i)) =
        2 * (m.xf (i + 1) - m.xv i) / m.dxv i := by field_simp
      rw [this, div_le_one hv]; exact g1
    · have : 2 * ((m.xv i - m.xf i) / m.dxf i * (m.dxf i / m.dxv (i - 1))) =
        2 * (m.xv i - m.xf i) / m.dxv (i - 1) := by field_simp
      rw [this, div_le_one hu]; exact g2
  · exact slopeX1_lim (mm := false) (flat := true) h hflat (by simp) a b
  · have := slopeX1_lim (mm := true) (flat := false) h (by simp) (by simp) a b
    rw [← slopeX2_eq] at this
    exact this
  · exact slopeX1_lim (mm := true) (flat := true) h hflat (by simp) a b

theorem extremum_prod {a b c : K} (h : (a ≤ b ∧ c ≤ b) ∨ (b ≤ a ∧ b ≤ c)) :
    (b - a) * (c - b) ≤ 0 := by
  rcases h with ⟨h1, h2⟩ | ⟨h1, h2⟩
  · exact mul_nonpos_of_nonneg_of_nonpos (by linarith) (by linarith)
  · exact mul_nonpos_of_nonpos_of_nonneg (by linarith) (by linarith)

theorem weighted_nonpos {a b u v : K} (h : a * b ≤ 0) (hu : 0 < u) (hv : 0 < v) :
    (b * v) * (a * u) ≤ 0 := by
  have := mul_nonpos_of_nonpos_of_nonneg h (mul_pos hu hv).le
  linarith [this, (by ring : a * b * (u * v) = b * v * (a * u))]

theorem slopeX1_extremum {mm flat : Bool} (h : m.Cell i) {a b : K} (hx : a * b ≤ 0) :
    slopeX1 mm flat m i a b = 0 := by
  have hd := h.dxf_pos
  have hw := weighted_nonpos hx (div_pos hd h.dxv'_pos) (div_pos hd h.dxv_pos)
  cases mm <;> cases flat <;> simp only [slopeX1, Bool.false_eq_true, if_false, if_true]
  · rw [mul_div_assoc, mul_div_assoc]; exact vanLeerM_zero hw
  · exact vanLeer_zero hx
  · exact minmod_zero hx
  · exact minmod_zero hx

theorem slopeX3_extremum {mm flat : Bool} (h : m.Cell i) {a b : K} (hx : a * b ≤ 0) :
    slopeX3 mm flat m i a b = 0 := by
  have hd := h.dxf_pos
  have hw := weighted_nonpos hx (div_pos hd h.dxv'_pos) (div_pos hd h.dxv_pos)
  cases mm <;> cases flat <;> simp only [slopeX3, Bool.false_eq_true, if_false, if_true]
  · exact vanLeer_zero hw
  · exact vanLeer_zero hx
  · exact minmod_zero hx
  · exact minmod_zero hx

theorem minmod_self {d a : K} (h : d = 0 → a = 0) (h' : 0 ≤ d) : minmod d a a = a := by
  unfold minmod
  split
  · rename_i h1; rw [h (le_antisymm h1 h')]
  · simp

theorem vanLeer_self (a : K) : vanLeer a a = a := by
  rcases eq_or_ne a 0 with rfl | h
  · simp [vanLeer]
  · rw [vanLeer_pos (mul_self_pos.2 h)]
    field_simp
    ring

theorem vanLeerM_self {f c : K} (hf : 0 < f) (hc : 0 < c) (a : K) : vanLeerM f c a a = a := by
  rcases eq_or_ne a 0 with rfl | h
  · simp [vanLeerM]
  · rw [vanLeerM_pos (mul_self_pos.2 h)]
    have e : a * a + a * a + a * a * (f + c - 2) = a * a * (f + c) := by ring
    have : f + c ≠ 0 := by positivity
    rw [e]
    field_simp

theorem slopeX1_linear {mm flat : Bool} (h : m.Cell i)
    (hflat : flat = true → m.dxv i = m.dxf i ∧ m.dxv (i - 1) = m.dxf i) {b : K} :
    slopeX1 mm flat m i (b * m.dxv (i - 1)) (b * m.dxv i) = b * m.dxf i := by
  have hv := h.dxv_pos
  have hu := h.dxv'_pos
  have e1 : b * m.dxv i * m.dxf i / m.dxv i = b * m.dxf i := by field_simp
  have e2 : b * m.dxv (i - 1) * m.dxf i / m.dxv (i - 1) = b * m.dxf i := by field_simp
  have hs : b * m.dxv (i - 1) * (b * m.dxv i) = b * b * (m.dxv (i - 1) * m.dxv i) := by ring
  have p1 : b * m.dxv (i - 1) * (b * m.dxv i) = 0 → b * m.dxf i = 0 := by
    rw [hs]
    intro h0
    rcases mul_eq_zero.1 h0 with h1 | h1
    · rw [mul_self_eq_zero.1 h1, zero_mul]
    · exact absurd h1 (mul_pos hu hv).ne'
  have p2 : 0 ≤ b * m.dxv (i - 1) * (b * m.dxv i) := by
    rw [hs]; exact mul_nonneg (mul_self_nonneg _) (mul_pos hu hv).le
  cases mm <;> cases flat <;> simp only [slopeX1, Bool.false_eq_true, if_false, if_true]
  · rw [e1, e2, vanLeerM_self (div_pos hv h.p_pos) (div_pos hu h.r_pos)]
  · obtain ⟨g1, g2⟩ := hflat rfl
    rw [g1, g2, vanLeer_self]
  · rw [e1, e2, minmod_self p1 p2]
  · obtain ⟨g1, g2⟩ := hflat rfl
    rw [g1, g2] at p1 p2 ⊢
    rw [minmod_self p1 p2]

theorem slopeX3_linear {mm flat : Bool} (h : m.Cell i)
    (hflat : flat = true → m.dxv i = m.dxf i ∧ m.dxv (i - 1) = m.dxf i) {b : K} :
    slopeX3 mm flat m i (b * m.dxv (i - 1)) (b * m.dxv i) = b * m.dxf i := by
  have hv := h.dxv_pos
  have hu := h.dxv'_pos
  have := slopeX1_linear (mm := mm) h hflat (b := b)
  cases mm <;> cases flat
  · simp only [slopeX3, Bool.false_eq_true, if_false]
    have e1 : b * m.dxv i * (m.dxf i / m.dxv i) = b * m.dxf i := by field_simp
    have e2 : b * m.dxv (i - 1) * (m.dxf i / m.dxv (i - 1)) = b * m.dxf i := by field_simp
    rw [e1, e2, vanLeer_self]
  · exact this
  · rw [← slopeX2_eq] at this; exact this
  · exact this

/-! ## Piecewise parabolic limiters -/

theorem Between.trans {a b x y : K} (h : Between a b x) (h' : Between a x y) : Between a b y := by
  obtain ⟨h1, h2⟩ := h
  obtain ⟨h3, h4⟩ := h'
  refine ⟨le_trans (le_min (min_le_left _ _) h1) h3, h4.trans (max_le (le_max_left _ _) h2)⟩

theorem between_iff {a b x : K} : Between a b x ↔ (x - a) * (b - x) ≥ 0 := by
  unfold Between
  rcases le_total a b with h | h
  · rw [min_eq_left h, max_eq_right h]
    constructor
    · rintro ⟨h1, h2⟩
      exact mul_nonneg (by linarith) (by linarith)
    · intro hm
      by_contra hc
      rw [not_and_or, not_le, not_le] at hc
      rcases hc with hc | hc
      · nlinarith
      · nlinarith
  · rw [min_eq_right h, max_eq_left h]
    constructor
    · rintro ⟨h1, h2⟩
      nlinarith
    · intro hm
      by_contra hc
      rw [not_and_or, not_le, not_le] at hc
      rcases hc with hc | hc
      · nlinarith
      · nlinarith

/-- A point `c + t * (x - c)` with `0 ≤ t ≤ 1`. -/
theorem between_frac {c x t : K} (h0 : 0 ≤ t) (h1 : t ≤ 1) : Between c x (c + t * (x - c)) := by
  rw [between_iff]
  have : (c + t * (x - c) - c) * (x - (c + t * (x - c))) = t * (1 - t) * ((x - c) * (x - c)) := by
    ring
  rw [this]
  exact mul_nonneg (mul_nonneg h0 (by linarith)) (mul_self_nonneg _)

theorem limitFaceN_between (c o d : K) : Between c o (limitFaceN c o d) := by
  unfold limitFaceN Between
  exact ⟨le_max_right _ _, max_le (min_le_right _ _) (min_le_max)⟩

/-- The overshoot branch: `|x| ≥ t |y|` with `x`, `y` of one sign. -/
theorem over_between {t x y c : K} (ht : 0 ≤ t) (hs : 0 < x * y) (h : |x| ≥ t * |y|) :
    Between c (c + x) (c + t * y) := by
  rw [between_iff]
  have e : (c + t * y - c) * (c + x - (c + t * y)) = t * (x * y - t * (y * y)) := by ring
  rw [e]
  refine mul_nonneg ht ?_
  have h1 : t * (y * y) = t * |y| * |y| := by rw [mul_assoc, abs_mul_abs_self]
  have h2 : x * y = |x| * |y| := by rw [← abs_mul, abs_of_pos hs]
  rw [h1, h2, ← sub_mul]
  exact mul_nonneg (by linarith) (abs_nonneg _)

theorem limitCellM_between {hp hm : K} (p0 : 0 ≤ hp) (m0 : 0 ≤ hm) (c a b : K) :
    Between c a (limitCellM hp hm c a b).1 ∧ Between c b (limitCellM hp hm c a b).2 := by
  unfold limitCellM
  simp only
  split
  · exact ⟨between_left _ _, between_left _ _⟩
  · rename_i hq
    rw [not_le] at hq
    constructor
    · simp only
      split
      · rename_i hg
        have := over_between (t := hp) (x := a - c) (y := -(b - c)) (c := c) p0 (by linarith)
          (by rw [abs_neg, ← abs_neg (a - c), neg_sub]; exact hg)
        rw [show c + (a - c) = a by ring, show c + hp * -(b - c) = c - hp * (b - c) by ring] at this
        exact this
      · exact between_right _ _
    · simp only
      split
      · rename_i hg
        have := over_between (t := hm) (x := b - c) (y := c - a) (c := c) m0 (by linarith) hg
        rw [show c + (b - c) = b by ring] at this
        exact this
      · exact between_right _ _

theorem sign_mul_abs (x : K) : sign x * |x| = x := by
  unfold sign
  split
  · rename_i h; rw [abs_of_neg h]; ring
  · rename_i h; rw [abs_of_nonneg (not_lt.1 h)]; ring

theorem sign_sq (x : K) : sign x * sign x = 1 := by
  unfold sign; split <;> ring

/-- A ratio of the form computed by the limiters lies in `[0,1]`. -/
theorem ratio_unit {d y : K} (h0 : 0 ≤ y) (h1 : y ≤ |d|) :
    0 ≤ sign d * y / d ∧ sign d * y / d ≤ 1 := by
  rcases eq_or_ne d 0 with rfl | hd
  · simp
  · have e : sign d * y / d = y / |d| := by
      rw [div_eq_div_iff hd (abs_pos.2 hd).ne']
      have := sign_mul_abs d
      calc sign d * y * |d| = y * (sign d * |d|) := by ring
        _ = y * d := by rw [this]
    rw [e]
    exact ⟨div_nonneg h0 (abs_nonneg _), (div_le_one (abs_pos.2 hd)).2 h1⟩

theorem limitCellE_between (s : Sten K) (a b : K) :
    Between s.c a (limitCellE s a b).1 ∧ Between s.c b (limitCellE s a b).2 := by
  unfold limitCellE
  extract_lets dm dp qat qbt qa qb qc qd qe ra rb rho tm tp t2m t2p
  have hrho : 0 ≤ rho ∧ rho ≤ 1 := by
    show 0 ≤ (if _ then qe / qd else 0) ∧ (if _ then qe / qd else 0) ≤ 1
    split
    · show 0 ≤ (if _ then _ else (0 : K)) / qd ∧ (if _ then _ else (0 : K)) / qd ≤ 1
      split
      · refine ratio_unit ?_ ?_
        · refine le_min (le_min ?_ ?_) (le_min ?_ (abs_nonneg _)) <;>
            exact mul_nonneg (by norm_num) (abs_nonneg _)
        · exact (min_le_right _ _).trans (min_le_right _ _)
      · simp
    · simp
  split
  · split
    · constructor
      · have := between_frac (c := s.c) (x := a) hrho.1 hrho.2
        rwa [show s.c + rho * (a - s.c) = tm by simp only [tm, dm]; ring] at this
      · have := between_frac (c := s.c) (x := b) hrho.1 hrho.2
        rwa [show s.c + rho * (b - s.c) = tp by simp only [tp, dp]] at this
    · exact ⟨between_right _ _, between_right _ _⟩
  · rename_i hq
    rw [not_or, not_le, not_le] at hq
    have hs : 0 < dm * dp := hq.1
    constructor
    · simp only
      split
      · rename_i hg
        have := over_between (t := 2) (x := -dm) (y := -dp) (c := s.c) (by norm_num)
          (by linarith) (by rw [abs_neg, abs_neg]; exact hg)
        rwa [show s.c + -dm = a by simp only [dm]; ring,
          show s.c + 2 * -dp = t2m by simp only [t2m]; ring] at this
      · exact between_right _ _
    · simp only
      split
      · rename_i hg
        have := over_between (t := 2) (x := dp) (y := dm) (c := s.c) (by norm_num)
          (by linarith) hg
        rwa [show s.c + dp = b by simp only [dp]; ring] at this
      · exact between_right _ _

/-- Step 2a: the interface value is left alone when it lies between the two averages, and is
otherwise moved towards their mean. -/
theorem limitFaceU_cases (a b da db d : K) :
    (Between a b (limitFaceU a b da db d) ∧ limitFaceU a b da db d = d) ∨
      Between ((a + b) / 2) d (limitFaceU a b da db d) := by
  unfold limitFaceU
  extract_lets qat qbt qa qd dt
  split
  · right
    have hq : ∃ t, 0 ≤ t ∧ t ≤ 1 ∧ qd = t * qa := by
      simp only [qd]
      split
      · rcases eq_or_ne qa 0 with h0 | h0
        · refine ⟨0, le_rfl, zero_le_one, ?_⟩
          rw [h0]
          simp only [abs_zero, mul_zero]
          have : min (5 / 4 * |da|) (min (5 / 4 * |db|) 0) = 0 := by
            rw [min_eq_right (mul_nonneg (by norm_num) (abs_nonneg db)),
              min_eq_right (mul_nonneg (by norm_num) (abs_nonneg da))]
          rw [this, mul_zero]
        · obtain ⟨r0, r1⟩ := ratio_unit (d := qa)
            (y := min (5 / 4 * |da|) (min (5 / 4 * |db|) |qa|))
            (le_min (mul_nonneg (by norm_num) (abs_nonneg _))
              (le_min (mul_nonneg (by norm_num) (abs_nonneg _)) (abs_nonneg _)))
            ((min_le_right _ _).trans (min_le_right _ _))
          exact ⟨_, r0, r1, by field_simp⟩
      · exact ⟨0, le_rfl, zero_le_one, by ring⟩
    obtain ⟨t, t0, t1, e⟩ := hq
    have := between_frac (c := (a + b) / 2) (x := d) t0 t1
    rwa [show (a + b) / 2 + t * (d - (a + b) / 2) = dt by
      simp only [dt, e, qa]; ring] at this
  · rename_i h
    left
    rw [not_lt] at h
    exact ⟨between_iff.2 h, rfl⟩

/-- Step 2a where the second differences have different signs. -/
theorem limitFaceU_between {a b da db : K} (h : da * db ≤ 0) (d : K) :
    Between a b (limitFaceU a b da db d) := by
  unfold limitFaceU
  extract_lets qat qbt qa qd dt
  have hq : qd = 0 := by
    show (if _ then _ else (0 : K)) = 0
    split
    · rename_i hs
      have e : sign da = sign db := hs.1.symm.trans hs.2
      have hz : da = 0 ∨ db = 0 := by
        by_contra hc
        rw [not_or] at hc
        have h1 := sign_mul_abs da
        have h2 := sign_mul_abs db
        have : da * db = |da| * |db| := by
          rw [← h1, ← h2, ← e, abs_mul, abs_mul, abs_abs, abs_abs]
          have hsq := sign_sq da
          have : |sign da| = 1 := by unfold sign; split <;> simp
          rw [this]
          calc sign da * |da| * (sign da * |db|) = sign da * sign da * (|da| * |db|) := by ring
            _ = _ := by rw [hsq]; ring
        have hp : 0 < |da| * |db| := mul_pos (abs_pos.2 hc.1) (abs_pos.2 hc.2)
        linarith
      have : min (5 / 4 * |da|) (min (5 / 4 * |db|) |qa|) = 0 := by
        have n1 : 0 ≤ 5 / 4 * |da| := mul_nonneg (by norm_num) (abs_nonneg _)
        have n2 : 0 ≤ 5 / 4 * |db| := mul_nonneg (by norm_num) (abs_nonneg _)
        have n3 : 0 ≤ |qa| := abs_nonneg _
        refine le_antisymm ?_ (le_min n1 (le_min n2 n3))
        rcases hz with hz | hz
        · refine (min_le_left _ _).trans ?_
          rw [hz]; simp
        · refine (min_le_right _ _).trans ((min_le_left _ _).trans ?_)
          rw [hz]; simp
      rw [this, mul_zero]
    · rfl
  split
  · have := between_frac (c := a) (x := b) (t := 1 / 2) (by norm_num) (by norm_num)
    rwa [show a + 1 / 2 * (b - a) = dt by simp only [dt, hq]; ring] at this
  · rename_i h
    rw [not_lt] at h
    exact between_iff.2 h

theorem Between.symm {a b x : K} (h : Between a b x) : Between b a x := by
  unfold Between at *
  rwa [min_comm, max_comm]

/-- Steps 3 and 4: the limited states lie between the average of the cell and the face values. -/
theorem ppmCell_inner {ext uniform curv : Bool} {w : Weights K} {i : Int} (hp : 0 ≤ w.hp i)
    (hm : 0 ≤ w.hm i) (s : Sten K) :
    Between s.c (if uniform && !curv then
        limitFaceU s.m1 s.c (s.m2 + s.c - 2 * s.m1) (s.m1 + s.p1 - 2 * s.c) (ppmFace curv w i s).1
      else limitFaceN s.c s.m1 (ppmFace curv w i s).1) (ppmCell ext uniform curv w i s).1 ∧
    Between s.c (if uniform && !curv then
        limitFaceU s.c s.p1 (s.m1 + s.p1 - 2 * s.c) (s.c + s.p2 - 2 * s.p1) (ppmFace curv w i s).2
      else limitFaceN s.c s.p1 (ppmFace curv w i s).2) (ppmCell ext uniform curv w i s).2 := by
  unfold ppmCell
  extract_lets f flat qm qp
  by_cases h : (ext && flat) = true
  · rw [if_pos h]; exact limitCellE_between s qm qp
  · rw [if_neg h]; exact limitCellM_between hp hm s.c qm qp

theorem ppmCell_limited {ext uniform curv : Bool} {w : Weights K} {i : Int}
    (hf : uniform = false ∨ curv = true) (hp : 0 ≤ w.hp i) (hm : 0 ≤ w.hm i) (s : Sten K) :
    Between s.c s.m1 (ppmCell ext uniform curv w i s).1 ∧
      Between s.c s.p1 (ppmCell ext uniform curv w i s).2 := by
  obtain ⟨b1, b2⟩ := ppmCell_inner (ext := ext) (uniform := uniform) (curv := curv) hp hm s
  have hfl : (uniform && !curv) = false := by rcases hf with h | h <;> simp [h]
  rw [hfl] at b1 b2
  simp only [Bool.false_eq_true, if_false] at b1 b2
  exact ⟨(limitFaceN_between _ _ _).trans b1, (limitFaceN_between _ _ _).trans b2⟩

theorem hull_of_cases' {a b d x y : K}
    (h : (Between a b x ∧ x = d) ∨ Between ((a + b) / 2) d x) (hy : Between a x y) :
    min (min a b) d ≤ y ∧ y ≤ max (max a b) d := by
  have l1 := min_le_left a b
  have l2 := min_le_right a b
  have u1 := le_max_left a b
  have u2 := le_max_right a b
  have L1 := min_le_left (min a b) d
  have L2 := min_le_right (min a b) d
  have U1 := le_max_left (max a b) d
  have U2 := le_max_right (max a b) d
  have hx : min (min a b) d ≤ x ∧ x ≤ max (max a b) d := by
    rcases h with ⟨⟨h1, h2⟩, -⟩ | ⟨h1, h2⟩
    · exact ⟨L1.trans h1, h2.trans U1⟩
    · refine ⟨le_trans (le_min ?_ L2) h1, h2.trans (max_le ?_ U2)⟩ <;> linarith
  exact ⟨le_trans (le_min (L1.trans l1) hx.1) hy.1, hy.2.trans (max_le (u1.trans U1) hx.2)⟩

theorem hull_of_cases {a b d x y : K}
    (h : (Between a b x ∧ x = d) ∨ Between ((a + b) / 2) d x) (hy : Between b x y) :
    min (min a b) d ≤ y ∧ y ≤ max (max a b) d := by
  rw [min_comm a b, max_comm a b]
  refine hull_of_cases' (x := x) ?_ hy
  rw [add_comm b a]
  rcases h with ⟨h1, h2⟩ | h
  · exact Or.inl ⟨h1.symm, h2⟩
  · exact Or.inr h

/-! ## Accuracy of the weights -/

theorem face_exact {p q r s : K} (hp : 0 < p) (hq : 0 < q) (hr : 0 < r) (hs : 0 < s)
    (b0 b1 b2 b3 : K) :
    let V := fun y w : K => b0 + b1 * (y + w / 2) + b2 * (y ^ 2 + y * w + w ^ 2 / 3)
        + b3 * (y ^ 3 + 3 / 2 * y ^ 2 * w + y * w ^ 2 + w ^ 3 / 4)
    let qa := p + q + r + s
    let qc := (p + q) / (2 * q + r)
    let qd := (s + r) / (2 * r + q)
    let qb0 := q / (q + r)
    let qb := qb0 + 2 * r * qb0 / qa * (qc - qd)
    let dm := q / (p + q + r) * (2 * p + q) / (r + q) * (V 0 r - V (-q) q)
      + q / (p + q + r) * (2 * r + q) / (p + q) * (V (-q) q - V (-q - p) p)
    let d0 := r / (q + r + s) * (2 * q + r) / (s + r) * (V r s - V 0 r)
      + r / (q + r + s) * (2 * s + r) / (q + r) * (V 0 r - V (-q) q)
    ((1 - qb) * V (-q) q + qb * V 0 r) + (r / qa * qd * dm + -q / qa * qc * d0) = b0 := by
  intro V qa qc qd qb0 qb dm d0
  simp only [V, qa, qc, qd, qb0, qb, dm, d0]
  have h1 : p + q + r + s ≠ 0 := by positivity
  have h2 : 2 * q + r ≠ 0 := by positivity
  have h3 : 2 * r + q ≠ 0 := by positivity
  have h4 : q + r ≠ 0 := by positivity
  have h5 : r + q ≠ 0 := by positivity
  have h6 : p + q + r ≠ 0 := by positivity
  have h7 : p + q ≠ 0 := by positivity
  have h8 : q + r + s ≠ 0 := by positivity
  have h9 : s + r ≠ 0 := by positivity
  field_simp
  ring

theorem avg0 {y z : K} (h : y < z) (a0 a1 a2 a3 x : K) :
    a0 * avg 0 0 y z + a1 * avg 0 1 y z + a2 * avg 0 2 y z + a3 * avg 0 3 y z =
      (a0 + a1 * x + a2 * x ^ 2 + a3 * x ^ 3)
        + (a1 + 2 * a2 * x + 3 * a3 * x ^ 2) * (y - x + (z - y) / 2)
        + (a2 + 3 * a3 * x) * ((y - x) ^ 2 + (y - x) * (z - y) + (z - y) ^ 2 / 3)
        + a3 * ((y - x) ^ 3 + 3 / 2 * (y - x) ^ 2 * (z - y) + (y - x) * (z - y) ^ 2
          + (z - y) ^ 3 / 4) := by
  simp only [avg]
  have e : z ^ (0 + 1) - y ^ (0 + 1) = z - y := by ring
  have : z - y ≠ 0 := by linarith
  rw [e]
  push_cast
  field_simp
  ring

/-- One interface average of step 1 in a Cartesian-like direction. -/
theorem ppmFace_flat (w : Weights K) (i : Int) (s : Sten K) :
    let g := fun (i : Int) (a b c d : K) => (w.c3 i * b + w.c4 i * c) +
      (w.c5 i * (w.c1 (i - 1) * (c - b) + w.c2 (i - 1) * (b - a)) +
        w.c6 i * (w.c1 i * (d - c) + w.c2 i * (c - b)))
    ppmFace false w i s = (g i s.m2 s.m1 s.c s.p1, g (i + 1) s.m1 s.c s.p1 s.p2) := by
  simp only [ppmFace, Bool.not_false, if_true, add_sub_cancel_right]

theorem odd_ne (k : Int) : (2 * (k : K) + 1) ≠ 0 := by
  have : 2 * k + 1 ≠ 0 := by omega
  exact_mod_cast this

theorem avg1 {h : K} (hh : h ≠ 0) (k : Int) (a0 a1 a2 a3 : K) :
    a0 * avg 1 0 (k * h) ((k + 1) * h) + a1 * avg 1 1 (k * h) ((k + 1) * h)
      + a2 * avg 1 2 (k * h) ((k + 1) * h) + a3 * avg 1 3 (k * h) ((k + 1) * h) =
    (a0 * (2 * k + 1) + a1 * h * (2 / 3) * (3 * k ^ 2 + 3 * k + 1)
      + a2 * h ^ 2 * (1 / 2) * ((k + 1) ^ 4 - k ^ 4)
      + a3 * h ^ 3 * (2 / 5) * ((k + 1) ^ 5 - k ^ 5)) / (2 * k + 1) := by
  have h1 := odd_ne (K := K) k
  simp only [avg]
  have e : (((k : K) + 1) * h) ^ (1 + 1) - (k * h) ^ (1 + 1) = (2 * k + 1) * h ^ 2 := by ring
  rw [e]
  push_cast
  field_simp
  ring

theorem cyl_den (N : Int) : (120 * ((N : K) * N * (N * N)) - 360 * (N * N) + 96) ≠ 0 := by
  have : 120 * (N * N * (N * N)) - 360 * (N * N) + 96 ≠ 0 := by
    generalize N * N = x
    intro h
    have : 24 * (5 * (x * x - 3 * x) + 4) = 0 := by linarith
    omega
  exact_mod_cast this

theorem cyl_exact {h : K} (hh : h ≠ 0) (N : Int) (a0 a1 a2 a3 : K) :
    let v := fun k : Int => a0 * avg 1 0 (k * h) ((k + 1) * h) + a1 * avg 1 1 (k * h) ((k + 1) * h)
      + a2 * avg 1 2 (k * h) ((k + 1) * h) + a3 * avg 1 3 (k * h) ((k + 1) * h)
    let w := cylWeights (N : K)
    w.1 * v (N - 2) + w.2.1 * v (N - 1) + w.2.2.1 * v N + w.2.2.2 * v (N + 1) =
      a0 + a1 * (N * h) + a2 * (N * h) ^ 2 + a3 * (N * h) ^ 3 := by
  intro v w
  simp only [v, avg1 hh]
  have d := cyl_den (K := K) N
  have h1 := odd_ne (K := K) (N - 2)
  have h2 := odd_ne (K := K) (N - 1)
  have h3 := odd_ne (K := K) N
  have h4 := odd_ne (K := K) (N + 1)
  simp only [w, cylWeights]
  push_cast at *
  generalize (N : K) = x at *
  rw [show (2 * (x - 2) + 1) = 2 * x - 3 by ring] at h1 ⊢
  rw [show (2 * (x - 1) + 1) = 2 * x - 1 by ring] at h2 ⊢
  rw [show (2 * (x + 1) + 1) = 2 * x + 3 by ring] at h4 ⊢
  have e1 : ∀ y c d : K, -(2 * x - 3) * y / d * (c / (2 * x - 3)) = -y * c / d := by
    intro y c d; field_simp
  have e2 : ∀ y c d : K, (2 * x - 1) * y / d * (c / (2 * x - 1)) = y * c / d := by
    intro y c d; field_simp
  have e3 : ∀ y c d : K, (2 * x + 1) * y / d * (c / (2 * x + 1)) = y * c / d := by
    intro y c d; field_simp
  have e4 : ∀ y c d : K, -(2 * x + 3) * y / d * (c / (2 * x + 3)) = -y * c / d := by
    intro y c d; field_simp
  rw [e1, e2, e3, e4, ← add_div, ← add_div, ← add_div, div_eq_iff d]
  ring

theorem avg2 {h : K} (hh : h ≠ 0) (k : Int) (a0 a1 a2 a3 : K) :
    a0 * avg 2 0 (k * h) ((k + 1) * h) + a1 * avg 2 1 (k * h) ((k + 1) * h)
      + a2 * avg 2 2 (k * h) ((k + 1) * h) + a3 * avg 2 3 (k * h) ((k + 1) * h) =
    (a0 * (3 * k ^ 2 + 3 * k + 1) + a1 * h * (3 / 4) * ((k + 1) ^ 4 - k ^ 4)
      + a2 * h ^ 2 * (3 / 5) * ((k + 1) ^ 5 - k ^ 5)
      + a3 * h ^ 3 * (3 / 6) * ((k + 1) ^ 6 - k ^ 6)) / (3 * k ^ 2 + 3 * k + 1) := by
  have h1 : (3 * (k : K) ^ 2 + 3 * k + 1) ≠ 0 := by nlinarith [sq_nonneg ((k : K) + 1 / 2)]
  simp only [avg]
  have e : (((k : K) + 1) * h) ^ (2 + 1) - (k * h) ^ (2 + 1) = (3 * k ^ 2 + 3 * k + 1) * h ^ 3 := by ring
  rw [e]
  push_cast
  field_simp
  ring

theorem sph_den (N : Int) : (36 * (15 * ((N : K) * N * (N * N) * (N * N * (N * N))) - 85 * (N * N * (N * N)) * (N * N)
    + 150 * (N * N * (N * N)) - 60 * (N * N) + 16)) ≠ 0 := by
  have : 36 * (15 * (N * N * (N * N) * (N * N * (N * N))) - 85 * (N * N * (N * N)) * (N * N)
    + 150 * (N * N * (N * N)) - 60 * (N * N) + 16) ≠ 0 := by
    generalize N * N = x
    intro h
    have : 36 * (5 * (3 * (x * x * (x * x)) - 17 * (x * x) * x + 30 * (x * x) - 12 * x + 3) + 1) = 0 := by linarith
    omega
  exact_mod_cast this

theorem sph_exact {h : K} (hh : h ≠ 0) (N : Int) (a0 a1 a2 a3 : K) :
    let v := fun k : Int => a0 * avg 2 0 (k * h) ((k + 1) * h) + a1 * avg 2 1 (k * h) ((k + 1) * h)
      + a2 * avg 2 2 (k * h) ((k + 1) * h) + a3 * avg 2 3 (k * h) ((k + 1) * h)
    let w := sphWeights (N : K)
    w.1 * v (N - 2) + w.2.1 * v (N - 1) + w.2.2.1 * v N + w.2.2.2 * v (N + 1) =
      a0 + a1 * (N * h) + a2 * (N * h) ^ 2 + a3 * (N * h) ^ 3 := by
  intro v w
  simp only [v, avg2 hh]
  have d := sph_den (K := K) N
  have nz : ∀ k : Int, (3 * (k : K) ^ 2 + 3 * k + 1) ≠ 0 := fun k => by
    nlinarith [sq_nonneg ((k : K) + 1 / 2)]
  have h1 := nz (N - 2)
  have h2 := nz (N - 1)
  have h3 := nz N
  have h4 := nz (N + 1)
  simp only [w, sphWeights]
  push_cast at *
  generalize (N : K) = x at *
  have g1 : 3 * (x - 2) ^ 2 + 3 * (x - 2) + 1 = 3 * (x * x) - 9 * x + 7 := by ring
  have g2 : 3 * (x - 1) ^ 2 + 3 * (x - 1) + 1 = 3 * (x * x) - 3 * x + 1 := by ring
  have g3 : 3 * x ^ 2 + 3 * x + 1 = 3 * (x * x) + 3 * x + 1 := by ring
  have g4 : 3 * (x + 1) ^ 2 + 3 * (x + 1) + 1 = 3 * (x * x) + 9 * x + 7 := by ring
  rw [g1] at h1 ⊢
  rw [g2] at h2 ⊢
  rw [g3] at h3 ⊢
  rw [g4] at h4 ⊢
  have e1 : ∀ z y c d : K, z ≠ 0 → -z * y / d * (c / z) = -y * c / d := by
    intro z y c d hz; field_simp
  have e2 : ∀ z y c d : K, z ≠ 0 → z * y / d * (c / z) = y * c / d := by
    intro z y c d hz; field_simp
  rw [e1 _ _ _ _ h1, e2 _ _ _ _ h2, e2 _ _ _ _ h3, e1 _ _ _ _ h4, ← add_div, ← add_div, ← add_div, div_eq_iff d]
  ring

/-! ## Radial meshes -/

theorem smooth_of_ge {f b : K} (hf : 3 / 2 ≤ f) (hb : 3 / 2 ≤ b) :
    2 * f + b ≤ f * (f + b) ∧ 2 * b + f ≤ b * (f + b) := by
  obtain ⟨s, rfl⟩ : ∃ s, f = 3 / 2 + s := ⟨f - 3 / 2, by ring⟩
  obtain ⟨t, rfl⟩ : ∃ t, b = 3 / 2 + t := ⟨b - 3 / 2, by ring⟩
  have hs : 0 ≤ s := by linarith
  have ht : 0 ≤ t := by linarith
  have := mul_nonneg hs ht
  have := mul_nonneg hs hs
  have := mul_nonneg ht ht
  constructor <;> nlinarith

theorem cyl_centre {a b : K} (ha : 0 ≤ a) (h : a < b) :
    a < 2 / 3 * (b ^ 3 - a ^ 3) / (b ^ 2 - a ^ 2) ∧ 2 / 3 * (b ^ 3 - a ^ 3) / (b ^ 2 - a ^ 2) < b := by
  have hd : 0 < b ^ 2 - a ^ 2 := by nlinarith
  have hb : 0 < b := by linarith
  rw [lt_div_iff₀ hd, div_lt_iff₀ hd]
  have h1 : 0 < (2 * b + a) * (b - a) * (b - a) := by
    have : 0 < b - a := by linarith
    positivity
  have h2 : 0 < (2 * a + b) * (b - a) * (b - a) := by
    have : 0 < b - a := by linarith
    positivity
  constructor <;> nlinarith

theorem sph_centre {a b : K} (ha : 0 ≤ a) (h : a < b) :
    a < 3 / 4 * (b ^ 4 - a ^ 4) / (b ^ 3 - a ^ 3) ∧ 3 / 4 * (b ^ 4 - a ^ 4) / (b ^ 3 - a ^ 3) < b := by
  have hb : 0 < b := by linarith
  have hba : 0 < b - a := by linarith
  have hd : 0 < b ^ 3 - a ^ 3 := by
    have : b ^ 3 - a ^ 3 = (b - a) * (b ^ 2 + b * a + a ^ 2) := by ring
    rw [this]; positivity
  rw [lt_div_iff₀ hd, div_lt_iff₀ hd]
  have h1 : 0 < (b - a) ^ 2 * (3 * b ^ 2 + 2 * a * b + a ^ 2) := by positivity
  have h2 : 0 < (b - a) ^ 2 * (3 * a ^ 2 + 2 * a * b + b ^ 2) := by positivity
  constructor <;> nlinarith

/-- Cylindrical and spherical radial meshes are meshes in the sense of `Line.Cell`. -/
theorem cyl_cell (xf : Int → K) (i : Int) (h0 : 0 ≤ xf (i - 1)) (h1 : xf (i - 1) < xf i)
    (h2 : xf i < xf (i + 1)) (h3 : xf (i + 1) < xf (i + 1 + 1)) :
    (cylLine xf).Cell i := by
  have e1 : i - 1 + 1 = i := by ring
  refine ⟨?_, ?_, ?_, ?_, ?_, ?_, ?_⟩ <;> simp only [cylLine, e1]
  · exact (cyl_centre (by linarith) h2).1
  · exact (cyl_centre (by linarith) h2).2
  · exact (cyl_centre h0 h1).2.le
  · exact (cyl_centre (by linarith) h3).1.le

theorem sph_cell (xf : Int → K) (i : Int) (h0 : 0 ≤ xf (i - 1)) (h1 : xf (i - 1) < xf i)
    (h2 : xf i < xf (i + 1)) (h3 : xf (i + 1) < xf (i + 1 + 1)) :
    (sphLine xf).Cell i := by
  have e1 : i - 1 + 1 = i := by ring
  refine ⟨?_, ?_, ?_, ?_, ?_, ?_, ?_⟩ <;> simp only [sphLine, e1]
  · exact (sph_centre (by linarith) h2).1
  · exact (sph_centre (by linarith) h2).2
  · exact (sph_centre h0 h1).2.le
  · exact (sph_centre (by linarith) h3).1.le

theorem cyl_smooth (xf : Int → K) (i : Int) {k h : K} (hk : 1 ≤ k) (hh : 0 < h)
    (hx : ∀ c : Int, xf c = (k + ((c - i : Int) : K)) * h) : (cylLine xf).Smooth i := by
  have e1 : i - 1 + 1 = i := by ring
  have x0 : xf i = k * h := by rw [hx]; simp
  have x1 : xf (i + 1) = (k + 1) * h := by rw [hx]; simp
  have x2 : xf (i + 1 + 1) = (k + 2) * h := by rw [hx, show i + 1 + 1 - i = 2 by ring]; norm_num
  have xm : xf (i - 1) = (k - 1) * h := by rw [hx, show i - 1 - i = -1 by ring]; push_cast; ring
  have hc : ∀ y : K, 0 ≤ y → 2 / 3 * (((y + 1) * h) ^ 3 - (y * h) ^ 3) / (((y + 1) * h) ^ 2 - (y * h) ^ 2)
      = (y + 1 / 2 + 1 / (6 * (2 * y + 1))) * h := by
    intro y hy
    have e : ((y + 1) * h) ^ 2 - (y * h) ^ 2 = (2 * y + 1) * h ^ 2 := by ring
    have : (2 * y + 1) ≠ 0 := by positivity
    rw [e]
    field_simp
    ring
  have c0 := hc k (by linarith)
  have c1 := hc (k + 1) (by linarith)
  have cm := hc (k - 1) (by linarith)
  rw [show k + 1 + 1 = k + 2 by ring] at c1
  rw [show k - 1 + 1 = k by ring] at cm
  obtain ⟨t, rfl⟩ : ∃ t, k = 1 + t := ⟨k - 1, by ring⟩
  have ht : 0 ≤ t := by linarith
  unfold Line.Smooth
  simp only [cylLine, e1, x0, x1, x2, xm, c0, c1, cm]
  have q1 : 0 < 6 * (2 * (1 + t) + 1) := by positivity
  have q2 : 0 < 6 * (2 * (1 + t + 1) + 1) := by positivity
  have q3 : 0 < 6 * (2 * (1 + t - 1) + 1) := by nlinarith
  refine smooth_of_ge ?_ ?_
  · have hp : 0 < (1 + t + 1) * h - (1 + t + 1 / 2 + 1 / (6 * (2 * (1 + t) + 1))) * h := by
      have : (1 + t + 1) * h - (1 + t + 1 / 2 + 1 / (6 * (2 * (1 + t) + 1))) * h
        = (6 * t + 8) / (6 * (2 * (1 + t) + 1)) * h := by field_simp; ring
      rw [this]; positivity
    rw [le_div_iff₀ hp, ← sub_nonneg]
    have : (1 + t + 1 + 1 / 2 + 1 / (6 * (2 * (1 + t + 1) + 1))) * h
          - (1 + t + 1 / 2 + 1 / (6 * (2 * (1 + t) + 1))) * h
        - 3 / 2 * ((1 + t + 1) * h - (1 + t + 1 / 2 + 1 / (6 * (2 * (1 + t) + 1))) * h)
        = (3 * (2 * t + 3) ^ 2 + 9 * (2 * t + 3) + 2) * h / (12 * (2 * t + 3) * (2 * t + 5)) := by
      have a1 : 2 * t + 3 ≠ 0 := by positivity
      have a2 : 2 * t + 5 ≠ 0 := by positivity
      rw [show 2 * (1 + t) + 1 = 2 * t + 3 by ring, show 2 * (1 + t + 1) + 1 = 2 * t + 5 by ring]
      field_simp
      ring
    rw [this]; positivity
  · have hp : 0 < (1 + t + 1 / 2 + 1 / (6 * (2 * (1 + t) + 1))) * h - (1 + t) * h := by
      have : (1 + t + 1 / 2 + 1 / (6 * (2 * (1 + t) + 1))) * h - (1 + t) * h
        = (1 / 2 + 1 / (6 * (2 * (1 + t) + 1))) * h := by ring
      rw [this]; positivity
    rw [le_div_iff₀ hp, ← sub_nonneg]
    have : (1 + t + 1 / 2 + 1 / (6 * (2 * (1 + t) + 1))) * h
          - (1 + t - 1 + 1 / 2 + 1 / (6 * (2 * (1 + t - 1) + 1))) * h
        - 3 / 2 * ((1 + t + 1 / 2 + 1 / (6 * (2 * (1 + t) + 1))) * h - (1 + t) * h)
        = (12 * t ^ 2 + 18 * t + 2) * h / (12 * (2 * t + 3) * (2 * t + 1)) := by
      have a1 : 2 * t + 3 ≠ 0 := by positivity
      have a2 : 2 * t + 1 ≠ 0 := by positivity
      rw [show 2 * (1 + t) + 1 = 2 * t + 3 by ring, show 2 * (1 + t - 1) + 1 = 2 * t + 1 by ring]
      field_simp
      ring
    rw [this]; positivity

theorem sph_smooth (xf : Int → K) (i : Int) {k h : K} (hk : 2 ≤ k) (hh : 0 < h)
    (hx : ∀ c : Int, xf c = (k + ((c - i : Int) : K)) * h) : (sphLine xf).Smooth i := by
  have e1 : i - 1 + 1 = i := by ring
  have x0 : xf i = k * h := by rw [hx]; simp
  have x1 : xf (i + 1) = (k + 1) * h := by rw [hx]; simp
  have x2 : xf (i + 1 + 1) = (k + 2) * h := by rw [hx, show i + 1 + 1 - i = 2 by ring]; norm_num
  have xm : xf (i - 1) = (k - 1) * h := by rw [hx, show i - 1 - i = -1 by ring]; push_cast; ring
  have hc : ∀ y : K, 0 ≤ y → 3 / 4 * (((y + 1) * h) ^ 4 - (y * h) ^ 4) / (((y + 1) * h) ^ 3 - (y * h) ^ 3)
      = (y + 1 / 2 + (2 * y + 1) / (4 * (3 * y ^ 2 + 3 * y + 1))) * h := by
    intro y hy
    have e : ((y + 1) * h) ^ 3 - (y * h) ^ 3 = (3 * y ^ 2 + 3 * y + 1) * h ^ 3 := by ring
    have : (3 * y ^ 2 + 3 * y + 1) ≠ 0 := by positivity
    rw [e]
    field_simp
    ring
  have g0 : ∀ y : K, 0 ≤ y → 0 ≤ (2 * y + 1) / (4 * (3 * y ^ 2 + 3 * y + 1)) := fun y hy => by
    positivity
  have g1 : ∀ y : K, 1 ≤ y → (2 * y + 1) / (4 * (3 * y ^ 2 + 3 * y + 1)) ≤ 3 / 28 := fun y hy => by
    have : 0 < 4 * (3 * y ^ 2 + 3 * y + 1) := by positivity
    rw [div_le_iff₀ this]; nlinarith
  have c0 := hc k (by linarith)
  have c1 := hc (k + 1) (by linarith)
  have cm := hc (k - 1) (by linarith)
  rw [show k + 1 + 1 = k + 2 by ring] at c1
  rw [show k - 1 + 1 = k by ring] at cm
  have a0 := g0 k (by linarith)
  have a1 := g0 (k + 1) (by linarith)
  have b0 := g1 k (by linarith)
  have bm := g1 (k - 1) (by linarith)
  unfold Line.Smooth
  simp only [sphLine, e1, x0, x1, x2, xm, c0, c1, cm]
  generalize (2 * k + 1) / (4 * (3 * k ^ 2 + 3 * k + 1)) = G at *
  generalize (2 * (k + 1) + 1) / (4 * (3 * (k + 1) ^ 2 + 3 * (k + 1) + 1)) = G1 at *
  generalize (2 * (k - 1) + 1) / (4 * (3 * (k - 1) ^ 2 + 3 * (k - 1) + 1)) = Gm at *
  refine smooth_of_ge ?_ ?_
  · have hp : 0 < (k + 1) * h - (k + 1 / 2 + G) * h := by
      have : (k + 1) * h - (k + 1 / 2 + G) * h = (1 / 2 - G) * h := by ring
      rw [this]; exact mul_pos (by linarith) hh
    rw [le_div_iff₀ hp, ← sub_nonneg]
    have : (k + 1 + 1 / 2 + G1) * h - (k + 1 / 2 + G) * h - 3 / 2 * ((k + 1) * h - (k + 1 / 2 + G) * h)
      = (1 / 4 + G1 + G / 2) * h := by ring
    rw [this]; exact mul_nonneg (by linarith) hh.le
  · have hp : 0 < (k + 1 / 2 + G) * h - k * h := by
      have : (k + 1 / 2 + G) * h - k * h = (1 / 2 + G) * h := by ring
      rw [this]; exact mul_pos (by linarith) hh
    rw [le_div_iff₀ hp, ← sub_nonneg]
    have : (k + 1 / 2 + G) * h - (k - 1 + 1 / 2 + Gm) * h - 3 / 2 * ((k + 1 / 2 + G) * h - k * h)
      = (1 / 4 - G / 2 - Gm) * h := by ring
    rw [this]; exact mul_nonneg (by linarith) hh.le

/-! ### Limiter ratios -/

theorem cylRatios_nonneg {m : Line K} {i : Int} (h : m.dxf i = m.xf (i + 1) - m.xf i)
    (h0 : m.xf i < m.xf (i + 1)) (h1 : 0 ≤ m.xf i ∨ m.xf (i + 1) ≤ 0) :
    0 ≤ (cylRatios m i).1 ∧ 0 ≤ (cylRatios m i).2 := by
  simp only [cylRatios]
  have hd : 0 < m.dxf i := by linarith
  have hx : m.dxf i / 2 ≤ |1 / 2 * (m.xf (i + 1) + m.xf i)| := by
    rcases h1 with h1 | h1
    · exact le_trans (by linarith) (le_abs_self _)
    · exact le_trans (by linarith) (neg_le_abs _)
  generalize |1 / 2 * (m.xf (i + 1) + m.xf i)| = x at *
  have hx0 : 0 < x := by linarith
  have e : m.dxf i / (2 * x) ≤ 1 := by rw [div_le_one (by positivity)]; linarith
  have e0 : 0 ≤ m.dxf i / (2 * x) := by positivity
  constructor
  · exact div_nonneg (by linarith) (by linarith)
  · exact div_nonneg (by linarith) (by linarith)

theorem sphRatios_nonneg {m : Line K} {i : Int} (h : m.dxf i = m.xf (i + 1) - m.xf i)
    (h0 : m.xf i < m.xf (i + 1)) : 0 ≤ (sphRatios m i).1 ∧ 0 ≤ (sphRatios m i).2 := by
  simp only [sphRatios]
  have hd : 0 < m.dxf i := by linarith
  have hx0 : 0 ≤ |1 / 2 * (m.xf (i + 1) + m.xf i)| := abs_nonneg _
  generalize |1 / 2 * (m.xf (i + 1) + m.xf i)| = x at *
  generalize m.dxf i = d at *
  have hD : 0 < 20 * (x * x) + d * d := by positivity
  have e1 : 0 ≤ (2 * d * (10 * x + d)) / (20 * (x * x) + d * d) := by positivity
  have e2 : -2 ≤ (2 * d * (-10 * x + d)) / (20 * (x * x) + d * d) := by
    rw [le_div_iff₀ hD]; nlinarith [sq_nonneg (4 * x - d), sq_nonneg x]
  constructor
  · exact div_nonneg (by linarith) (by linarith)
  · exact div_nonneg (by linarith) (by linarith)

end
end Verif.Recon
