import Verif.Lemmas.Reconstruct
import Mathlib.Data.Rat.Cast.Order
import Mathlib.Tactic.NormNum

/-!
# C47: reconstruction is limited
-/
namespace Verif.Recon
variable {K : Type} [Field K] [LinearOrder K]

/-! ## Donor cell -/

/-- Donor cell: both states of a cell are its average; entries outside the range are kept. -/
theorem donor_x1 (nu il iu : Int) (q ql0 qr0 : Row K) {n i : Int} (hn : 0 ≤ n ∧ n ≤ nu)
    (hi : il ≤ i ∧ i ≤ iu) :
    (donorX1 nu il iu q ql0 qr0).1 n (i + 1) = q n i ∧ (donorX1 nu il iu q ql0 qr0).2 n i = q n i := by
  simp [donorX1, hn, hi]

@[inherit_doc donor_x1] theorem donor_transverse (nu il iu : Int) (q ql0 qr0 : Row K) {n i : Int}
    (hn : 0 ≤ n ∧ n ≤ nu) (hi : il ≤ i ∧ i ≤ iu) :
    (donorT nu il iu q ql0 qr0).1 n i = q n i ∧ (donorT nu il iu q ql0 qr0).2 n i = q n i := by
  simp [donorT, hn, hi]

/-! ## Piecewise linear -/

theorem plmX1_val {nwave nu il iu : Int} {mm flat : Bool} {m : Line K}
    {q dql0 dqr0 dqm0 ql0 qr0 : Row K} {n i : Int}
    (hn : 0 ≤ n ∧ n ≤ nu) (hi : il ≤ i ∧ i ≤ iu) (hw : mm = true → n < nwave) :
    let s := slopeX1 mm flat m i (q n i - q n (i - 1)) (q n (i + 1) - q n i)
    let r := plmX1 nwave mm flat m nu il iu q dql0 dqr0 dqm0 ql0 qr0
    r.1 n (i + 1) = q n i + ((m.xf (i + 1) - m.xv i) / m.dxf i) * s ∧
      r.2 n i = q n i - ((m.xv i - m.xf i) / m.dxf i) * s := by
  have ht : 0 ≤ n ∧ n ≤ (if mm then nwave - 1 else nu) ∧ il ≤ i ∧ i ≤ iu := by
    refine ⟨hn.1, ?_, hi⟩
    cases mm
    · simpa using hn.2
    · have := hw rfl
      simp only [if_true]; omega
  have h3 : 0 ≤ n ∧ n ≤ nu ∧ il ≤ i ∧ i ≤ iu := ⟨hn.1, hn.2, hi⟩
  simp only [plmX1, add_sub_cancel_right]
  rw [if_pos h3, if_pos h3, if_pos ht, if_pos h3, if_pos h3]
  exact ⟨rfl, rfl⟩

section
variable [IsStrictOrderedRing K]

/-- On a Cartesian mesh whose cells are at most twice as wide as their neighbours the mesh is
smooth enough for the van Leer limiter. -/
theorem smooth_of_ratio (xf : Int → K) (i : Int) (h0 : xf i < xf (i + 1))
    (h1 : xf (i + 1) - xf i ≤ 2 * (xf (i + 1 + 1) - xf (i + 1)))
    (h2 : xf (i + 1) - xf i ≤ 2 * (xf i - xf (i - 1))) :
    (cartLine xf).Cell i ∧ (cartLine xf).Mid i ∧ (cartLine xf).Smooth i := by
  have e1 : i - 1 + 1 = i := by ring
  refine ⟨⟨?_, ?_, ?_, ?_, ?_, ?_, ?_⟩, ?_, ?_⟩ <;> simp only [cartLine, Line.Mid, Line.Smooth, e1]
  · linarith
  · linarith
  · linarith
  · linarith
  · ring
  · generalize xf i = a at *
    generalize xf (i + 1) = b at *
    generalize xf (i + 1 + 1) = c at *
    generalize xf (i - 1) = z at *
    obtain ⟨d, rfl⟩ : ∃ d, b = a + d := ⟨b - a, by ring⟩
    have hd : 0 < d := by linarith
    obtain ⟨u, rfl⟩ : ∃ u, c = a + d + u * d := ⟨(c - a - d) / d, by field_simp; ring⟩
    obtain ⟨v, rfl⟩ : ∃ v, z = a - v * d := ⟨(a - z) / d, by field_simp; ring⟩
    have hu : 1 / 2 ≤ u := by
      have : d * 1 ≤ d * (2 * u) := by linarith
      have := le_of_mul_le_mul_left this hd
      linarith
    have hv : 1 / 2 ≤ v := by
      have : d * 1 ≤ d * (2 * v) := by linarith
      have := le_of_mul_le_mul_left this hd
      linarith
    have f1 : (1 / 2 * (a + d + u * d + (a + d)) - 1 / 2 * (a + d + a)) /
        (a + d - 1 / 2 * (a + d + a)) = 1 + u := by
      rw [div_eq_iff (by linarith : a + d - 1 / 2 * (a + d + a) ≠ 0)]; ring
    have f2 : (1 / 2 * (a + d + a) - 1 / 2 * (a + (a - v * d))) /
        (1 / 2 * (a + d + a) - a) = 1 + v := by
      rw [div_eq_iff (by linarith : 1 / 2 * (a + d + a) - a ≠ 0)]; ring
    rw [f1, f2]
    have h5 : 1 / 4 ≤ u * v := by nlinarith
    constructor <;> nlinarith

/-- **Piecewise linear, x1.** With every limiter and on every mesh that is smooth at the cell, the
two states of cell `i` lie between its average and the averages of the two neighbours. The
variable must be one the limiter loops visit (see `plm_x1_stale`). -/
theorem plm_x1_limited {nwave nu il iu : Int} {mm flat : Bool} {m : Line K}
    {q dql0 dqr0 dqm0 ql0 qr0 : Row K} {n i : Int}
    (hn : 0 ≤ n ∧ n ≤ nu) (hi : il ≤ i ∧ i ≤ iu) (hw : mm = true → n < nwave)
    (hm : m.Cell i) (hflat : flat = true → m.Mid i)
    (hvl : mm = false → flat = false → m.Smooth i) :
    let r := plmX1 nwave mm flat m nu il iu q dql0 dqr0 dqm0 ql0 qr0
    Between (q n i) (q n (i + 1)) (r.1 n (i + 1)) ∧ Between (q n (i - 1)) (q n i) (r.2 n i) := by
  obtain ⟨e1, e2⟩ := plmX1_val (q := q) (m := m) (flat := flat) (dql0 := dql0) (dqr0 := dqr0)
    (dqm0 := dqm0) (ql0 := ql0) (qr0 := qr0) hn hi hw
  simp only
  rw [e1, e2]
  exact (slopeX1_lim hm hflat hvl _ _).between hm.p_ratio.1.le hm.r_ratio.1.le

/-- **Piecewise linear, x2.** The same between rows `j-1`, `j`, `j+1`. -/
theorem plm_x2_limited {j nu il iu : Int} {mm flat : Bool} {m : Line K} {q : Int → Row K}
    {ql0 qr0 : Row K} {n i : Int} (hn : 0 ≤ n ∧ n ≤ nu) (hi : il ≤ i ∧ i ≤ iu)
    (hm : m.Cell j) (hflat : flat = true → m.Mid j)
    (hvl : mm = false → flat = false → m.Smooth j) :
    let r := plmX2 mm flat m j nu il iu q ql0 qr0
    Between (q j n i) (q (j + 1) n i) (r.1 n i) ∧ Between (q (j - 1) n i) (q j n i) (r.2 n i) := by
  have h3 : 0 ≤ n ∧ n ≤ nu ∧ il ≤ i ∧ i ≤ iu := ⟨hn.1, hn.2, hi⟩
  simp only [plmX2, plmT]
  rw [if_pos h3, if_pos h3, slopeX2_eq]
  exact (slopeX1_lim hm hflat hvl _ _).between hm.p_ratio.1.le hm.r_ratio.1.le

/-- **Piecewise linear, x3.** On a non-uniform mesh the van Leer limiter used here needs cells
that are no wider than the distances to the neighbouring centres (see `plm_x3_overshoot`). -/
theorem plm_x3_limited {k nu il iu : Int} {mm flat : Bool} {m : Line K} {q : Int → Row K}
    {ql0 qr0 : Row K} {n i : Int} (hn : 0 ≤ n ∧ n ≤ nu) (hi : il ≤ i ∧ i ≤ iu)
    (hm : m.Cell k) (hflat : flat = true → m.Mid k)
    (hvl : mm = false → flat = false →
      2 * (m.xf (k + 1) - m.xv k) ≤ m.xv (k + 1) - m.xv k ∧
        2 * (m.xv k - m.xf k) ≤ m.xv k - m.xv (k - 1)) :
    let r := plmX3 mm flat m k nu il iu q ql0 qr0
    Between (q k n i) (q (k + 1) n i) (r.1 n i) ∧ Between (q (k - 1) n i) (q k n i) (r.2 n i) := by
  have h3 : 0 ≤ n ∧ n ≤ nu ∧ il ≤ i ∧ i ≤ iu := ⟨hn.1, hn.2, hi⟩
  simp only [plmX3, plmT]
  rw [if_pos h3, if_pos h3]
  refine (slopeX3_lim hm hflat ?_ _ _).between hm.p_ratio.1.le hm.r_ratio.1.le
  rw [hm.dxv, hm.dxv']
  exact hvl

/-- At an extremum of the cell averages the reconstruction is first order: both states equal the
average (no condition on the smoothness of the mesh). -/
theorem plm_x1_extremum {nwave nu il iu : Int} {mm flat : Bool} {m : Line K}
    {q dql0 dqr0 dqm0 ql0 qr0 : Row K} {n i : Int}
    (hn : 0 ≤ n ∧ n ≤ nu) (hi : il ≤ i ∧ i ≤ iu) (hw : mm = true → n < nwave) (hm : m.Cell i)
    (hx : (q n (i - 1) ≤ q n i ∧ q n (i + 1) ≤ q n i) ∨ (q n i ≤ q n (i - 1) ∧ q n i ≤ q n (i + 1))) :
    let r := plmX1 nwave mm flat m nu il iu q dql0 dqr0 dqm0 ql0 qr0
    r.1 n (i + 1) = q n i ∧ r.2 n i = q n i := by
  obtain ⟨e1, e2⟩ := plmX1_val (q := q) (m := m) (flat := flat) (dql0 := dql0) (dqr0 := dqr0)
    (dqm0 := dqm0) (ql0 := ql0) (qr0 := qr0) hn hi hw
  simp only
  rw [e1, e2, slopeX1_extremum hm (extremum_prod hx)]
  simp

@[inherit_doc plm_x1_extremum]
theorem plm_x2_extremum {j nu il iu : Int} {mm flat : Bool} {m : Line K} {q : Int → Row K}
    {ql0 qr0 : Row K} {n i : Int} (hn : 0 ≤ n ∧ n ≤ nu) (hi : il ≤ i ∧ i ≤ iu) (hm : m.Cell j)
    (hx : (q (j - 1) n i ≤ q j n i ∧ q (j + 1) n i ≤ q j n i) ∨
      (q j n i ≤ q (j - 1) n i ∧ q j n i ≤ q (j + 1) n i)) :
    let r := plmX2 mm flat m j nu il iu q ql0 qr0
    r.1 n i = q j n i ∧ r.2 n i = q j n i := by
  have h3 : 0 ≤ n ∧ n ≤ nu ∧ il ≤ i ∧ i ≤ iu := ⟨hn.1, hn.2, hi⟩
  simp only [plmX2, plmT]
  rw [if_pos h3, if_pos h3, slopeX2_eq, slopeX1_extremum hm (extremum_prod hx)]
  simp

@[inherit_doc plm_x1_extremum]
theorem plm_x3_extremum {k nu il iu : Int} {mm flat : Bool} {m : Line K} {q : Int → Row K}
    {ql0 qr0 : Row K} {n i : Int} (hn : 0 ≤ n ∧ n ≤ nu) (hi : il ≤ i ∧ i ≤ iu) (hm : m.Cell k)
    (hx : (q (k - 1) n i ≤ q k n i ∧ q (k + 1) n i ≤ q k n i) ∨
      (q k n i ≤ q (k - 1) n i ∧ q k n i ≤ q (k + 1) n i)) :
    let r := plmX3 mm flat m k nu il iu q ql0 qr0
    r.1 n i = q k n i ∧ r.2 n i = q k n i := by
  have h3 : 0 ≤ n ∧ n ≤ nu ∧ il ≤ i ∧ i ≤ iu := ⟨hn.1, hn.2, hi⟩
  simp only [plmX3, plmT]
  rw [if_pos h3, if_pos h3, slopeX3_extremum hm (extremum_prod hx)]
  simp

/-- Data linear in the position of the cell centres are reconstructed exactly at the faces. In
the uniform branch the spacings must be equal. -/
theorem plm_x1_linear {nwave nu il iu : Int} {mm flat : Bool} {m : Line K}
    {q dql0 dqr0 dqm0 ql0 qr0 : Row K} {n i : Int} (a b : K)
    (hn : 0 ≤ n ∧ n ≤ nu) (hi : il ≤ i ∧ i ≤ iu) (hw : mm = true → n < nwave) (hm : m.Cell i)
    (hflat : flat = true → m.dxv i = m.dxf i ∧ m.dxv (i - 1) = m.dxf i)
    (hq : ∀ c, i - 1 ≤ c → c ≤ i + 1 → q n c = a + b * m.xv c) :
    let r := plmX1 nwave mm flat m nu il iu q dql0 dqr0 dqm0 ql0 qr0
    r.1 n (i + 1) = a + b * m.xf (i + 1) ∧ r.2 n i = a + b * m.xf i := by
  obtain ⟨e1, e2⟩ := plmX1_val (q := q) (m := m) (flat := flat) (dql0 := dql0) (dqr0 := dqr0)
    (dqm0 := dqm0) (ql0 := ql0) (qr0 := qr0) hn hi hw
  simp only
  rw [e1, e2, hq i (by omega) (by omega), hq (i - 1) (by omega) (by omega),
    hq (i + 1) (by omega) (by omega),
    show a + b * m.xv i - (a + b * m.xv (i - 1)) = b * m.dxv (i - 1) by rw [hm.dxv']; ring,
    show a + b * m.xv (i + 1) - (a + b * m.xv i) = b * m.dxv i by rw [hm.dxv]; ring,
    slopeX1_linear hm hflat]
  have := hm.dxf_pos.ne'
  constructor <;> field_simp <;> ring

@[inherit_doc plm_x1_linear]
theorem plm_x2_linear {j nu il iu : Int} {mm flat : Bool} {m : Line K} {q : Int → Row K}
    {ql0 qr0 : Row K} {n i : Int} (a b : K) (hn : 0 ≤ n ∧ n ≤ nu) (hi : il ≤ i ∧ i ≤ iu)
    (hm : m.Cell j) (hflat : flat = true → m.dxv j = m.dxf j ∧ m.dxv (j - 1) = m.dxf j)
    (hq : ∀ c, j - 1 ≤ c → c ≤ j + 1 → q c n i = a + b * m.xv c) :
    let r := plmX2 mm flat m j nu il iu q ql0 qr0
    r.1 n i = a + b * m.xf (j + 1) ∧ r.2 n i = a + b * m.xf j := by
  have h3 : 0 ≤ n ∧ n ≤ nu ∧ il ≤ i ∧ i ≤ iu := ⟨hn.1, hn.2, hi⟩
  simp only [plmX2, plmT]
  rw [if_pos h3, if_pos h3, hq j (by omega) (by omega), hq (j - 1) (by omega) (by omega),
    hq (j + 1) (by omega) (by omega),
    show a + b * m.xv j - (a + b * m.xv (j - 1)) = b * m.dxv (j - 1) by rw [hm.dxv']; ring,
    show a + b * m.xv (j + 1) - (a + b * m.xv j) = b * m.dxv j by rw [hm.dxv]; ring,
    slopeX2_eq, slopeX1_linear hm hflat]
  have := hm.dxf_pos.ne'
  constructor <;> field_simp <;> ring

@[inherit_doc plm_x1_linear]
theorem plm_x3_linear {k nu il iu : Int} {mm flat : Bool} {m : Line K} {q : Int → Row K}
    {ql0 qr0 : Row K} {n i : Int} (a b : K) (hn : 0 ≤ n ∧ n ≤ nu) (hi : il ≤ i ∧ i ≤ iu)
    (hm : m.Cell k) (hflat : flat = true → m.dxv k = m.dxf k ∧ m.dxv (k - 1) = m.dxf k)
    (hq : ∀ c, k - 1 ≤ c → c ≤ k + 1 → q c n i = a + b * m.xv c) :
    let r := plmX3 mm flat m k nu il iu q ql0 qr0
    r.1 n i = a + b * m.xf (k + 1) ∧ r.2 n i = a + b * m.xf k := by
  have h3 : 0 ≤ n ∧ n ≤ nu ∧ il ≤ i ∧ i ≤ iu := ⟨hn.1, hn.2, hi⟩
  simp only [plmX3, plmT]
  rw [if_pos h3, if_pos h3, hq k (by omega) (by omega), hq (k - 1) (by omega) (by omega),
    hq (k + 1) (by omega) (by omega),
    show a + b * m.xv k - (a + b * m.xv (k - 1)) = b * m.dxv (k - 1) by rw [hm.dxv']; ring,
    show a + b * m.xv (k + 1) - (a + b * m.xv k) = b * m.dxv k by rw [hm.dxv]; ring,
    slopeX3_linear hm hflat]
  have := hm.dxf_pos.ne'
  constructor <;> field_simp <;> ring

/-- In the x1-direction the result does not depend on what earlier calls left in the work arrays,
provided the minmod loops visit all variables of the array. -/
theorem plm_x1_scratch {nwave nu il iu : Int} {mm flat : Bool} {m : Line K}
    {q dql0 dqr0 dqm0 dql1 dqr1 dqm1 ql0 qr0 : Row K} (hw : mm = true → nu < nwave) :
    plmX1 nwave mm flat m nu il iu q dql0 dqr0 dqm0 ql0 qr0 =
      plmX1 nwave mm flat m nu il iu q dql1 dqr1 dqm1 ql0 qr0 := by
  refine Prod.ext (funext fun n => funext fun i => ?_) (funext fun n => funext fun i => ?_)
  · by_cases h : 0 ≤ n ∧ n ≤ nu ∧ il ≤ i - 1 ∧ i - 1 ≤ iu
    · have hw' : mm = true → n < nwave := fun e => by have := hw e; omega
      obtain ⟨e1, -⟩ := plmX1_val (q := q) (m := m) (flat := flat) (dql0 := dql0) (dqr0 := dqr0)
        (dqm0 := dqm0) (ql0 := ql0) (qr0 := qr0) ⟨h.1, h.2.1⟩ h.2.2 hw'
      obtain ⟨e2, -⟩ := plmX1_val (q := q) (m := m) (flat := flat) (dql0 := dql1) (dqr0 := dqr1)
        (dqm0 := dqm1) (ql0 := ql0) (qr0 := qr0) ⟨h.1, h.2.1⟩ h.2.2 hw'
      rw [show i = i - 1 + 1 by ring]
      exact e1.trans e2.symm
    · simp only [plmX1]
      rw [if_neg h, if_neg h]
  · by_cases h : 0 ≤ n ∧ n ≤ nu ∧ il ≤ i ∧ i ≤ iu
    · have hw' : mm = true → n < nwave := fun e => by have := hw e; omega
      obtain ⟨-, e1⟩ := plmX1_val (q := q) (m := m) (flat := flat) (dql0 := dql0) (dqr0 := dqr0)
        (dqm0 := dqm0) (ql0 := ql0) (qr0 := qr0) ⟨h.1, h.2.1⟩ h.2.2 hw'
      obtain ⟨-, e2⟩ := plmX1_val (q := q) (m := m) (flat := flat) (dql0 := dql1) (dqr0 := dqr1)
        (dqm0 := dqm1) (ql0 := ql0) (qr0 := qr0) ⟨h.1, h.2.1⟩ h.2.2 hw'
      exact e1.trans e2.symm
    · simp only [plmX1]
      rw [if_neg h, if_neg h]

end

/-- Entries outside the requested range are kept. -/
theorem plm_x1_elsewhere {nwave nu il iu : Int} {mm flat : Bool} {m : Line K}
    {q dql0 dqr0 dqm0 ql0 qr0 : Row K} {n i : Int} :
    let r := plmX1 nwave mm flat m nu il iu q dql0 dqr0 dqm0 ql0 qr0
    (¬ (0 ≤ n ∧ n ≤ nu ∧ il + 1 ≤ i ∧ i ≤ iu + 1) → r.1 n i = ql0 n i) ∧
      (¬ (0 ≤ n ∧ n ≤ nu ∧ il ≤ i ∧ i ≤ iu) → r.2 n i = qr0 n i) := by
  simp only [plmX1]
  constructor
  · intro h
    have n1 : ¬ (0 ≤ n ∧ n ≤ nu ∧ il ≤ i - 1 ∧ i - 1 ≤ iu) := by omega
    rw [if_neg n1]
  · intro h
    rw [if_neg h]

/-- **Defect (minmod, x1).** The minmod loops of `PiecewiseLinearX1` run over `n < NWAVE` instead
of over the variables of the array. A variable with `n ≥ NWAVE` (the fifth and later passive
scalars of an isothermal run, for instance, or the last cosmic-ray array) gets the slope that the
previous call left in the work array. -/
theorem plm_x1_stale {nwave nu il iu : Int} {flat : Bool} {m : Line K}
    {q dql0 dqr0 dqm0 ql0 qr0 : Row K} {n i : Int}
    (hn : 0 ≤ n ∧ n ≤ nu) (hi : il ≤ i ∧ i ≤ iu) (hw : nwave ≤ n) :
    let r := plmX1 nwave true flat m nu il iu q dql0 dqr0 dqm0 ql0 qr0
    r.1 n (i + 1) = q n i + ((m.xf (i + 1) - m.xv i) / m.dxf i) * dqm0 n i ∧
      r.2 n i = q n i - ((m.xv i - m.xf i) / m.dxf i) * dqm0 n i := by
  have h3 : 0 ≤ n ∧ n ≤ nu ∧ il ≤ i ∧ i ≤ iu := ⟨hn.1, hn.2, hi⟩
  have h4 : ¬ (0 ≤ n ∧ n ≤ nwave - 1 ∧ il ≤ i ∧ i ≤ iu) := by omega
  simp only [plmX1, add_sub_cancel_right, if_true]
  rw [if_pos h3, if_neg h4, if_pos h3]
  exact ⟨rfl, rfl⟩

/-- A constant scalar reconstructed as `1/2` on one side and `-1/2` on the other. -/
example :
    let r := plmX1 4 true true (cartLine (fun i : Int => (i : ℚ))) 4 0 0 (fun _ _ => 0)
      (fun _ _ => 0) (fun _ _ => 0) (fun _ _ => 1) (fun _ _ => 0) (fun _ _ => 0)
    r.1 4 1 = 1 / 2 ∧ r.2 4 0 = -1 / 2 := by decide +kernel

/-- Faces at `-1, 0, 3, 4`: the middle cell is three times as wide as its neighbours. -/
def wideCell (i : Int) : ℚ := if i ≤ 0 then i else i + 2

/-- **The condition on the mesh is needed.** The van Leer limiter for non-uniform meshes overshoots
in a cell three times as wide as its neighbours: averages `-10, 0, 1` give a state above `1`. -/
theorem plm_mesh_overshoot :
    (cartLine wideCell).Cell 0 ∧ (cartLine wideCell).Mid 0 ∧
    ∃ q : Row ℚ, ∀ nwave dql0 dqr0 dqm0 ql0 qr0,
      q 0 1 < (plmX1 nwave false false (cartLine wideCell) 0 0 0 q dql0 dqr0 dqm0 ql0 qr0).1 0 1 ∧
      q 0 0 < q 0 1 := by
  refine ⟨⟨?_, ?_, ?_, ?_, ?_, ?_, ?_⟩, ?_, fun _ i => if i = -1 then -10 else if i = 0 then 0 else 1,
    fun nwave dql0 dqr0 dqm0 ql0 qr0 => ?_⟩
  · decide +kernel
  · decide +kernel
  · decide +kernel
  · decide +kernel
  · decide +kernel
  · decide +kernel
  · decide +kernel
  · unfold Line.Mid; decide +kernel
  · obtain ⟨e, -⟩ := plmX1_val (nwave := nwave) (nu := 0) (il := 0) (iu := 0) (mm := false)
      (flat := false) (m := cartLine wideCell)
      (q := fun _ i => if i = -1 then -10 else if i = 0 then 0 else 1) (dql0 := dql0)
      (dqr0 := dqr0) (dqm0 := dqm0) (ql0 := ql0) (qr0 := qr0) (n := 0) (i := 0)
      ⟨le_rfl, le_rfl⟩ ⟨le_rfl, le_rfl⟩ (by simp)
    rw [zero_add] at e
    rw [e]
    decide +kernel

/-- Faces at `-10, 0, 9, 17.1`: every cell is `0.9` times as wide as the one before. -/
def shrinking (i : Int) : ℚ := if i < 0 then -10 else if i = 0 then 0 else if i = 1 then 9 else 171 / 10

/-- **Defect (van Leer, x3).** In the x3-direction the limiter of the uniform mesh is used on
non-uniform meshes too. With the mildest stretching the code accepts without a warning
(`x3rat = 0.9`) it overshoots, although the mesh is smooth in the sense used for x1 and x2:
averages `-100, 0, 1` give a state above `1`. -/
theorem plm_x3_overshoot :
    (cartLine shrinking).Cell 0 ∧ (cartLine shrinking).Smooth 0 ∧
    ∃ q : Int → Row ℚ, ∀ ql0 qr0,
      q 1 0 0 < (plmX3 false false (cartLine shrinking) 0 0 0 0 q ql0 qr0).1 0 0 ∧
      q 0 0 0 < q 1 0 0 := by
  refine ⟨⟨?_, ?_, ?_, ?_, ?_, ?_, ?_⟩, ?_,
    fun k _ _ => if k = -1 then -100 else if k = 0 then 0 else 1, fun ql0 qr0 => ?_⟩
  · decide +kernel
  · decide +kernel
  · decide +kernel
  · decide +kernel
  · decide +kernel
  · decide +kernel
  · decide +kernel
  · unfold Line.Smooth; decide +kernel
  · simp only [plmX3, plmT, le_refl, and_self, if_true]
    decide +kernel

/-- Non-vacuity: the hypotheses of the theorems hold on a stretched mesh and the reconstruction is
not the cell average there. -/
example :
    (cartLine shrinking).Cell 0 ∧ (cartLine shrinking).Smooth 0 ∧
    (plmX2 false false (cartLine shrinking) 0 0 0 0 (fun k _ _ => ((k * k * k : Int) : ℚ) + 3 * k)
      (fun _ _ => 0) (fun _ _ => 0)).1 0 0 ≠ 0 := by
  refine ⟨plm_x3_overshoot.1, plm_x3_overshoot.2.1, ?_⟩
  decide +kernel

/-! ## Piecewise parabolic -/

theorem ppmX1_val {ext uniform curv : Bool} {w : Weights K} {nu il iu : Int} {q ql0 qr0 : Row K}
    {n i : Int} (hn : 0 ≤ n ∧ n ≤ nu) (hi : il ≤ i ∧ i ≤ iu) :
    let c := ppmCell ext uniform curv w i ⟨q n (i - 2), q n (i - 1), q n i, q n (i + 1), q n (i + 2)⟩
    (ppmX1 ext uniform curv w nu il iu q ql0 qr0).1 n (i + 1) = c.2 ∧
      (ppmX1 ext uniform curv w nu il iu q ql0 qr0).2 n i = c.1 := by
  have h3 : 0 ≤ n ∧ n ≤ nu ∧ il ≤ i ∧ i ≤ iu := ⟨hn.1, hn.2, hi⟩
  simp only [ppmX1, add_sub_cancel_right]
  rw [if_pos h3, if_pos h3]
  exact ⟨rfl, rfl⟩

theorem ppmT_val {ext uniform curv : Bool} {w : Weights K} {j nu il iu : Int} {q : Int → Row K}
    {ql0 qr0 : Row K} {n i : Int} (hn : 0 ≤ n ∧ n ≤ nu) (hi : il ≤ i ∧ i ≤ iu) :
    let c := ppmCell ext uniform curv w j
      ⟨q (j - 2) n i, q (j - 1) n i, q j n i, q (j + 1) n i, q (j + 2) n i⟩
    (ppmT ext uniform curv w j nu il iu q ql0 qr0).1 n i = c.2 ∧
      (ppmT ext uniform curv w j nu il iu q ql0 qr0).2 n i = c.1 := by
  have h3 : 0 ≤ n ∧ n ≤ nu ∧ il ≤ i ∧ i ≤ iu := ⟨hn.1, hn.2, hi⟩
  simp only [ppmT]
  rw [if_pos h3, if_pos h3]
  exact ⟨rfl, rfl⟩

section
variable [IsStrictOrderedRing K]

/-- **Piecewise parabolic, non-uniform or curvilinear, x1.** Whatever the weights, the states of a
cell lie between its average and those of its neighbours. -/
theorem ppm_x1_limited {ext uniform curv : Bool} {w : Weights K} {nu il iu : Int}
    {q ql0 qr0 : Row K} {n i : Int} (hn : 0 ≤ n ∧ n ≤ nu) (hi : il ≤ i ∧ i ≤ iu)
    (hf : uniform = false ∨ curv = true) (hp : 0 ≤ w.hp i) (hm : 0 ≤ w.hm i) :
    let r := ppmX1 ext uniform curv w nu il iu q ql0 qr0
    Between (q n i) (q n (i + 1)) (r.1 n (i + 1)) ∧ Between (q n i) (q n (i - 1)) (r.2 n i) := by
  obtain ⟨e1, e2⟩ := ppmX1_val (ext := ext) (uniform := uniform) (curv := curv) (w := w) (q := q)
    (ql0 := ql0) (qr0 := qr0) hn hi
  simp only
  rw [e1, e2]
  have := ppmCell_limited (ext := ext) hf hp hm (⟨q n (i - 2), q n (i - 1), q n i, q n (i + 1), q n (i + 2)⟩)
  exact ⟨this.2, this.1⟩

/-- **Piecewise parabolic, non-uniform or curvilinear, x2 and x3.** -/
theorem ppm_transverse_limited {ext uniform curv : Bool} {w : Weights K} {j nu il iu : Int}
    {q : Int → Row K} {ql0 qr0 : Row K} {n i : Int} (hn : 0 ≤ n ∧ n ≤ nu) (hi : il ≤ i ∧ i ≤ iu)
    (hf : uniform = false ∨ curv = true) (hp : 0 ≤ w.hp j) (hm : 0 ≤ w.hm j) :
    let r := ppmT ext uniform curv w j nu il iu q ql0 qr0
    Between (q j n i) (q (j + 1) n i) (r.1 n i) ∧ Between (q j n i) (q (j - 1) n i) (r.2 n i) := by
  obtain ⟨e1, e2⟩ := ppmT_val (ext := ext) (uniform := uniform) (curv := curv) (w := w) (q := q)
    (ql0 := ql0) (qr0 := qr0) hn hi
  simp only
  rw [e1, e2]
  have := ppmCell_limited (ext := ext) hf hp hm (⟨q (j - 2) n i, q (j - 1) n i, q j n i, q (j + 1) n i, q (j + 2) n i⟩)
  exact ⟨this.2, this.1⟩

/-- **Piecewise parabolic, uniform.** With either cell limiter: a state never lies further out than
the averages next to its face and the unlimited interface average; where the second differences
on the two sides of the face have different signs it lies between the two averages. -/
theorem ppm_uniform_limited {ext : Bool} {w : Weights K} {i : Int} (hp : 0 ≤ w.hp i)
    (hm : 0 ≤ w.hm i) (s : Sten K) :
    let f := ppmFace false w i s
    let c := ppmCell ext true false w i s
    (min (min s.m1 s.c) f.1 ≤ c.1 ∧ c.1 ≤ max (max s.m1 s.c) f.1) ∧
    (min (min s.c s.p1) f.2 ≤ c.2 ∧ c.2 ≤ max (max s.c s.p1) f.2) ∧
    ((s.m2 + s.c - 2 * s.m1) * (s.m1 + s.p1 - 2 * s.c) ≤ 0 → Between s.m1 s.c c.1) ∧
    ((s.m1 + s.p1 - 2 * s.c) * (s.c + s.p2 - 2 * s.p1) ≤ 0 → Between s.c s.p1 c.2) := by
  obtain ⟨b1, b2⟩ := ppmCell_inner (ext := ext) (uniform := true) (curv := false) hp hm s
  simp only [Bool.not_false, Bool.and_true, if_true] at b1 b2
  simp only
  refine ⟨hull_of_cases ?_ b1, hull_of_cases' ?_ b2, fun h => ?_, fun h => ?_⟩
  · exact limitFaceU_cases _ _ _ _ _
  · exact limitFaceU_cases _ _ _ _ _
  · exact ((limitFaceU_between h _).symm.trans b1).symm
  · exact (limitFaceU_between h _).trans b2

/-- At an extremum of the averages the non-uniform method is first order. -/
theorem ppm_extremum {ext uniform curv : Bool} {w : Weights K} {i : Int} (s : Sten K)
    (hf : uniform = false ∨ curv = true)
    (hx : (s.m1 ≤ s.c ∧ s.p1 ≤ s.c) ∨ (s.c ≤ s.m1 ∧ s.c ≤ s.p1)) :
    ppmCell ext uniform curv w i s = (s.c, s.c) := by
  have hfl : (uniform && !curv) = false := by rcases hf with h | h <;> simp [h]
  simp only [ppmCell, hfl, Bool.and_false, Bool.false_eq_true, if_false]
  obtain ⟨h1, h2⟩ := limitFaceN_between s.c s.m1 (ppmFace curv w i s).1
  obtain ⟨h3, h4⟩ := limitFaceN_between s.c s.p1 (ppmFace curv w i s).2
  unfold limitCellM
  simp only
  rw [if_pos]
  rcases hx with ⟨g1, g2⟩ | ⟨g1, g2⟩
  · rw [max_eq_left g1] at h2
    rw [max_eq_left g2] at h4
    exact mul_nonpos_of_nonneg_of_nonpos (by linarith) (by linarith)
  · rw [min_eq_left g1] at h1
    rw [min_eq_left g2] at h3
    exact mul_nonpos_of_nonpos_of_nonneg (by linarith) (by linarith)

/-- Constant data are reproduced in every branch. -/
theorem ppm_constant {ext uniform curv : Bool} {w : Weights K} {i : Int} (a : K)
    (hp : 0 ≤ w.hp i) (hm : 0 ≤ w.hm i) :
    ppmCell ext uniform curv w i ⟨a, a, a, a, a⟩ = (a, a) := by
  have hb : ∀ {x : K}, Between a a x → x = a := fun h => by
    obtain ⟨h1, h2⟩ := h
    rw [min_self] at h1; rw [max_self] at h2
    exact le_antisymm h2 h1
  by_cases hf : uniform = false ∨ curv = true
  · obtain ⟨h1, h2⟩ := ppmCell_limited (ext := ext) hf hp hm ⟨a, a, a, a, a⟩
    exact Prod.ext (hb h1) (hb h2)
  · rw [not_or] at hf
    obtain rfl : uniform = true := by simpa using hf.1
    obtain rfl : curv = false := by simpa using hf.2
    obtain ⟨-, -, h1, h2⟩ := ppm_uniform_limited (ext := ext) hp hm ⟨a, a, a, a, a⟩
    refine Prod.ext (hb (h1 ?_)) (hb (h2 ?_))
    · simp only; exact le_of_eq (by ring)
    · simp only; exact le_of_eq (by ring)

end

/-- **The uniform method overshoots on purpose.** Averages of a smooth minimum at a face,
`25/4, 9/4, 1/4, 1/4, 9/4`: the state at that face is `-1/12`, below both neighbouring averages,
with `ext_preserving` set or not. -/
theorem ppm_uniform_overshoot (ext : Bool) :
    (ppmCell ext true false (uniformW : Weights ℚ) 0 ⟨25 / 4, 9 / 4, 1 / 4, 1 / 4, 9 / 4⟩).2 < 1 / 4 := by
  cases ext <;> decide +kernel

/-! ## The weights -/

section
variable [IsStrictOrderedRing K]

/-- On a uniform mesh the interface averages are exact for cell averages of cubics. -/
theorem ppm_uniform_cubic (a0 a1 a2 a3 x h : K) (hh : 0 < h) (i : Int) :
    let p := fun y : K => a0 + a1 * y + a2 * y ^ 2 + a3 * y ^ 3
    let v := fun y : K => a0 * avg 0 0 y (y + h) + a1 * avg 0 1 y (y + h) + a2 * avg 0 2 y (y + h)
      + a3 * avg 0 3 y (y + h)
    ppmFace false uniformW i ⟨v (x - 2 * h), v (x - h), v x, v (x + h), v (x + 2 * h)⟩
      = (p x, p (x + h)) := by
  have hv : ∀ y : K, a0 * avg 0 0 y (y + h) + a1 * avg 0 1 y (y + h) + a2 * avg 0 2 y (y + h)
      + a3 * avg 0 3 y (y + h) = a0 + a1 * (y + h / 2) + a2 * (y ^ 2 + y * h + h ^ 2 / 3)
        + a3 * (y ^ 3 + 3 / 2 * y ^ 2 * h + y * h ^ 2 + h ^ 3 / 4) := by
    intro y
    simp only [avg]
    have : h ≠ 0 := hh.ne'
    have e : (y + h) ^ (0 + 1) - y ^ (0 + 1) = h := by ring
    rw [e]
    push_cast
    field_simp
    ring
  simp only [hv, ppmFace, uniformW, Bool.not_false, if_true]
  refine Prod.ext ?_ ?_ <;> simp only <;> ring

/-- On any Cartesian mesh the interface averages are exact for cell averages of cubics. -/
theorem ppm_stretched_cubic (a0 a1 a2 a3 : K) (xf : Int → K) (hx : ∀ c, xf c < xf (c + 1)) (i : Int) :
    let p := fun y : K => a0 + a1 * y + a2 * y ^ 2 + a3 * y ^ 3
    let v := fun c : Int => a0 * avg 0 0 (xf c) (xf (c + 1)) + a1 * avg 0 1 (xf c) (xf (c + 1))
      + a2 * avg 0 2 (xf c) (xf (c + 1)) + a3 * avg 0 3 (xf c) (xf (c + 1))
    ppmFace false (stretchedW (cartLine xf).dxf) i ⟨v (i - 2), v (i - 1), v i, v (i + 1), v (i + 2)⟩
      = (p (xf i), p (xf (i + 1))) := by
  have key : ∀ i : Int, ∀ v : Int → K,
      (∀ c, v c = a0 * avg 0 0 (xf c) (xf (c + 1)) + a1 * avg 0 1 (xf c) (xf (c + 1))
        + a2 * avg 0 2 (xf c) (xf (c + 1)) + a3 * avg 0 3 (xf c) (xf (c + 1))) →
      let w := stretchedW (cartLine xf).dxf
      (w.c3 i * v (i - 1) + w.c4 i * v i) +
        (w.c5 i * (w.c1 (i - 1) * (v i - v (i - 1)) + w.c2 (i - 1) * (v (i - 1) - v (i - 2))) +
          w.c6 i * (w.c1 i * (v (i + 1) - v i) + w.c2 i * (v i - v (i - 1))))
      = a0 + a1 * xf i + a2 * xf i ^ 2 + a3 * xf i ^ 3 := by
    intro i v hv
    have e2 : i - 2 + 1 = i - 1 := by ring
    have e1 : i - 1 + 1 = i := by ring
    have e3 : i - 1 - 1 = i - 2 := by ring
    have h1 := hx (i - 2)
    have h2 := hx (i - 1)
    have h3 := hx i
    have h4 := hx (i + 1)
    rw [e2] at h1
    rw [e1] at h2
    have := face_exact (p := xf (i - 1) - xf (i - 2)) (q := xf i - xf (i - 1))
      (r := xf (i + 1) - xf i) (s := xf (i + 1 + 1) - xf (i + 1)) (by linarith) (by linarith)
      (by linarith) (by linarith) (a0 + a1 * xf i + a2 * xf i ^ 2 + a3 * xf i ^ 3)
      (a1 + 2 * a2 * xf i + 3 * a3 * xf i ^ 2) (a2 + 3 * a3 * xf i) a3
    simp only at this
    rw [hv (i - 2), hv (i - 1), hv i, hv (i + 1), e2, e1, avg0 h1 _ _ _ _ (xf i),
      avg0 h2 _ _ _ _ (xf i), avg0 h3 _ _ _ _ (xf i), avg0 h4 _ _ _ _ (xf i)]
    simp only [stretchedW, cartLine, e1, e2, e3]
    rw [show xf (i - 2) - xf i = -(xf i - xf (i - 1)) - (xf (i - 1) - xf (i - 2)) by ring,
      show xf (i - 1) - xf i = -(xf i - xf (i - 1)) by ring, sub_self]
    exact this
  simp only
  rw [ppmFace_flat]
  refine Prod.ext ?_ ?_
  · exact key i _ fun c => rfl
  · have := key (i + 1) _ fun c => rfl
    simp only [show i + 1 - 2 = i - 1 by ring, show i + 1 - 1 = i by ring,
      show i + 1 + 1 = i + 2 by ring] at this ⊢
    exact this

/-- **Cylindrical radius, uniform mesh.** In a block whose first active face lies on the axis the
interface averages are exact for volume averages of cubics in the radius. -/
theorem ppm_cyl_cubic (a0 a1 a2 a3 h : K) (hh : 0 < h) (is i : Int) (hi : is ≤ i) (m : Line K)
    (xf : Int → K) (hx : ∀ c : Int, xf c = ((c - is : Int) : K) * h) :
    let p := fun y : K => a0 + a1 * y + a2 * y ^ 2 + a3 * y ^ 3
    let v := fun c : Int => a0 * avg 1 0 (xf c) (xf (c + 1)) + a1 * avg 1 1 (xf c) (xf (c + 1))
      + a2 * avg 1 2 (xf c) (xf (c + 1)) + a3 * avg 1 3 (xf c) (xf (c + 1))
    ppmFace true (cylW is m) i ⟨v (i - 2), v (i - 1), v i, v (i + 1), v (i + 2)⟩
      = (p (xf i), p (xf (i + 1))) := by
  obtain ⟨N, rfl⟩ : ∃ N, i = is + N := ⟨i - is, by ring⟩
  have hN : 0 ≤ N := by omega
  have hc : ∀ c : Int, xf (is + c) = (c : K) * h := fun c => by rw [hx, add_sub_cancel_left]
  have k1 := cyl_exact hh.ne' N a0 a1 a2 a3
  have k2 := cyl_exact hh.ne' (N + 1) a0 a1 a2 a3
  have hs : ∀ c : Int, xf (is + c + 1) = ((c : K) + 1) * h := fun c => by
    rw [add_assoc, hc]; push_cast; ring
  simp only [ppmFace, Bool.not_true, Bool.false_eq_true, if_false, cylW, add_sub_cancel_left,
    show is + N - 2 = is + (N - 2) by ring, show is + N - 1 = is + (N - 1) by ring,
    show is + N + 1 = is + (N + 1) by ring, show is + N + 2 = is + (N + 2) by ring, hc, hs,
    abs_of_nonneg hN, abs_of_nonneg (show 0 ≤ N + 1 by omega)]
  simp only [show N + 1 - 2 = N - 1 by ring, show N + 1 - 1 = N by ring,
    show N + 1 + 1 = N + 2 by ring] at k2
  simp only [Prod.mk.injEq]
  push_cast at k1 k2 ⊢
  exact ⟨k1, k2⟩

/-- **Spherical radius, uniform mesh.** -/
theorem ppm_sph_cubic (a0 a1 a2 a3 h : K) (hh : 0 < h) (is i : Int) (hi : is ≤ i) (m : Line K)
    (xf : Int → K) (hx : ∀ c : Int, xf c = ((c - is : Int) : K) * h) :
    let p := fun y : K => a0 + a1 * y + a2 * y ^ 2 + a3 * y ^ 3
    let v := fun c : Int => a0 * avg 2 0 (xf c) (xf (c + 1)) + a1 * avg 2 1 (xf c) (xf (c + 1))
      + a2 * avg 2 2 (xf c) (xf (c + 1)) + a3 * avg 2 3 (xf c) (xf (c + 1))
    ppmFace true (sphW is m) i ⟨v (i - 2), v (i - 1), v i, v (i + 1), v (i + 2)⟩
      = (p (xf i), p (xf (i + 1))) := by
  obtain ⟨N, rfl⟩ : ∃ N, i = is + N := ⟨i - is, by ring⟩
  have hN : 0 ≤ N := by omega
  have hc : ∀ c : Int, xf (is + c) = (c : K) * h := fun c => by rw [hx, add_sub_cancel_left]
  have k1 := sph_exact hh.ne' N a0 a1 a2 a3
  have k2 := sph_exact hh.ne' (N + 1) a0 a1 a2 a3
  have hs : ∀ c : Int, xf (is + c + 1) = ((c : K) + 1) * h := fun c => by
    rw [add_assoc, hc]; push_cast; ring
  simp only [ppmFace, Bool.not_true, Bool.false_eq_true, if_false, sphW, add_sub_cancel_left,
    show is + N - 2 = is + (N - 2) by ring, show is + N - 1 = is + (N - 1) by ring,
    show is + N + 1 = is + (N + 1) by ring, show is + N + 2 = is + (N + 2) by ring, hc, hs,
    abs_of_nonneg hN, abs_of_nonneg (show 0 ≤ N + 1 by omega)]
  simp only [show N + 1 - 2 = N - 1 by ring, show N + 1 - 1 = N by ring,
    show N + 1 + 1 = N + 2 by ring] at k2
  simp only [Prod.mk.injEq]
  push_cast at k1 k2 ⊢
  exact ⟨k1, k2⟩

/-- The limiter ratios satisfy the hypotheses of `ppm_x1_limited` in every radial cell that does not
contain the axis. -/
theorem ppm_radial_ratios {m : Line K} {i : Int} (is : Int) (h : m.dxf i = m.xf (i + 1) - m.xf i)
    (h0 : m.xf i < m.xf (i + 1)) (h1 : 0 ≤ m.xf i ∨ m.xf (i + 1) ≤ 0) :
    (0 ≤ (cylW is m).hp i ∧ 0 ≤ (cylW is m).hm i) ∧ (0 ≤ (sphW is m).hp i ∧ 0 ≤ (sphW is m).hm i) :=
  ⟨cylRatios_nonneg h h0 h1, sphRatios_nonneg h h0⟩

/-- The limiter ratios are those at which the parabola of a cell stops being monotone: a parabola
whose slope vanishes at the outer (inner) face deviates there from its volume average by exactly
`1/hp` (`1/hm`) of its deviation at the other face. -/
theorem ppm_radial_extremum {m : Line K} {i : Int} (is : Int) (h : m.dxf i = m.xf (i + 1) - m.xf i)
    (h0 : m.xf i < m.xf (i + 1)) (h1 : 0 ≤ m.xf i) (a0 a1 a2 : K) :
    let p := fun y : K => a0 + a1 * y + a2 * y ^ 2
    let p' := fun y : K => a1 + 2 * a2 * y
    let q := fun n => a0 * avg n 0 (m.xf i) (m.xf (i + 1)) + a1 * avg n 1 (m.xf i) (m.xf (i + 1))
      + a2 * avg n 2 (m.xf i) (m.xf (i + 1))
    (p' (m.xf (i + 1)) = 0 →
      q 1 - p (m.xf i) = (cylW is m).hp i * (p (m.xf (i + 1)) - q 1) ∧
      q 2 - p (m.xf i) = (sphW is m).hp i * (p (m.xf (i + 1)) - q 2)) ∧
    (p' (m.xf i) = 0 →
      p (m.xf (i + 1)) - q 1 = (cylW is m).hm i * (q 1 - p (m.xf i)) ∧
      p (m.xf (i + 1)) - q 2 = (sphW is m).hm i * (q 2 - p (m.xf i))) := by
  intro p p' q
  simp only [p, p', q, cylW, sphW, cylRatios, sphRatios, avg, h]
  rw [abs_of_nonneg (by linarith)]
  generalize m.xf i = a at *
  generalize m.xf (i + 1) = b at *
  obtain ⟨d, rfl⟩ : ∃ d, b = a + d := ⟨b - a, by ring⟩
  have hd : 0 < d := by linarith
  have e1 : (a + d) ^ 2 - a ^ 2 = d * (2 * a + d) := by ring
  have e2 : (a + d) ^ 3 - a ^ 3 = d * (3 * a ^ 2 + 3 * a * d + d ^ 2) := by ring
  have e3 : (a + d) ^ 4 - a ^ 4 = d * (4 * a ^ 3 + 6 * a ^ 2 * d + 4 * a * d ^ 2 + d ^ 3) := by ring
  have e4 : (a + d) ^ 5 - a ^ 5 = d * (5 * a ^ 4 + 10 * a ^ 3 * d + 10 * a ^ 2 * d ^ 2 + 5 * a * d ^ 3 + d ^ 4) := by ring
  have p1 : 0 < 2 * a + d := by linarith
  have p2 : 0 < 3 * a ^ 2 + 3 * a * d + d ^ 2 := by positivity
  have q1 : 4 * a + d ≠ 0 := by linarith
  have q2 : 4 * a + 3 * d ≠ 0 := by linarith
  have q3 : 10 * a ^ 2 + 5 * a * d + d ^ 2 ≠ 0 := by positivity
  have q4 : 10 * a ^ 2 + 15 * a * d + 6 * d ^ 2 ≠ 0 := by positivity
  have q5 : 20 * a ^ 2 + 20 * a * d + 6 * d ^ 2 ≠ 0 := by positivity
  have c1 : (3 + (a + d - a) / (2 * (1 / 2 * (a + d + a))) + 1) / (3 - (a + d - a) / (2 * (1 / 2 * (a + d + a))) - 1) = (8 * a + 5 * d) / (4 * a + d) := by
    rw [show 3 + (a + d - a) / (2 * (1 / 2 * (a + d + a))) + 1 = (8 * a + 5 * d) / (2 * a + d) by field_simp; ring,
      show 3 - (a + d - a) / (2 * (1 / 2 * (a + d + a))) - 1 = (4 * a + d) / (2 * a + d) by field_simp; ring,
      div_div_div_cancel_right₀ p1.ne']
  have c2 : (3 - (a + d - a) / (2 * (1 / 2 * (a + d + a))) + 1) / (3 + (a + d - a) / (2 * (1 / 2 * (a + d + a))) - 1) = (8 * a + 3 * d) / (4 * a + 3 * d) := by
    rw [show 3 - (a + d - a) / (2 * (1 / 2 * (a + d + a))) + 1 = (8 * a + 3 * d) / (2 * a + d) by field_simp; ring,
      show 3 + (a + d - a) / (2 * (1 / 2 * (a + d + a))) - 1 = (4 * a + 3 * d) / (2 * a + d) by field_simp; ring,
      div_div_div_cancel_right₀ p1.ne']
  have D : 20 * (1 / 2 * (a + d + a) * (1 / 2 * (a + d + a))) + (a + d - a) * (a + d - a) = 20 * a ^ 2 + 20 * a * d + 6 * d ^ 2 := by ring
  have c3 : (3 + 2 * (a + d - a) * (10 * (1 / 2 * (a + d + a)) + (a + d - a)) / (20 * (1 / 2 * (a + d + a) * (1 / 2 * (a + d + a))) + (a + d - a) * (a + d - a)) + 1) /
      (3 + 2 * (a + d - a) * (-10 * (1 / 2 * (a + d + a)) + (a + d - a)) / (20 * (1 / 2 * (a + d + a) * (1 / 2 * (a + d + a))) + (a + d - a) * (a + d - a)) - 1)
      = (20 * a ^ 2 + 25 * a * d + 9 * d ^ 2) / (10 * a ^ 2 + 5 * a * d + d ^ 2) := by
    rw [D]
    generalize hE : 20 * a ^ 2 + 20 * a * d + 6 * d ^ 2 = E at q5
    rw [show 3 + 2 * (a + d - a) * (10 * (1 / 2 * (a + d + a)) + (a + d - a)) / E + 1 = (4 * (20 * a ^ 2 + 25 * a * d + 9 * d ^ 2)) / E by
        field_simp; rw [← hE]; ring,
      show 3 + 2 * (a + d - a) * (-10 * (1 / 2 * (a + d + a)) + (a + d - a)) / E - 1 = (4 * (10 * a ^ 2 + 5 * a * d + d ^ 2)) / E by
        field_simp; rw [← hE]; ring, div_div_div_cancel_right₀ q5, mul_div_mul_left _ _ (by norm_num : (4:K) ≠ 0)]
  have c4 : (3 + 2 * (a + d - a) * (-10 * (1 / 2 * (a + d + a)) + (a + d - a)) / (20 * (1 / 2 * (a + d + a) * (1 / 2 * (a + d + a))) + (a + d - a) * (a + d - a)) + 1) /
      (3 + 2 * (a + d - a) * (10 * (1 / 2 * (a + d + a)) + (a + d - a)) / (20 * (1 / 2 * (a + d + a) * (1 / 2 * (a + d + a))) + (a + d - a) * (a + d - a)) - 1)
      = (20 * a ^ 2 + 15 * a * d + 4 * d ^ 2) / (10 * a ^ 2 + 15 * a * d + 6 * d ^ 2) := by
    rw [D]
    generalize hE : 20 * a ^ 2 + 20 * a * d + 6 * d ^ 2 = E at q5
    rw [show 3 + 2 * (a + d - a) * (-10 * (1 / 2 * (a + d + a)) + (a + d - a)) / E + 1 = (4 * (20 * a ^ 2 + 15 * a * d + 4 * d ^ 2)) / E by
        field_simp; rw [← hE]; ring,
      show 3 + 2 * (a + d - a) * (10 * (1 / 2 * (a + d + a)) + (a + d - a)) / E - 1 = (4 * (10 * a ^ 2 + 15 * a * d + 6 * d ^ 2)) / E by
        field_simp; rw [← hE]; ring, div_div_div_cancel_right₀ q5, mul_div_mul_left _ _ (by norm_num : (4:K) ≠ 0)]
  rw [c1, c2, c3, c4]
  norm_num only [Nat.cast_one, Nat.cast_zero, Nat.cast_ofNat, Nat.reduceAdd]
  rw [e1, e2, e3, e4]
  constructor
  · intro hs
    obtain rfl : a1 = -(2 * a2 * (a + d)) := eq_neg_of_add_eq_zero_left hs
    constructor <;> field_simp <;> ring
  · intro hs
    obtain rfl : a1 = -(2 * a2 * a) := eq_neg_of_add_eq_zero_left hs
    constructor <;> field_simp <;> ring

example : let m : Line ℚ := cylLine fun i => (i : ℚ)
    m.dxf 3 = m.xf (3 + 1) - m.xf 3 ∧ m.xf 3 < m.xf (3 + 1) ∧ 0 ≤ m.xf 3 := by
  norm_num [cylLine]

/-- The radial meshes of cylindrical and spherical coordinates satisfy the hypotheses of
`plm_x1_limited`: any increasing faces at non-negative radius give `Cell`; uniform faces at
radius `k h` give `Smooth` for `k ≥ 1` (cylindrical) and `k ≥ 2` (spherical). -/
theorem plm_radial_mesh (xf : Int → K) (i : Int) (h0 : 0 ≤ xf (i - 1)) (h1 : xf (i - 1) < xf i)
    (h2 : xf i < xf (i + 1)) (h3 : xf (i + 1) < xf (i + 1 + 1)) :
    ((cylLine xf).Cell i ∧ (sphLine xf).Cell i) ∧
    ∀ k h : K, 0 < h → (∀ c : Int, xf c = (k + ((c - i : Int) : K)) * h) →
      (1 ≤ k → (cylLine xf).Smooth i) ∧ (2 ≤ k → (sphLine xf).Smooth i) :=
  ⟨⟨cyl_cell xf i h0 h1 h2 h3, sph_cell xf i h0 h1 h2 h3⟩, fun _ _ hh hx =>
    ⟨fun hk => cyl_smooth xf i hk hh hx, fun hk => sph_smooth xf i hk hh hx⟩⟩

/-- On a uniform mesh linear data pass all the limiters: the states are exact. -/
theorem ppm_uniform_linear (ext : Bool) (a b : K) (i : Int) :
    ppmCell ext true false (uniformW : Weights K) i ⟨a - 2 * b, a - b, a, a + b, a + 2 * b⟩
      = (a - b / 2, a + b / 2) := by
  rcases eq_or_ne b 0 with rfl | hb
  · have := ppm_constant (ext := ext) (uniform := true) (curv := false) (w := (uniformW : Weights K))
      (i := i) a (by norm_num [uniformW]) (by norm_num [uniformW])
    simpa using this
  · have e1 : (1 / 2 * (a - b) + 1 / 2 * a + (1 / 6 * (1 / 2 * (a - (a - b)) + 1 / 2 * (a - b - (a - 2 * b)))
        + -1 / 6 * (1 / 2 * (a + b - a) + 1 / 2 * (a - (a - b))))) = a - b / 2 := by ring
    have e2 : (1 / 2 * a + 1 / 2 * (a + b) + (1 / 6 * (1 / 2 * (a + b - a) + 1 / 2 * (a - (a - b)))
        + -1 / 6 * (1 / 2 * (a + 2 * b - (a + b)) + 1 / 2 * (a + b - a)))) = a + b / 2 := by ring
    have hf : ppmFace false (uniformW : Weights K) i ⟨a - 2 * b, a - b, a, a + b, a + 2 * b⟩
        = (a - b / 2, a + b / 2) := by
      simp only [ppmFace, uniformW, Bool.not_false, if_true]
      exact Prod.ext e1 e2
    have hsq : 0 < b * b := mul_self_pos.2 hb
    have f1 : ∀ da db, limitFaceU (a - b) a da db (a - b / 2) = a - b / 2 := fun da db => by
      simp only [limitFaceU]
      rw [if_neg (not_lt.2 _)]
      nlinarith
    have f2 : ∀ da db, limitFaceU a (a + b) da db (a + b / 2) = a + b / 2 := fun da db => by
      simp only [limitFaceU]
      rw [if_neg (not_lt.2 _)]
      nlinarith
    have habs : 0 < |b / 2| := abs_pos.2 (by simpa using hb)
    have d1 : a - (a - b / 2) = b / 2 := by ring
    have d2 : a + b / 2 - a = b / 2 := by ring
    have d3 : a + b - a = b := by ring
    have d4 : a - (a - b) = b := by ring
    have n1 : ¬ (|b / 2| ≥ 2 * |b / 2|) := by linarith
    simp only [ppmCell, hf, Bool.not_false, Bool.and_true, if_true, f1, f2]
    cases ext
    · simp only [Bool.false_eq_true, if_false, limitCellM, d1, d2, uniformW, n1]
      rw [if_neg (by nlinarith)]
    · simp only [if_true, limitCellE, d1, d2, d3, d4, n1, if_false]
      have n2 : ¬ (b / 2 * (b / 2) ≤ 0 ∨ b * b ≤ 0) := by
        rw [not_or, not_le, not_le]; constructor <;> nlinarith
      rw [if_neg n2]

end

/-- **Defect (radial PPM weights).** The weights for uniform radial meshes are computed from the
index of the face in its block, as if the block began on the axis. In a block that begins at
`r = 10` (unit cells) the volume averages of the function `r` are not reproduced: the interface
average at `r = 10` is not `10`. In a block on the axis the same happens at the ghost face `is-1`,
because the index is made positive without reversing the stencil. -/
theorem ppm_radial_offset :
    (let v := fun c : Int => avg 1 1 ((c : ℚ) + 10) (c + 11)
     (ppmFace true (cylW 0 (cylLine fun i => (i : ℚ) + 10)) 0 ⟨v (-2), v (-1), v 0, v 1, v 2⟩).1 ≠ 10) ∧
    (let v := fun c : Int => avg 2 1 ((c : ℚ) + 10) (c + 11)
     (ppmFace true (sphW 0 (sphLine fun i => (i : ℚ) + 10)) 0 ⟨v (-2), v (-1), v 0, v 1, v 2⟩).1 ≠ 10) ∧
    (let v := fun c : Int => avg 1 1 (c : ℚ) (c + 1)
     (ppmFace true (cylW 0 (cylLine fun i => (i : ℚ))) (-1) ⟨v (-3), v (-2), v (-1), v 0, v 1⟩).1 ≠ -1) := by
  refine ⟨?_, ?_, ?_⟩ <;> decide +kernel

end Verif.Recon
