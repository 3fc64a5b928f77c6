import Verif.Lemmas.OrbitalRows
import Mathlib.MeasureTheory.Integral.IntervalIntegral.FundThmCalculus
import Mathlib.Analysis.Calculus.Deriv.Add
import Mathlib.Analysis.Calculus.Deriv.Mul
import Mathlib.Analysis.Calculus.Deriv.Pow
import Mathlib.Tactic.LinearCombination
import Mathlib.Tactic.FieldSimp
import Mathlib.Tactic.IntervalCases

/-! Helper lemmas for orbital advection: displaced profiles, rows. -/
namespace Verif.Orbital
open Verif.Arr Set

section
variable {K : Type} [Field K] [LinearOrder K] [FloorRing K]

/-- The new value of cell `c` of a row `U` of any length. -/
def moved (ppm : Bool) (olen dx : K) (U : ℤ → K) (c : ℤ) : K :=
  let off := offset olen dx
  let F := fun c => remapFlux ppm (epsilon olen dx) (off > 0) U (c - off)
  U (c - off + if off > 0 then 1 else 0) - (F (c + 1) - F c)
end

/-- What a step along a row does to the block arrays. -/
theorem calc_row {K : Type} [Field K] [LinearOrder K] [FloorRing K] (ppm : Bool) (r : Rows) (off : ℤ × ℤ → ℤ)
    (eps : ℤ × ℤ → K) (H : Buf K) (u : Var K) (U : ℤ → K) {olen dx : K} {n a i o c : ℤ} (hr : r.Has n a i)
    (h0 : r.os ≤ o) (h1 : o ≤ r.oe) (hoff : off (a, i) = offset olen dx) (heps : eps (a, i) = epsilon olen dx)
    (hg : (if ppm then 2 else 1) ≤ r.xgh)
    (hH : ∀ y, r.os - r.xgh - off (a, i) ≤ y → y ≤ r.oe + 1 + r.xgh - off (a, i) →
      H (n, a, i, y + if off (a, i) > 0 then r.onx else 0) = U (c + (y - o))) :
    calcCC ppm r off eps H u (n, a, o, i) = moved ppm olen dx U c := by
  rw [calcCC_val ppm r off eps H u hr h0 h1]
  unfold moved
  have hg1 : 1 ≤ r.xgh := by split_ifs at hg <;> omega
  have key : ∀ o' c' : ℤ, r.os ≤ o' → o' ≤ r.oe + 1 → c' = c + (o' - o) →
      remapFlux ppm (eps (a, i)) (decide (off (a, i) > 0)) (fun x => H (n, a, i, x))
        (o' + ((if off (a, i) > 0 then 1 else 0) * r.onx - off (a, i))) =
      remapFlux ppm (epsilon olen dx) (decide (offset olen dx > 0)) U (c' - offset olen dx) := by
    intro o' c' ho0 ho1 hc
    rw [← hoff, ← heps]
    apply remapFlux_congr _ _ _ _ _ _ _ r.xgh hg
    intro t t0 t1
    have := hH (o' - off (a, i) + t) (by omega) (by omega)
    rw [show U (c' - off (a, i) + t) = U (c + (o' - off (a, i) + t - o)) by congr 1; omega, ← this]
    show H _ = H _
    congr 4
    split_ifs <;> ring
  dsimp only
  rw [key (o + 1) (c + 1) (by omega) (by omega) (by omega), key o c h0 (by omega) (by omega), ← hoff]
  congr 1
  have := hH (o - off (a, i) + if off (a, i) > 0 then 1 else 0) (by split_ifs <;> omega) (by split_ifs <;> omega)
  rw [show U (c - off (a, i) + if off (a, i) > 0 then 1 else 0) =
    U (c + (o - off (a, i) + (if off (a, i) > 0 then 1 else 0) - o)) by congr 1; ring, ← this]
  congr 4
  split_ifs <;> ring

/-! ### Integer and fractional part of the displacement -/
section
variable {K : Type} [Field K] [LinearOrder K] [IsStrictOrderedRing K] [FloorRing K]

/-- Displacement to the right. -/
theorem off_pos {olen dx : K} (hdx : 0 < dx) (h : 0 < olen) : offset olen dx = ⌊olen / dx⌋ + 1 ∧
    epsilon olen dx = Int.fract (olen / dx) ∧ 0 < offset olen dx := by
  have hq : 0 ≤ olen / dx := (div_pos h hdx).le
  have ht : trunc (olen / dx) = ⌊olen / dx⌋ := if_pos hq
  have h0 : 0 ≤ ⌊olen / dx⌋ := Int.floor_nonneg.2 hq
  refine ⟨by rw [offset, if_pos h, ht], ?_, by rw [offset, if_pos h, ht]; omega⟩
  unfold epsilon Int.fract
  rw [ht, sub_div, mul_div_cancel_left₀ _ hdx.ne']

/-- No displacement, or to the left. -/
theorem off_neg {olen dx : K} (hdx : 0 < dx) (h : olen ≤ 0) : offset olen dx = ⌈olen / dx⌉ ∧
    epsilon olen dx = olen / dx - ⌈olen / dx⌉ ∧ ¬ 0 < offset olen dx := by
  have hq : olen / dx ≤ 0 := div_nonpos_of_nonpos_of_nonneg h hdx.le
  have ht : trunc (olen / dx) = ⌈olen / dx⌉ := by
    unfold trunc
    split_ifs with h'
    · rw [le_antisymm hq h']; simp
    · rfl
  have h0 : ⌈olen / dx⌉ ≤ 0 := Int.ceil_le.2 (by simpa using hq)
  refine ⟨by rw [offset, if_neg (by simpa using h), ht], ?_, by rw [offset, if_neg (by simpa using h), ht]; omega⟩
  unfold epsilon
  rw [ht, sub_div, mul_div_cancel_left₀ _ hdx.ne']

/-- The flux through the left face of a cell is the content of a piece of the upwind cell: `A c x` is the
content of the part `[0, x]` of cell `c`. -/
structure Pieces (ppm : Bool) (U : ℤ → K) (A : ℤ → K → K) : Prop where
  zero : ∀ c, A c 0 = 0
  one : ∀ c, A c 1 = U c
  right : ∀ c e, remapFlux ppm e true U c = A c 1 - A c (1 - e)
  left : ∀ c e, remapFlux ppm (-e) false U c = -A c e

/-- The new value consists of the end of one cell and the beginning of the next. -/
theorem moved_pieces {ppm : Bool} {U : ℤ → K} {A : ℤ → K → K} (hA : Pieces ppm U A) {olen dx : K} (hdx : 0 < dx) (c : ℤ) :
    let m := ⌊olen / dx⌋
    let e := Int.fract (olen / dx)
    moved ppm olen dx U c = (A (c - m - 1) 1 - A (c - m - 1) (1 - e)) + A (c - m) (1 - e) := by
  intro m e
  unfold moved
  rcases lt_or_ge 0 olen with h | h
  · obtain ⟨h1, h2, h3⟩ := off_pos hdx h
    have h4 : (decide (offset olen dx > 0)) = true := by simpa using h3
    dsimp only
    rw [h4, if_pos h3, hA.right, hA.right, h1, h2, ← hA.one]
    have e1 : c - (⌊olen / dx⌋ + 1) + 1 = c - m := by simp only [m]; ring
    have e2 : c + 1 - (⌊olen / dx⌋ + 1) = c - m := by simp only [m]; ring
    have e3 : c - (⌊olen / dx⌋ + 1) = c - m - 1 := by simp only [m]; ring
    rw [e1, e2, e3]
    ring
  · obtain ⟨h1, h2, h3⟩ := off_neg hdx h
    have h4 : (decide (offset olen dx > 0)) = false := by simpa using h3
    dsimp only
    rw [h4, if_neg h3, h1, h2]
    set d := olen / dx
    have e0 : d - (⌈d⌉ : K) = -((⌈d⌉ : K) - d) := by ring
    rw [e0, hA.left, hA.left, add_zero, ← hA.one]
    rcases eq_or_ne (Int.fract d) 0 with hf | hf
    · have hc : (⌈d⌉ : K) = d := by
        rw [Int.fract, sub_eq_zero] at hf
        rw [hf, Int.ceil_intCast, ← hf]
      have hm : ⌈d⌉ = m := by
        have : ((⌈d⌉ : ℤ) : K) = (m : K) := by rw [hc]; rw [Int.fract, sub_eq_zero] at hf; exact hf
        exact_mod_cast this
      have hf' : e = 0 := hf
      rw [hc, sub_self, hA.zero, hA.zero, hf', hm, sub_zero]
      ring
    · have hm : ⌈d⌉ = m + 1 := (Int.ceil_eq_floor_add_one_iff_notMem d).2 (by
        rintro ⟨z, hz⟩
        exact hf (by rw [← hz]; simp))
      have e1 : (⌈d⌉ : K) - d = 1 - e := by
        rw [hm]; simp only [e, Int.fract, m]; push_cast; ring
      rw [e1, hm, show c - (m + 1) = c - m - 1 by ring, show c + 1 - (m + 1) = c - m by ring]
      ring

theorem plm_pieces (U : ℤ → K) : Pieces false U (fun c x => U c * x +
    (let a := U c - U (c - 1); let b := U (c + 1) - U c; if a * b ≤ 0 then 0 else 2 * (a * b) / (a + b)) * (x * (x - 1) / 2)) where
  zero c := by ring
  one c := by ring
  right c e := by simp only [remapFlux, fluxPlm, Bool.false_eq_true, if_false, if_true]; split_ifs <;> ring
  left c e := by simp only [remapFlux, fluxPlm, Bool.false_eq_true, if_false]; split_ifs <;> ring

theorem ppm_pieces (U : ℤ → K) : Pieces true U (fun c x =>
    let m := (ppmCell U c).1; let p := (ppmCell U c).2; let s := 6 * (U c - (m + p) / 2)
    m * x + (p - m + s) * x ^ 2 / 2 - s * x ^ 3 / 3) where
  zero c := by ring
  one c := by ring
  right c e := by simp only [remapFlux, fluxPpm, if_true]; ring
  left c e := by simp only [remapFlux, fluxPpm, if_true, Bool.false_eq_true, if_false]; ring

/-- Between the two neighbouring values. -/
theorem moved_between (U : ℤ → K) {olen dx : K} (hdx : 0 < dx) (c : ℤ) :
    let m := ⌊olen / dx⌋
    min (U (c - m - 1)) (U (c - m)) ≤ moved false olen dx U c ∧ moved false olen dx U c ≤ max (U (c - m - 1)) (U (c - m)) := by
  intro m
  rw [moved_pieces (plm_pieces U) hdx c]
  set e := Int.fract (olen / dx) with he
  have e0 : 0 ≤ e := Int.fract_nonneg _
  have e1 : e < 1 := Int.fract_lt_one _
  have em : ⌊olen / dx⌋ = m := rfl
  rw [em]
  have i1 : c - m - 1 + 1 = c - m := by ring
  dsimp only
  rw [i1]
  set L := U (c - m - 1)
  set R := U (c - m)
  -- a slope lies between 0 and twice the difference to a neighbour
  have lim : ∀ a b : K, ∃ s, (if a * b ≤ 0 then 0 else 2 * (a * b) / (a + b)) = s ∧
      ((0 ≤ a → 0 ≤ s ∧ s ≤ 2 * a) ∧ (a ≤ 0 → 2 * a ≤ s ∧ s ≤ 0)) ∧
      ((0 ≤ b → 0 ≤ s ∧ s ≤ 2 * b) ∧ (b ≤ 0 → 2 * b ≤ s ∧ s ≤ 0)) := by
    intro a b
    refine ⟨_, rfl, ?_⟩
    split_ifs with hab
    · refine ⟨⟨?_, ?_⟩, ?_, ?_⟩ <;> intro h <;> constructor <;> linarith
    · rw [not_le] at hab
      rcases lt_trichotomy a 0 with ha | ha | ha
      · have hb : b < 0 := by by_contra hb; nlinarith [not_lt.1 hb]
        have hs : a + b < 0 := by linarith
        have k1 : 2 * a ≤ 2 * (a * b) / (a + b) := by rw [le_div_iff_of_neg hs]; nlinarith
        have k2 : 2 * b ≤ 2 * (a * b) / (a + b) := by rw [le_div_iff_of_neg hs]; nlinarith
        have k3 : 2 * (a * b) / (a + b) ≤ 0 := (div_neg_of_pos_of_neg (by linarith) hs).le
        exact ⟨⟨fun h => absurd h (by linarith), fun _ => ⟨k1, k3⟩⟩, fun h => absurd h (by linarith), fun _ => ⟨k2, k3⟩⟩
      · rw [ha] at hab; simp at hab
      · have hb : 0 < b := by by_contra hb; nlinarith [not_lt.1 hb]
        have hs : 0 < a + b := by linarith
        have k1 : 2 * (a * b) / (a + b) ≤ 2 * a := by rw [div_le_iff₀ hs]; nlinarith
        have k2 : 2 * (a * b) / (a + b) ≤ 2 * b := by rw [div_le_iff₀ hs]; nlinarith
        have k3 : 0 ≤ 2 * (a * b) / (a + b) := (div_pos (by linarith) hs).le
        exact ⟨⟨fun _ => ⟨k3, k1⟩, fun h => absurd h (by linarith)⟩, fun _ => ⟨k3, k2⟩, fun h => absurd h (by linarith)⟩
  obtain ⟨sL, hL, -, hLb⟩ := lim (L - U (c - m - 1 - 1)) (R - L)
  obtain ⟨sR, hR, hRa, -⟩ := lim (R - L) (U (c - m + 1) - R)
  rw [hL]
  have hR' : (if (R - L) * (U (c - m + 1) - R) ≤ 0 then 0 else 2 * ((R - L) * (U (c - m + 1) - R)) / (R - L + (U (c - m + 1) - R))) = sR := hR
  rw [hR']
  have ev : L * 1 + sL * (1 * (1 - 1) / 2) - (L * (1 - e) + sL * ((1 - e) * (1 - e - 1) / 2)) +
      (R * (1 - e) + sR * ((1 - e) * (1 - e - 1) / 2)) = L + (1 - e) * (R - L) + e * (1 - e) / 2 * (sL - sR) := by ring
  rw [ev]
  have p1 : 0 ≤ e * (1 - e) := mul_nonneg e0 (by linarith)
  rcases le_total 0 (R - L) with hd | hd
  · have l1 := hLb.1 hd
    have r1 := hRa.1 hd
    rw [min_eq_left (by linarith), max_eq_right (by linarith)]
    constructor
    · nlinarith [mul_nonneg p1 (by linarith : 0 ≤ 2 * (R - L) - sR), mul_nonneg p1 l1.1, mul_nonneg (mul_nonneg (by linarith : (0:K) ≤ 1 - e) (by linarith : (0:K) ≤ 1 - e)) hd]
    · nlinarith [mul_nonneg p1 (by linarith : 0 ≤ 2 * (R - L) - sL), mul_nonneg p1 r1.1, mul_nonneg (mul_nonneg e0 e0) hd]
  · have l1 := hLb.2 hd
    have r1 := hRa.2 hd
    have hd' : 0 ≤ L - R := by linarith
    rw [min_eq_right (by linarith), max_eq_left (by linarith)]
    constructor
    · nlinarith [mul_nonneg p1 (by linarith : 0 ≤ sL - 2 * (R - L)), mul_nonneg p1 (by linarith : 0 ≤ -sR), mul_nonneg (mul_nonneg e0 e0) hd']
    · nlinarith [mul_nonneg p1 (by linarith : 0 ≤ sR - 2 * (R - L)), mul_nonneg p1 (by linarith : 0 ≤ -sL), mul_nonneg (mul_nonneg (by linarith : (0:K) ≤ 1 - e) (by linarith : (0:K) ≤ 1 - e)) hd']
end

section
variable {K : Type} [Field K] [LinearOrder K] [IsStrictOrderedRing K]

theorem ppmCell_linear (U : ℤ → K) (y : ℤ) (p q w : K) (a2 : U (y - 2) = p + q * (w - 2)) (a1 : U (y - 1) = p + q * (w - 1))
    (a0 : U y = p + q * w) (b1 : U (y + 1) = p + q * (w + 1)) (b2 : U (y + 2) = p + q * (w + 2)) :
    ppmCell U y = (p + q * (w - 1 / 2), p + q * (w + 1 / 2)) := by
  unfold ppmCell
  dsimp only
  rw [a2, a1, a0, b1, b2]
  have F : ∀ a c da dc f : K, 0 ≤ (f - a) * (c - f) → ppmFace a c da dc f = f := by
    intro a c da dc f hf
    unfold ppmFace
    dsimp only
    rw [if_neg (by linarith)]
  have q2 : 0 ≤ q * q := mul_self_nonneg q
  have g1 : (1:K) / 2 * (p + q * (w - 1) + (p + q * w)) + (1 / 2 * (p + q * w - (p + q * (w - 1)) + (p + q * (w - 1)) - (p + q * (w - 2))) -
      1 / 2 * (p + q * (w + 1) - (p + q * w) + (p + q * w - (p + q * (w - 1))))) / 6 = p + q * (w - 1 / 2) := by ring
  have g2 : (1:K) / 2 * (p + q * w + (p + q * (w + 1))) + (1 / 2 * (p + q * (w + 1) - (p + q * w) + (p + q * w - (p + q * (w - 1)))) -
      1 / 2 * (p + q * (w + 2) - (p + q * (w + 1)) + (p + q * (w + 1) - (p + q * w)))) / 6 = p + q * (w + 1 / 2) := by ring
  have k1 : (p + q * (w - 1 / 2) - (p + q * (w - 1))) * (p + q * w - (p + q * (w - 1 / 2))) = q * q / 4 := by ring
  have k2 : (p + q * (w + 1 / 2) - (p + q * w)) * (p + q * (w + 1) - (p + q * (w + 1 / 2))) = q * q / 4 := by ring
  have h4 : 0 ≤ q * q / 4 := by linarith
  rw [g1, g2, F _ _ _ _ (p + q * (w - 1 / 2)) (k1 ▸ h4), F _ _ _ _ (p + q * (w + 1 / 2)) (k2 ▸ h4)]
  have z1 : 6 * (p + q * (w - 1 / 2) + (p + q * (w + 1 / 2)) - 2 * (p + q * w)) = 0 := by ring
  have z2 : p + q * w - (p + q * (w - 1 / 2)) = q / 2 := by ring
  have z3 : p + q * (w + 1 / 2) - (p + q * w) = q / 2 := by ring
  have z4 : p + q * (w + 1) - (p + q * w) = q := by ring
  have z5 : p + q * w - (p + q * (w - 1)) = q := by ring
  simp only [z1, z2, z3, z4, z5, div_zero, ite_self]
  by_cases hq : q = 0
  · subst hq
    rw [if_pos (Or.inl (by simp)), if_pos (by norm_num)]
    simp
  · have qp : 0 < q * q := mul_self_pos.2 hq
    have qh : q / 2 * (q / 2) = q * q / 4 := by ring
    rw [if_neg (by rw [not_or, qh]; constructor <;> linarith)]
    have : 0 < |q / 2| := abs_pos.2 (div_ne_zero hq two_ne_zero)
    rw [if_neg (by linarith), if_neg (by linarith)]
end

/-! ### Integrals -/

/-- The mean of a displaced piecewise smooth profile. -/
theorem displaced_pieces (p A : ℤ → ℝ → ℝ) (hc : ∀ c, Continuous (p c)) (hd : ∀ c t, HasDerivAt (A c) (p c t) t)
    (d : ℝ) (c : ℤ) :
    displaced (fun x => p ⌊x⌋ (Int.fract x)) d c =
      (A (c - ⌊d⌋ - 1) 1 - A (c - ⌊d⌋ - 1) (1 - Int.fract d)) + (A (c - ⌊d⌋) (1 - Int.fract d) - A (c - ⌊d⌋) 0) := by
  unfold displaced
  set e := Int.fract d with he
  have e0 : 0 ≤ e := Int.fract_nonneg _
  have e1 : e < 1 := Int.fract_lt_one _
  have hde : d = ⌊d⌋ + e := (Int.floor_add_fract d).symm
  set q : ℤ := c - ⌊d⌋ with hq
  have hl : (c : ℝ) - d = q - e := by rw [hq]; push_cast; linarith
  have hr : (c : ℝ) + 1 - d = q + (1 - e) := by rw [hq]; push_cast; linarith
  rw [hl, hr]
  -- one piece
  have piece : ∀ (z : ℤ) (s t : ℝ), 0 ≤ s → s ≤ t → t ≤ 1 →
      IntervalIntegrable (fun x => p ⌊x⌋ (Int.fract x)) MeasureTheory.volume (z + s) (z + t) ∧
      ∫ x in ((z : ℝ) + s)..(z + t), p ⌊x⌋ (Int.fract x) = A z t - A z s := by
    intro z s t hs hst ht
    have hle : (z : ℝ) + s ≤ z + t := by linarith
    have eqOn : EqOn (fun x => p ⌊x⌋ (Int.fract x)) (fun x => p z (x - z)) (Ioo ((z : ℝ) + s) (z + t)) := by
      intro x hx
      have hf : ⌊x⌋ = z := Int.floor_eq_iff.2 ⟨by linarith [hx.1], by linarith [hx.2]⟩
      show p ⌊x⌋ (Int.fract x) = p z (x - z)
      rw [Int.fract, hf]
    have cont : Continuous fun x : ℝ => p z (x - z) := (hc z).comp (continuous_id.sub continuous_const)
    constructor
    · apply IntervalIntegrable.congr_uIoo (cont.intervalIntegrable _ _)
      rw [uIoo_of_le hle]
      exact eqOn.symm
    · rw [intervalIntegral.integral_congr_Ioo_of_le hle eqOn]
      rw [intervalIntegral.integral_eq_sub_of_hasDerivAt (f := fun x => A z (x - z))]
      · simp
      · intro x _
        have := (hd z (x - z)).comp x ((hasDerivAt_id x).sub_const (z : ℝ))
        rw [mul_one] at this
        exact this
      · exact cont.intervalIntegrable _ _
  obtain ⟨i1, v1⟩ := piece (q - 1) (1 - e) 1 (by linarith) (by linarith) (by linarith)
  obtain ⟨i2, v2⟩ := piece q 0 (1 - e) le_rfl (by linarith) (by linarith)
  have b1 : (((q - 1 : ℤ) : ℝ) + (1 - e)) = q - e := by push_cast; ring
  have b2 : (((q - 1 : ℤ) : ℝ) + 1) = q := by push_cast; ring
  rw [b1, b2] at i1 v1
  rw [add_zero] at i2 v2
  rw [← intervalIntegral.integral_add_adjacent_intervals i1 i2, v1, v2]

theorem moved_linear (U : ℤ → ℝ) {olen dx : ℝ} (hdx : 0 < dx) (c : ℤ) :
    moved false olen dx U c = displaced (linear U) (olen / dx) c := by
  rw [moved_pieces (plm_pieces U) hdx c]
  have := displaced_pieces (fun c t => U c + vanLeer (U c - U (c - 1)) (U (c + 1) - U c) * (t - 1 / 2))
    (fun c x => U c * x + vanLeer (U c - U (c - 1)) (U (c + 1) - U c) * (x * (x - 1) / 2))
    (fun c => by fun_prop) (fun c t => by
      set s := vanLeer (U c - U (c - 1)) (U (c + 1) - U c)
      have h := ((hasDerivAt_id t).const_mul (U c)).add
        (((((hasDerivAt_id t).mul ((hasDerivAt_id t).sub_const 1))).div_const 2).const_mul s)
      refine h.congr_deriv ?_
      simp only [id]; ring) (olen / dx) c
  have e : displaced (linear U) (olen / dx) c = displaced (fun x =>
    (fun c t => U c + vanLeer (U c - U (c - 1)) (U (c + 1) - U c) * (t - 1 / 2)) ⌊x⌋ (Int.fract x)) (olen / dx) c := rfl
  rw [e, this]
  simp only [vanLeer]
  ring

theorem moved_parabolic (U : ℤ → ℝ) {olen dx : ℝ} (hdx : 0 < dx) (c : ℤ) :
    moved true olen dx U c = displaced (parabolic U (ppmCell U)) (olen / dx) c := by
  rw [moved_pieces (ppm_pieces U) hdx c]
  have := displaced_pieces (fun c t => (ppmCell U c).1 + t * ((ppmCell U c).2 - (ppmCell U c).1 +
      6 * (U c - ((ppmCell U c).1 + (ppmCell U c).2) / 2) * (1 - t)))
    (fun c x =>
    let m := (ppmCell U c).1; let p := (ppmCell U c).2; let s := 6 * (U c - (m + p) / 2)
    m * x + (p - m + s) * x ^ 2 / 2 - s * x ^ 3 / 3)
    (fun c => by fun_prop) (fun c t => by
      set m := (ppmCell U c).1
      set p := (ppmCell U c).2
      set s := 6 * (U c - (m + p) / 2)
      have h := (((hasDerivAt_id t).const_mul m).add
        (((hasDerivAt_pow 2 t).const_mul (p - m + s)).div_const 2)).sub (((hasDerivAt_pow 3 t).const_mul s).div_const 3)
      refine h.congr_deriv ?_
      simp only [Nat.cast_ofNat, Nat.add_one_sub_one, pow_one]; ring) (olen / dx) c
  have e : displaced (parabolic U (ppmCell U)) (olen / dx) c = displaced (fun x =>
    (fun c t => (ppmCell U c).1 + t * ((ppmCell U c).2 - (ppmCell U c).1 +
      6 * (U c - ((ppmCell U c).1 + (ppmCell U c).2) / 2) * (1 - t))) ⌊x⌋ (Int.fract x)) (olen / dx) c := rfl
  rw [e, this]
  ring

/-! ### Totals -/
section
variable {K : Type} [Field K]

theorem sum_shift (M : ℕ) (f : ℤ → K) (hf : ∀ c, f (c + M) = f c) (s : ℤ) :
    ∑ t ∈ Finset.range M, f (t + s) = ∑ t ∈ Finset.range M, f t := by
  have step : ∀ s : ℤ, ∑ t ∈ Finset.range M, f (t + (s + 1)) = ∑ t ∈ Finset.range M, f (t + s) := by
    intro s
    have h1 := Finset.sum_range_succ (fun t : ℕ => f (t + s)) M
    have h2 := Finset.sum_range_succ' (fun t : ℕ => f (t + s)) M
    have h3 : f ((M : ℤ) + s) = f (((0 : ℕ) : ℤ) + s) := by rw [add_comm, hf]; simp
    have h4 : ∑ t ∈ Finset.range M, f (((t + 1 : ℕ) : ℤ) + s) = ∑ t ∈ Finset.range M, f (t + (s + 1)) := by
      apply Finset.sum_congr rfl; intro t _; congr 1; push_cast; ring
    rw [h4] at h2
    rw [h1, h3] at h2
    exact (add_right_cancel h2).symm
  induction s using Int.induction_on with
  | zero => simp
  | succ n ih => rw [step, ih]
  | pred n ih => rw [← ih, ← step]; simp

theorem sum_blocks (N n : ℕ) (f : ℤ → K) :
    ∑ b ∈ Finset.range N, ∑ t ∈ Finset.range n, f ((b : ℤ) * n + t) = ∑ c ∈ Finset.range (N * n), f c := by
  induction N with
  | zero => simp
  | succ N ih =>
    rw [Finset.sum_range_succ, ih, Nat.succ_mul, Finset.sum_range_add]
    push_cast
    rfl

theorem sum_moved [LinearOrder K] [FloorRing K] (ppm : Bool) (olen dx : K) (U : ℤ → K) (M : ℕ)
    (hU : ∀ c, U (c + M) = U c) :
    ∑ c ∈ Finset.range M, moved ppm olen dx U c = ∑ c ∈ Finset.range M, U c := by
  unfold moved
  dsimp only
  set off := offset olen dx
  set F := fun c : ℤ => remapFlux ppm (epsilon olen dx) (decide (off > 0)) U (c - off) with hF
  have hper : ∀ c, F (c + M) = F c := by
    intro c
    simp only [hF]
    apply remapFlux_congr _ _ _ _ _ _ _ 2 (by split_ifs <;> omega)
    intro t _ _
    rw [← hU (c - off + t)]
    congr 1; ring
  rw [Finset.sum_sub_distrib]
  have h1 : ∑ x ∈ Finset.range M, (F ((x : ℤ) + 1) - F x) = 0 := by
    rw [Finset.sum_sub_distrib, sum_shift M F hper 1, sub_self]
  have h2 : ∑ x ∈ Finset.range M, U ((x : ℤ) - off + if off > 0 then 1 else 0) = ∑ x ∈ Finset.range M, U x := by
    rw [← sum_shift M U hU (-off + if off > 0 then 1 else 0)]
    apply Finset.sum_congr rfl
    intro x _
    congr 1; ring
  rw [h2]
  have h1' : ∑ x ∈ Finset.range M, (remapFlux ppm (epsilon olen dx) (decide (off > 0)) U ((x : ℤ) + 1 - off) -
      remapFlux ppm (epsilon olen dx) (decide (off > 0)) U ((x : ℤ) - off)) = 0 := h1
  rw [h1', sub_zero]
end

/-! ### Fluxes of the magnetic field -/
section
variable {K : Type} [Field K]

theorem loop_add_tele (n : ℕ) (f : ℤ → K) (p p' : K) :
    loop 1 (n : ℤ) (fun jj p => p + f (jj + 1)) p - loop 1 (n : ℤ) (fun jj p => p + f jj) p' = p - p' + f (n + 1) - f 1 := by
  unfold loop rng
  rw [show ((n : ℤ) + 1 - 1).toNat = n by omega, List.foldl_map, List.foldl_map]
  induction n with
  | zero => simp
  | succ n ih =>
    rw [List.range_succ, List.foldl_append, List.foldl_append]
    simp only [List.foldl_cons, List.foldl_nil]
    have e1 : f (1 + (n : ℤ) + 1) = f (((n + 1 : ℕ) : ℤ) + 1) := by congr 1; push_cast; ring
    have e2 : f (1 + (n : ℤ)) = f ((n : ℤ) + 1) := by congr 1; ring
    rw [e1, e2]
    linear_combination ih

theorem loop_sub_tele (n : ℕ) (f : ℤ → K) (p p' : K) :
    loop 0 ((n : ℤ) - 1) (fun m p => p - f (n - m)) p - loop 0 ((n : ℤ) - 1) (fun m p => p - f (n - m - 1)) p' =
      p - p' - f n + f 0 := by
  unfold loop rng
  rw [show ((n : ℤ) - 1 + 1 - 0).toNat = n by omega, List.foldl_map, List.foldl_map]
  have key : ∀ k : ℕ, ∀ N : ℤ, List.foldl (fun (st : K) (i : ℕ) => st - f (N - (0 + (i : ℤ)))) p (List.range k) -
      List.foldl (fun (st : K) (i : ℕ) => st - f (N - (0 + (i : ℤ)) - 1)) p' (List.range k) = p - p' - f N + f (N - k) := by
    intro k N
    induction k with
    | zero => simp
    | succ k ih =>
      rw [List.range_succ, List.foldl_append, List.foldl_append]
      simp only [List.foldl_cons, List.foldl_nil]
      have e1 : f (N - (0 + (k : ℤ)) - 1) = f (N - ((k + 1 : ℕ) : ℤ)) := by congr 1; push_cast; ring
      have e2 : f (N - (0 + (k : ℤ))) = f (N - (k : ℤ)) := by congr 1; ring
      rw [e1, e2]
      linear_combination ih
  rw [key n n]
  simp

/-- The value after constrained transport with these fluxes is the displaced one: a row `q` of the orbital
buffer that holds the row `U` of the ring. -/
theorem pflux_moved [LinearOrder K] [FloorRing K] (ppm : Bool) (onx : ℤ) (olen dx : K) (q : ℤ → K) (U : ℤ → K)
    (os oe xgh o c : ℤ) (h0 : os ≤ o) (h1 : o ≤ oe)
    (hg : (if ppm then 2 else 1) ≤ xgh)
    (hq : ∀ y, (os - xgh - offset olen dx ≤ y ∨ os ≤ y) → (y ≤ oe + 1 + xgh - offset olen dx ∨ y ≤ oe) →
      q (y + if offset olen dx > 0 then onx else 0) = U (c + (y - o))) :
    U c - (pfluxFC ppm onx (offset olen dx) (epsilon olen dx) q (o + 1) - pfluxFC ppm onx (offset olen dx) (epsilon olen dx) q o) =
      moved ppm olen dx U c := by
  unfold moved pfluxFC
  set off := offset olen dx with hoff
  have hg1 : 1 ≤ xgh := by split_ifs at hg <;> omega
  have key : ∀ o' c' : ℤ, os ≤ o' → o' ≤ oe + 1 → c' = c + (o' - o) →
      remapFlux ppm (epsilon olen dx) (decide (off > 0)) q (o' + ((if decide (off > 0) = true then 1 else 0) * onx - off)) =
      remapFlux ppm (epsilon olen dx) (decide (off > 0)) U (c' - off) := by
    intro o' c' ho0 ho1 hc
    apply remapFlux_congr _ _ _ _ _ _ _ xgh hg
    intro t t0 t1
    have := hq (o' - off + t) (by omega) (by omega)
    rw [show U (c' - off + t) = U (c + (o' - off + t - o)) by congr 1; omega, ← this]
    congr 1
    simp only [decide_eq_true_eq]
    split_ifs <;> ring
  dsimp only
  rw [key (o + 1) (c + 1) (by omega) (by omega) (by omega), key o c h0 (by omega) (by omega)]
  set F1 := remapFlux ppm (epsilon olen dx) (decide (off > 0)) U (c + 1 - off)
  set F0 := remapFlux ppm (epsilon olen dx) (decide (off > 0)) U (c - off)
  by_cases hp : off > 0
  · simp only [hp, decide_true, if_true]
    have r2 : rng 0 (-off - 1) = [] := by unfold rng; rw [show (-off - 1 + 1 - 0).toNat = 0 by omega]; rfl
    have l2 : ∀ (f : ℤ → K → K) (x : K), loop 0 (-off - 1) f x = x := by intro f x; unfold loop; rw [r2]; rfl
    rw [l2, l2]
    obtain ⟨n, hn⟩ : ∃ n : ℕ, off - 1 = n := ⟨(off - 1).toNat, by omega⟩
    rw [hn]
    have tele := loop_add_tele n (fun t => q (o + (1 * onx - off + t))) F1 F0
    have e1 : loop 1 (n : ℤ) (fun jj p => p + q (o + 1 + (1 * onx - off + jj))) F1 =
        loop 1 (n : ℤ) (fun jj p => p + q (o + (1 * onx - off + (jj + 1)))) F1 := by
      congr 1; funext jj p; congr 2; ring
    rw [e1]
    have v1 : q (o + (1 * onx - off + ((n : ℤ) + 1))) = U c := by
      have := hq o (by omega) (by omega)
      rw [if_pos hp] at this
      rw [show o + (1 * onx - off + ((n : ℤ) + 1)) = o + onx by omega, this]
      congr 1; ring
    have v2 : q (o + (1 * onx - off + 1)) = U (c - off + 1) := by
      have := hq (o - off + 1) (by omega) (by omega)
      rw [if_pos hp] at this
      rw [show o + (1 * onx - off + 1) = o - off + 1 + onx by ring, this]
      congr 1; ring
    rw [v1, v2] at tele
    linear_combination -tele
  · simp only [hp, decide_false, if_false, Bool.false_eq_true]
    have r2 : rng 1 (off - 1) = [] := by unfold rng; rw [show (off - 1 + 1 - 1).toNat = 0 by omega]; rfl
    have l2 : ∀ (f : ℤ → K → K) (x : K), loop 1 (off - 1) f x = x := by intro f x; unfold loop; rw [r2]; rfl
    rw [l2, l2]
    obtain ⟨n, hn⟩ : ∃ n : ℕ, -off = n := ⟨(-off).toNat, by omega⟩
    rw [hn]
    have tele := loop_sub_tele n (fun t => q (o + t)) F1 F0
    have e1 : loop 0 ((n : ℤ) - 1) (fun m p => p - q (o + 1 + (0 * onx - off - m - 1))) F1 =
        loop 0 ((n : ℤ) - 1) (fun m p => p - q (o + ((n : ℤ) - m))) F1 := by
      congr 1; funext m p; congr 2; omega
    have e2 : loop 0 ((n : ℤ) - 1) (fun m p => p - q (o + (0 * onx - off - m - 1))) F0 =
        loop 0 ((n : ℤ) - 1) (fun m p => p - q (o + ((n : ℤ) - m - 1))) F0 := by
      congr 1; funext m p; congr 2; omega
    rw [e1, e2]
    have v1 : q (o + (n : ℤ)) = U (c - off + 0) := by
      have := hq (o - off) (by omega) (by omega)
      rw [if_neg hp] at this
      rw [show o + (n : ℤ) = o - off + 0 by omega, this]
      congr 1; ring
    have v2 : q (o + 0) = U c := by
      have := hq o (by omega) (by omega)
      rw [if_neg hp] at this
      rw [this]
      congr 1; ring
    rw [v1, v2] at tele
    linear_combination -tele
end

/-! ### Lengths of messages -/

theorem foldl_add {α : Type} (l : List α) (f : α → ℤ) (z : ℤ) : l.foldl (fun p x => p + f x) z = z + (l.map f).sum := by
  induction l generalizing z with
  | nil => simp
  | cons a l ih => simp only [List.foldl_cons, List.map_cons, List.sum_cons, ih]; ring

theorem count_sum (r : Rows) (f : ℤ → ℤ → ℤ) (z : ℤ) :
    loop r.a0 r.a1 (fun a => loop r.i0 r.i1 fun i => fun p => p + f a i) z =
      z + ((rng r.a0 r.a1).map fun a => ((rng r.i0 r.i1).map fun i => f a i).sum).sum := by
  unfold loop
  rw [show (fun (st : ℤ) (a : ℤ) => List.foldl (fun st i => st + f a i) st (rng r.i0 r.i1)) =
    fun st a => st + ((rng r.i0 r.i1).map fun i => f a i).sum from by funext st a; rw [foldl_add], foldl_add]

theorem countUp_add (r : Rows) (off : ℤ × ℤ → ℤ) (z : ℤ) : countUp r off z = z + countUp r off 0 := by
  unfold countUp
  rw [count_sum r (fun a i => max (off (a, i) + r.xgh) 0), count_sum r (fun a i => max (off (a, i) + r.xgh) 0)]; ring
theorem countDown_add (r : Rows) (off : ℤ × ℤ → ℤ) (z : ℤ) : countDown r off z = z + countDown r off 0 := by
  unfold countDown
  rw [count_sum r (fun a i => max (1 + r.xgh - off (a, i)) 0), count_sum r (fun a i => max (1 + r.xgh - off (a, i)) 0)]; ring

theorem cells_length (r : Rows) (lo hi : ℤ → ℤ → ℤ) (hn : 0 ≤ r.nv) :
    ((cells r lo hi).length : ℤ) =
      r.nv * ((rng r.a0 r.a1).map fun a => ((rng r.i0 r.i1).map fun i => max (hi a i + 1 - lo a i) 0).sum).sum := by
  have hl : ∀ a b : ℤ, ((rng a b).length : ℤ) = max (b + 1 - a) 0 := by
    intro a b; unfold rng; rw [List.length_map, List.length_range]; omega
  have hf : ∀ {α β : Type} (l : List α) (g : α → List β), ((l.flatMap g).length : ℤ) = (l.map fun x => ((g x).length : ℤ)).sum := by
    intro α β l g
    induction l with
    | nil => simp
    | cons a l ih => rw [List.flatMap_cons, List.length_append, Nat.cast_add, ih]; simp
  have key : ∀ (l2 : List ℤ) (a : ℤ), ((l2.flatMap fun i => (rng 0 (r.nv - 1)).map fun n => (i, n)).map
      fun (x : ℤ × ℤ) => max (hi a x.1 + 1 - lo a x.1) 0).sum = r.nv * (l2.map fun i => max (hi a i + 1 - lo a i) 0).sum := by
    intro l2 a
    induction l2 with
    | nil => simp
    | cons i l ih =>
      rw [List.flatMap_cons, List.map_append, List.sum_append, ih, List.map_cons, List.sum_cons, List.map_map]
      have : (List.map ((fun (x : ℤ × ℤ) => max (hi a x.1 + 1 - lo a x.1) 0) ∘ fun n => (i, n)) (rng 0 (r.nv - 1))) =
          List.map (fun _ => max (hi a i + 1 - lo a i) 0) (rng 0 (r.nv - 1)) := rfl
      rw [this, List.map_const', List.sum_replicate, nsmul_eq_mul]
      have := hl 0 (r.nv - 1)
      rw [this, show max (r.nv - 1 + 1 - 0) 0 = r.nv by omega]
      ring
  unfold cells
  rw [hf]
  simp only [List.length_map, hl]
  unfold prodL
  induction rng r.a0 r.a1 with
  | nil => simp
  | cons a l ih =>
    rw [List.flatMap_cons, List.map_append, List.sum_append, ih, List.map_cons, List.sum_cons, List.map_map]
    have := key (rng r.i0 r.i1) a
    have e : (List.map ((fun (x : ℤ × ℤ × ℤ) => max (hi x.1 x.2.1 + 1 - lo x.1 x.2.1) 0) ∘ fun x => (a, x))
        ((rng r.i0 r.i1).flatMap fun i => (rng 0 (r.nv - 1)).map fun n => (i, n))).sum = _ := this
    rw [e]
    ring

theorem upCells_length (r : Rows) (off : ℤ × ℤ → ℤ) (hn : 0 ≤ r.nv) :
    ((upCells r off).length : ℤ) = r.nv * countUp r off 0 := by
  unfold upCells countUp
  rw [cells_length _ _ _ hn, count_sum r (fun a i => max (off (a, i) + r.xgh) 0), zero_add]
  congr 2
  apply List.map_congr_left; intro a _; congr 1
  apply List.map_congr_left; intro i _
  unfold Rows.oe; congr 1; ring

theorem dnCells_length (r : Rows) (off : ℤ × ℤ → ℤ) (hn : 0 ≤ r.nv) :
    ((dnCells r off).length : ℤ) = r.nv * countDown r off 0 := by
  unfold dnCells countDown
  rw [cells_length _ _ _ hn, count_sum r (fun a i => max (1 + r.xgh - off (a, i)) 0), zero_add]
  congr 2
  apply List.map_congr_left; intro a _; congr 1
  apply List.map_congr_left; intro i _
  unfold Rows.oe; congr 1; ring

theorem sum_le_mul (l : List ℤ) (f : ℤ → ℤ) (z : ℤ) (h : ∀ x ∈ l, f x ≤ z) : (l.map f).sum ≤ l.length * z := by
  induction l with
  | nil => simp
  | cons a l ih =>
    have h1 := h a (by simp)
    have h2 := ih fun x hx => h x (by simp [hx])
    simp only [List.map_cons, List.sum_cons, List.length_cons]
    push_cast
    linarith

theorem rng_len {a b : ℤ} (h : a ≤ b + 1) : ((rng a b).length : ℤ) = b + 1 - a := by
  unfold rng; rw [List.length_map, List.length_range]; omega

theorem count_le (r : Rows) (f : ℤ → ℤ → ℤ) (ha : r.a0 ≤ r.a1 + 1) (hi : r.i0 ≤ r.i1 + 1) {z : ℤ}
    (h : ∀ a i, r.a0 ≤ a → a ≤ r.a1 → r.i0 ≤ i → i ≤ r.i1 → f a i ≤ z) :
    loop r.a0 r.a1 (fun a => loop r.i0 r.i1 fun i => fun p => p + f a i) 0 ≤ (r.a1 + 1 - r.a0) * (r.i1 + 1 - r.i0) * z := by
  rw [count_sum, zero_add]
  refine le_trans (sum_le_mul _ _ ((r.i1 + 1 - r.i0) * z) ?_) ?_
  · intro a ha'
    rw [← rng_len hi]
    apply sum_le_mul
    intro i hi'
    have h1 := mem_rng.1 ha'
    have h2 := mem_rng.1 hi'
    exact h a i (by omega) (by omega) (by omega) (by omega)
  · rw [rng_len ha]; apply le_of_eq; ring

theorem count_eq (r : Rows) (f : ℤ → ℤ → ℤ) (ha : r.a0 ≤ r.a1 + 1) (hi : r.i0 ≤ r.i1 + 1) {z : ℤ}
    (h : ∀ a i, f a i = z) :
    loop r.a0 r.a1 (fun a => loop r.i0 r.i1 fun i => fun p => p + f a i) 0 = (r.a1 + 1 - r.a0) * (r.i1 + 1 - r.i0) * z := by
  rw [count_sum, zero_add]
  simp only [h, List.map_const', List.sum_replicate, nsmul_eq_mul, rng_len ha, rng_len hi]
  ring
end Verif.Orbital
