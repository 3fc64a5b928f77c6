import Verif.Lemmas.MgMultipole
import Verif.Props.MgFlux
import Mathlib.Tactic.NormNum

/-!
# Multigrid solver of self-gravity: isolated boundaries by multipole expansion (C68)
-/
namespace Verif.Mg
open Verif.Arr (loop rng mem_rng)
open Verif.Grid (A3)

/-! ## The expansion itself -/

theorem mono_le (c t : ℝ) (hc : |c| ≤ 1) (h0 : 0 ≤ t) (h1 : t ≤ 1) (i j : ℕ) : |c ^ i * t ^ j| ≤ 1 := by
  rw [abs_mul, abs_pow, abs_pow, abs_of_nonneg h0]
  exact mul_le_one₀ (pow_le_one₀ (abs_nonneg c) hc) (by positivity) (pow_le_one₀ h0 h1)

theorem cos_le (p q : ℝ × ℝ × ℝ) : |dot p q / (len p * len q)| ≤ 1 := by
  rw [abs_div, abs_of_nonneg (mul_nonneg (len_nonneg p) (len_nonneg q))]
  apply div_le_one_of_le₀ _ (mul_nonneg (len_nonneg p) (len_nonneg q))
  apply abs_le_of_sq_le_sq _ (mul_nonneg (len_nonneg p) (len_nonneg q))
  rw [mul_pow, len_sq, len_sq]
  unfold dot
  nlinarith [sq_nonneg (p.1 * q.2.1 - p.2.1 * q.1), sq_nonneg (p.1 * q.2.2 - p.2.2 * q.1), sq_nonneg (p.2.1 * q.2.2 - p.2.2 * q.2.1)]

theorem dot_eq (p q : ℝ × ℝ × ℝ) (hp : p ≠ (0, 0, 0)) :
    dot p q = (dot p q / (len p * len q)) * (len q / len p) * len p ^ 2 := by
  have hl := len_ne p hp
  rcases eq_or_ne q (0, 0, 0) with rfl | hq
  · simp [dot]
  · have hr := len_ne q hq
    field_simp

theorem dist_eq (p q : ℝ × ℝ × ℝ) (hp : p ≠ (0, 0, 0)) :
    len (p.1 - q.1, p.2.1 - q.2.1, p.2.2 - q.2.2) ^ 2
      = len p ^ 2 * (1 - 2 * (dot p q / (len p * len q)) * (len q / len p) + (len q / len p) ^ 2) := by
  have hl := len_ne p hp
  have h1 : len (p.1 - q.1, p.2.1 - q.2.1, p.2.2 - q.2.2) ^ 2 = len p ^ 2 - 2 * dot p q + len q ^ 2 := by
    rw [len_sq, len_sq, len_sq]; unfold dot; ring
  rw [h1]
  have h2 := dot_eq p q hp
  have h3 : len q ^ 2 = (len q / len p) ^ 2 * len p ^ 2 := by field_simp
  linear_combination (-2) * h2 + h3

theorem pole_scaled (l : ℕ) (p q : ℝ × ℝ × ℝ) (hp : p ≠ (0, 0, 0)) :
    pole l p q = (len q / len p) ^ l * legendre l (dot p q / (len p * len q)) / len p := by
  have hl := len_ne p hp
  unfold pole
  rw [div_pow, pow_succ]
  field_simp

/-- The expansion up to order 2 is an expansion of the inverse distance: times the distance it is 1 up to the order
of the first multipole left out. -/
theorem expansion2_sound (p q : ℝ × ℝ × ℝ) (hp : p ≠ (0, 0, 0)) (hq : len q ≤ len p) :
    |(expansion 2 p q * len (p.1 - q.1, p.2.1 - q.2.1, p.2.2 - q.2.2)) ^ 2 - 1| ≤ 33 * (len q / len p) ^ 3 := by
  have hl := len_ne p hp
  have hpos : 0 < len p := lt_of_le_of_ne (len_nonneg p) (Ne.symm hl)
  have hc := cos_le p q
  have ht0 : 0 ≤ len q / len p := div_nonneg (len_nonneg q) hpos.le
  have ht1 : len q / len p ≤ 1 := (div_le_one hpos).mpr hq
  have e : expansion 2 p q = (∑ l ∈ Finset.range 3, (len q / len p) ^ l * legendre l (dot p q / (len p * len q))) / len p := by
    unfold expansion
    rw [div_eq_mul_inv, Finset.sum_mul]
    exact Finset.sum_congr rfl fun l _ => by rw [pole_scaled l p q hp, div_eq_mul_inv]
  rw [mul_pow, e, dist_eq p q hp]
  generalize dot p q / (len p * len q) = c at hc ⊢
  generalize len q / len p = t at ht0 ht1 ⊢
  have m := mono_le c t hc ht0 ht1
  have id : ((∑ l ∈ Finset.range 3, t ^ l * legendre l c) / len p) ^ 2 * (len p ^ 2 * (1 - 2 * c * t + t ^ 2)) - 1
      = t ^ 3 * ((-3/4) * (c ^ 0 * t ^ 1) + (1/4) * (c ^ 0 * t ^ 3) + (3) * (c ^ 1 * t ^ 0) + (-3/2) * (c ^ 1 * t ^ 2) + (9/2) * (c ^ 2 * t ^ 1) + (-3/2) * (c ^ 2 * t ^ 3) + (-5) * (c ^ 3 * t ^ 0) + (6) * (c ^ 3 * t ^ 2) + (-15/4) * (c ^ 4 * t ^ 1) + (9/4) * (c ^ 4 * t ^ 3) + (-9/2) * (c ^ 5 * t ^ 2)) := by
    simp only [Finset.sum_range_succ, Finset.sum_range_zero, legendre2]
    simp only [legendre]
    field_simp
    ring
  rw [id, abs_mul, abs_of_nonneg (by positivity : 0 ≤ t ^ 3), mul_comm]
  apply mul_le_mul_of_nonneg_right _ (by positivity)
  rw [abs_le]
  constructor <;> linarith [(abs_le.mp (m 0 1)).1, (abs_le.mp (m 0 1)).2, (abs_le.mp (m 0 3)).1, (abs_le.mp (m 0 3)).2, (abs_le.mp (m 1 0)).1, (abs_le.mp (m 1 0)).2, (abs_le.mp (m 1 2)).1, (abs_le.mp (m 1 2)).2, (abs_le.mp (m 2 1)).1, (abs_le.mp (m 2 1)).2, (abs_le.mp (m 2 3)).1, (abs_le.mp (m 2 3)).2, (abs_le.mp (m 3 0)).1, (abs_le.mp (m 3 0)).2, (abs_le.mp (m 3 2)).1, (abs_le.mp (m 3 2)).2, (abs_le.mp (m 4 1)).1, (abs_le.mp (m 4 1)).2, (abs_le.mp (m 4 3)).1, (abs_le.mp (m 4 3)).2, (abs_le.mp (m 5 2)).1, (abs_le.mp (m 5 2)).2]

/-- The expansion up to order 4 is an expansion of the inverse distance: times the distance it is 1 up to the order
of the first multipole left out. -/
theorem expansion4_sound (p q : ℝ × ℝ × ℝ) (hp : p ≠ (0, 0, 0)) (hq : len q ≤ len p) :
    |(expansion 4 p q * len (p.1 - q.1, p.2.1 - q.2.1, p.2.2 - q.2.2)) ^ 2 - 1| ≤ 1091/2 * (len q / len p) ^ 5 := by
  have hl := len_ne p hp
  have hpos : 0 < len p := lt_of_le_of_ne (len_nonneg p) (Ne.symm hl)
  have hc := cos_le p q
  have ht0 : 0 ≤ len q / len p := div_nonneg (len_nonneg q) hpos.le
  have ht1 : len q / len p ≤ 1 := (div_le_one hpos).mpr hq
  have e : expansion 4 p q = (∑ l ∈ Finset.range 5, (len q / len p) ^ l * legendre l (dot p q / (len p * len q))) / len p := by
    unfold expansion
    rw [div_eq_mul_inv, Finset.sum_mul]
    exact Finset.sum_congr rfl fun l _ => by rw [pole_scaled l p q hp, div_eq_mul_inv]
  rw [mul_pow, e, dist_eq p q hp]
  generalize dot p q / (len p * len q) = c at hc ⊢
  generalize len q / len p = t at ht0 ht1 ⊢
  have m := mono_le c t hc ht0 ht1
  have id : ((∑ l ∈ Finset.range 5, t ^ l * legendre l c) / len p) ^ 2 * (len p ^ 2 * (1 - 2 * c * t + t ^ 2)) - 1
      = t ^ 5 * ((5/8) * (c ^ 0 * t ^ 1) + (-15/64) * (c ^ 0 * t ^ 3) + (9/64) * (c ^ 0 * t ^ 5) + (-15/4) * (c ^ 1 * t ^ 0) + (15/8) * (c ^ 1 * t ^ 2) + (-45/32) * (c ^ 1 * t ^ 4) + (-75/8) * (c ^ 2 * t ^ 1) + (105/16) * (c ^ 2 * t ^ 3) + (-45/16) * (c ^ 2 * t ^ 5) + (35/2) * (c ^ 3 * t ^ 0) + (-125/8) * (c ^ 3 * t ^ 2) + (75/4) * (c ^ 3 * t ^ 4) + (175/8) * (c ^ 4 * t ^ 1) + (-1025/32) * (c ^ 4 * t ^ 3) + (555/32) * (c ^ 4 * t ^ 5) + (-63/4) * (c ^ 5 * t ^ 0) + (245/8) * (c ^ 5 * t ^ 2) + (-1065/16) * (c ^ 5 * t ^ 4) + (-105/8) * (c ^ 6 * t ^ 1) + (805/16) * (c ^ 6 * t ^ 3) + (-525/16) * (c ^ 6 * t ^ 5) + (-135/8) * (c ^ 7 * t ^ 2) + (175/2) * (c ^ 7 * t ^ 4) + (-1575/64) * (c ^ 8 * t ^ 3) + (1225/64) * (c ^ 8 * t ^ 5) + (-1225/32) * (c ^ 9 * t ^ 4)) := by
    simp only [Finset.sum_range_succ, Finset.sum_range_zero, legendre2, legendre3, legendre4]
    simp only [legendre]
    field_simp
    ring
  rw [id, abs_mul, abs_of_nonneg (by positivity : 0 ≤ t ^ 5), mul_comm]
  apply mul_le_mul_of_nonneg_right _ (by positivity)
  rw [abs_le]
  constructor <;> linarith [(abs_le.mp (m 0 1)).1, (abs_le.mp (m 0 1)).2, (abs_le.mp (m 0 3)).1, (abs_le.mp (m 0 3)).2, (abs_le.mp (m 0 5)).1, (abs_le.mp (m 0 5)).2, (abs_le.mp (m 1 0)).1, (abs_le.mp (m 1 0)).2, (abs_le.mp (m 1 2)).1, (abs_le.mp (m 1 2)).2, (abs_le.mp (m 1 4)).1, (abs_le.mp (m 1 4)).2, (abs_le.mp (m 2 1)).1, (abs_le.mp (m 2 1)).2, (abs_le.mp (m 2 3)).1, (abs_le.mp (m 2 3)).2, (abs_le.mp (m 2 5)).1, (abs_le.mp (m 2 5)).2, (abs_le.mp (m 3 0)).1, (abs_le.mp (m 3 0)).2, (abs_le.mp (m 3 2)).1, (abs_le.mp (m 3 2)).2, (abs_le.mp (m 3 4)).1, (abs_le.mp (m 3 4)).2, (abs_le.mp (m 4 1)).1, (abs_le.mp (m 4 1)).2, (abs_le.mp (m 4 3)).1, (abs_le.mp (m 4 3)).2, (abs_le.mp (m 4 5)).1, (abs_le.mp (m 4 5)).2, (abs_le.mp (m 5 0)).1, (abs_le.mp (m 5 0)).2, (abs_le.mp (m 5 2)).1, (abs_le.mp (m 5 2)).2, (abs_le.mp (m 5 4)).1, (abs_le.mp (m 5 4)).2, (abs_le.mp (m 6 1)).1, (abs_le.mp (m 6 1)).2, (abs_le.mp (m 6 3)).1, (abs_le.mp (m 6 3)).2, (abs_le.mp (m 6 5)).1, (abs_le.mp (m 6 5)).2, (abs_le.mp (m 7 2)).1, (abs_le.mp (m 7 2)).2, (abs_le.mp (m 7 4)).1, (abs_le.mp (m 7 4)).2, (abs_le.mp (m 8 3)).1, (abs_le.mp (m 8 3)).2, (abs_le.mp (m 8 5)).1, (abs_le.mp (m 8 5)).2, (abs_le.mp (m 9 4)).1, (abs_le.mp (m 9 4)).2]

/-! ## Coefficients and boundary potential -/

theorem dec0 : (0.25 : ℝ) = 1/4 := by norm_num
theorem dec1 : (0.0625 : ℝ) = 1/16 := by norm_num
theorem dec2 : (0.75 : ℝ) = 3/4 := by norm_num
theorem dec3 : (1.5 : ℝ) = 3/2 := by norm_num
theorem dec4 : (15.0 : ℝ) = 15 := by norm_num
theorem dec5 : (2.5 : ℝ) = 5/2 := by norm_num
theorem dec6 : (5.0 : ℝ) = 5 := by norm_num
theorem dec7 : (17.5 : ℝ) = 35/2 := by norm_num
theorem dec8 : (35.0 : ℝ) = 35 := by norm_num
theorem dec9 : (0.5 : ℝ) = 1/2 := by norm_num
theorem dec10 : (3.0 : ℝ) = 3 := by norm_num
theorem dec11 : (7.0 : ℝ) = 7 := by norm_num
theorem dec12 : (30.0 : ℝ) = 30 := by norm_num
theorem dec13 : (0.125 : ℝ) = 1/8 := by norm_num
theorem dec14 : (1.0 : ℝ) = 1 := by norm_num

/-- The polynomials of the code for all orders. -/
noncomputable def poly (n : ℕ) (q : ℝ × ℝ × ℝ) : ℝ := mpBasis 4 false q.1 q.2.1 q.2.2 n

/-- The polynomial of order 3 that is symmetric about the z axis. -/
def zonal3 (q : ℝ × ℝ × ℝ) : ℝ := q.2.2 * (5 * q.2.2 ^ 2 - 3 * (q.1 ^ 2 + q.2.1 ^ 2 + q.2.2 ^ 2))

theorem massSum_zero (bs : List MpBlock) : massSum bs (fun _ _ => 0) = 0 := by
  have := massSum_mul bs (fun _ _ => 0) 0
  simpa using this

/-- The sums do not depend on `nodipole` if there is no dipole. -/
theorem sum_poly (cfg : MpCfg) (bs : List MpBlock) (hd : cfg.nodipole = true → NoDipole cfg bs) (n : ℕ)
    (hn : cfg.order = 4 ∨ n ≤ 8) :
    massSum bs (fun m c => mpBasis cfg.order cfg.nodipole (m.at cfg c).1 (m.at cfg c).2.1 (m.at cfg c).2.2 n)
      = massSum bs (fun m c => poly n (m.at cfg c)) := by
  by_cases h : cfg.nodipole = true
  · obtain ⟨h1, h2, h3⟩ := hd h
    rcases hn with ho | hn
    · rcases (show n = 1 ∨ n = 2 ∨ n = 3 ∨ (n ≠ 1 ∧ n ≠ 2 ∧ n ≠ 3) by omega) with rfl | rfl | rfl | ⟨a, b, c⟩
      · simp only [poly, mpBasis, h, if_true, massSum_zero]; exact h2.symm
      · simp only [poly, mpBasis, h, if_true, massSum_zero]; exact h3.symm
      · simp only [poly, mpBasis, h, if_true, massSum_zero]; exact h1.symm
      · apply massSum_congr
        intro m q
        rw [ho, h]
        unfold poly mpBasis
        simp only
        split <;> first | rfl | omega
    · rcases (show n = 1 ∨ n = 2 ∨ n = 3 ∨ (n ≠ 1 ∧ n ≠ 2 ∧ n ≠ 3) by omega) with rfl | rfl | rfl | ⟨a, b, c⟩
      · simp only [poly, mpBasis, h, if_true, massSum_zero]; exact h2.symm
      · simp only [poly, mpBasis, h, if_true, massSum_zero]; exact h3.symm
      · simp only [poly, mpBasis, h, if_true, massSum_zero]; exact h1.symm
      · apply massSum_congr
        intro m q
        rw [h]
        unfold poly mpBasis
        simp only
        split <;> first | rfl | omega
  · have h' : cfg.nodipole = false := by simpa using h
    apply massSum_congr
    intro m q
    rw [h']
    rcases hn with ho | hn
    · rw [ho]; rfl
    · unfold poly mpBasis
      simp only
      split <;> first | rfl | omega

theorem pole_inv (p q : ℝ × ℝ × ℝ) (hp : p ≠ (0, 0, 0)) :
    pole 0 p q = 1 / len p ∧ pole 1 p q = (1 / len p) ^ 3 * dot p q ∧
    pole 2 p q = (1 / len p) ^ 5 * ((3 * dot p q ^ 2 - len p ^ 2 * len q ^ 2) / 2) ∧
    pole 3 p q = (1 / len p) ^ 7 * ((5 * dot p q ^ 3 - 3 * dot p q * len p ^ 2 * len q ^ 2) / 2) ∧
    pole 4 p q = (1 / len p) ^ 9 * ((35 * dot p q ^ 4 - 30 * dot p q ^ 2 * len p ^ 2 * len q ^ 2 + 3 * (len p ^ 2) ^ 2 * (len q ^ 2) ^ 2) / 8) := by
  have hl := len_ne p hp
  rw [pole0, pole1 p q hp, pole2 p q hp, pole3 p q hp, pole4 p q hp]
  refine ⟨rfl, ?_, ?_, ?_, ?_⟩ <;> field_simp

/-- **Expansion up to the quadrupole**: for `mporder = 2`, all distributions of mass and all points other than the origin
of the expansion, the boundary potential is the multipole expansion of the potential of the cells up to order 2. With
`nodipole` this needs an origin about which the dipole vanishes. -/
theorem multipole2 (cfg : MpCfg) (ho : cfg.order = 2) (bs : List MpBlock) (hd : cfg.nodipole = true → NoDipole cfg bs)
    (x y z : ℝ) (hp : (x, y, z) ≠ ((0, 0, 0) : ℝ × ℝ × ℝ)) :
    phisOf cfg.order (mpCoeff cfg bs) x y z = potential 2 cfg bs (x, y, z) := by
  have E : ∀ q : ℝ × ℝ × ℝ, expansion 2 (x, y, z) q = (1 / len (x, y, z)) * poly 0 q
      + ((1 / len (x, y, z)) ^ 3 * y) * poly 1 q
      + ((1 / len (x, y, z)) ^ 3 * z) * poly 2 q
      + ((1 / len (x, y, z)) ^ 3 * x) * poly 3 q
      + (3 * (1 / len (x, y, z)) ^ 5 * (x * y)) * poly 4 q
      + (3 * (1 / len (x, y, z)) ^ 5 * (y * z)) * poly 5 q
      + ((1/4) * (1 / len (x, y, z)) ^ 5 * (3 * z ^ 2 - (x ^ 2 + y ^ 2 + z ^ 2))) * poly 6 q
      + (3 * (1 / len (x, y, z)) ^ 5 * (z * x)) * poly 7 q
      + (3 * (1 / len (x, y, z)) ^ 5 * ((x ^ 2 - y ^ 2) / 2)) * poly 8 q := by
    intro q
    obtain ⟨e0, e1, e2, e3, e4⟩ := pole_inv (x, y, z) q hp
    unfold expansion
    simp only [Finset.sum_range_succ, Finset.sum_range_zero, e0, e1, e2, len_sq, dot, poly, mpBasis]
    generalize len (x, y, z) = r
    simp only [if_true, Bool.false_eq_true, if_false, dec0, dec1, dec2, dec3, dec4, dec5, dec6, dec7, dec8, dec9, dec10, dec11, dec12, dec13, dec14]
    ring
  have M : massSum bs (fun m c => expansion 2 (x, y, z) (m.at cfg c)) = _ := massSum_congr bs _ _ fun m c => E (m.at cfg c)
  simp only [massSum_add, massSum_mul] at M
  unfold potential
  rw [M]
  unfold phisOf
  rw [if_pos ho]
  unfold phis2
  have k0 := coeff_eq cfg bs 0; rw [sum_poly cfg bs hd 0 (Or.inr (by norm_num))] at k0
  have k1 := coeff_eq cfg bs 1; rw [sum_poly cfg bs hd 1 (Or.inr (by norm_num))] at k1
  have k2 := coeff_eq cfg bs 2; rw [sum_poly cfg bs hd 2 (Or.inr (by norm_num))] at k2
  have k3 := coeff_eq cfg bs 3; rw [sum_poly cfg bs hd 3 (Or.inr (by norm_num))] at k3
  have k4 := coeff_eq cfg bs 4; rw [sum_poly cfg bs hd 4 (Or.inr (by norm_num))] at k4
  have k5 := coeff_eq cfg bs 5; rw [sum_poly cfg bs hd 5 (Or.inr (by norm_num))] at k5
  have k6 := coeff_eq cfg bs 6; rw [sum_poly cfg bs hd 6 (Or.inr (by norm_num))] at k6
  have k7 := coeff_eq cfg bs 7; rw [sum_poly cfg bs hd 7 (Or.inr (by norm_num))] at k7
  have k8 := coeff_eq cfg bs 8; rw [sum_poly cfg bs hd 8 (Or.inr (by norm_num))] at k8
  rw [k0, k1, k2, k3, k4, k5, k6, k7, k8]
  simp only [sqrt_inv]
  simp only [mpScale, inv_r2]
  generalize len (x, y, z) = r
  simp only [dec0, dec1, dec2, dec3, dec4, dec5, dec6, dec7, dec8, dec9, dec10, dec11, dec12, dec13, dec14]
  ring

/-- What `mporder = 4` gives: the expansion up to order 4, except that in the octupole the polynomial `z (z² - 3 r²)` is
used instead of `z (5 z² - 3 r²)`. -/
theorem multipole4_error (cfg : MpCfg) (ho : cfg.order = 4) (bs : List MpBlock) (hd : cfg.nodipole = true → NoDipole cfg bs)
    (x y z : ℝ) (hp : (x, y, z) ≠ ((0, 0, 0) : ℝ × ℝ × ℝ)) :
    phisOf cfg.order (mpCoeff cfg bs) x y z = potential 4 cfg bs (x, y, z)
      - 1 / (16 * Real.pi) * (1 / len (x, y, z)) ^ 7 *
        (z * (z ^ 2 - 3 * (x ^ 2 + y ^ 2 + z ^ 2)) * massSum bs (fun m c => (m.at cfg c).2.2 *
            ((m.at cfg c).2.2 ^ 2 - 3 * ((m.at cfg c).1 ^ 2 + (m.at cfg c).2.1 ^ 2 + (m.at cfg c).2.2 ^ 2)))
         - zonal3 (x, y, z) * massSum bs (fun m c => zonal3 (m.at cfg c))) := by
  have E : ∀ q : ℝ × ℝ × ℝ, expansion 4 (x, y, z) q = (1 / len (x, y, z)) * poly 0 q
      + ((1 / len (x, y, z)) ^ 3 * y) * poly 1 q
      + ((1 / len (x, y, z)) ^ 3 * z) * poly 2 q
      + ((1 / len (x, y, z)) ^ 3 * x) * poly 3 q
      + (3 * (1 / len (x, y, z)) ^ 5 * (x * y)) * poly 4 q
      + (3 * (1 / len (x, y, z)) ^ 5 * (y * z)) * poly 5 q
      + ((1/4) * (1 / len (x, y, z)) ^ 5 * (3 * z ^ 2 - (x ^ 2 + y ^ 2 + z ^ 2))) * poly 6 q
      + (3 * (1 / len (x, y, z)) ^ 5 * (z * x)) * poly 7 q
      + (3 * (1 / len (x, y, z)) ^ 5 * ((x ^ 2 - y ^ 2) / 2)) * poly 8 q
      + ((5/8) * (1 / len (x, y, z)) ^ 7 * (y * (3 * x ^ 2 - y ^ 2))) * poly 9 q
      + (15 * (1 / len (x, y, z)) ^ 7 * (x * y * z)) * poly 10 q
      + ((3/8) * (1 / len (x, y, z)) ^ 7 * (y * (5 * z ^ 2 - (x ^ 2 + y ^ 2 + z ^ 2)))) * poly 11 q
      + ((1/4) * (1 / len (x, y, z)) ^ 7 * (z * (5 * z ^ 2 - 3 * (x ^ 2 + y ^ 2 + z ^ 2)))) * zonal3 q
      + ((3/8) * (1 / len (x, y, z)) ^ 7 * (x * (5 * z ^ 2 - (x ^ 2 + y ^ 2 + z ^ 2)))) * poly 13 q
      + (15 * (1 / len (x, y, z)) ^ 7 * (z * (x ^ 2 - y ^ 2) / 2)) * poly 14 q
      + ((5/8) * (1 / len (x, y, z)) ^ 7 * (x * (x ^ 2 - 3 * y ^ 2))) * poly 15 q
      + (35 * (1 / len (x, y, z)) ^ 9 * (x * y * (x ^ 2 - y ^ 2) / 2)) * poly 16 q
      + ((35/8) * (1 / len (x, y, z)) ^ 9 * (y * z * (3 * x ^ 2 - y ^ 2))) * poly 17 q
      + ((5/4) * (1 / len (x, y, z)) ^ 9 * (x * y * (7 * z ^ 2 - (x ^ 2 + y ^ 2 + z ^ 2)))) * poly 18 q
      + ((5/8) * (1 / len (x, y, z)) ^ 9 * (y * z * (7 * z ^ 2 - 3 * (x ^ 2 + y ^ 2 + z ^ 2)))) * poly 19 q
      + ((1/64) * (1 / len (x, y, z)) ^ 9 * (35 * z ^ 4 - 30 * z ^ 2 * (x ^ 2 + y ^ 2 + z ^ 2) + 3 * (x ^ 2 + y ^ 2 + z ^ 2) ^ 2)) * poly 20 q
      + ((5/8) * (1 / len (x, y, z)) ^ 9 * (z * x * (7 * z ^ 2 - 3 * (x ^ 2 + y ^ 2 + z ^ 2)))) * poly 21 q
      + ((5/4) * (1 / len (x, y, z)) ^ 9 * ((x ^ 2 - y ^ 2) / 2 * (7 * z ^ 2 - (x ^ 2 + y ^ 2 + z ^ 2)))) * poly 22 q
      + ((35/8) * (1 / len (x, y, z)) ^ 9 * (z * x * (x ^ 2 - 3 * y ^ 2))) * poly 23 q
      + (35 * (1 / len (x, y, z)) ^ 9 * ((x ^ 2 * (x ^ 2 - 3 * y ^ 2) - y ^ 2 * (3 * x ^ 2 - y ^ 2)) / 8)) * poly 24 q := by
    intro q
    obtain ⟨e0, e1, e2, e3, e4⟩ := pole_inv (x, y, z) q hp
    unfold expansion
    simp only [Finset.sum_range_succ, Finset.sum_range_zero, e0, e1, e2, e3, e4, len_sq, dot, poly, mpBasis, zonal3]
    generalize len (x, y, z) = r
    simp only [if_true, Bool.false_eq_true, if_false, dec0, dec1, dec2, dec3, dec4, dec5, dec6, dec7, dec8, dec9, dec10, dec11, dec12, dec13, dec14]
    ring
  have M : massSum bs (fun m c => expansion 4 (x, y, z) (m.at cfg c)) = _ := massSum_congr bs _ _ fun m c => E (m.at cfg c)
  simp only [massSum_add, massSum_mul] at M
  have Z : massSum bs (fun m c => (m.at cfg c).2.2 *
      ((m.at cfg c).2.2 ^ 2 - 3 * ((m.at cfg c).1 ^ 2 + (m.at cfg c).2.1 ^ 2 + (m.at cfg c).2.2 ^ 2)))
      = massSum bs (fun m c => poly 12 (m.at cfg c)) := by
    apply massSum_congr
    intro m c
    simp only [poly, mpBasis, if_true, dec0, dec1, dec2, dec3, dec4, dec5, dec6, dec7, dec8, dec9, dec10, dec11, dec12, dec13, dec14]
    ring
  unfold potential
  rw [M, Z]
  unfold phisOf
  rw [if_neg (by omega)]
  unfold phis4
  have k0 := coeff_eq cfg bs 0; rw [sum_poly cfg bs hd 0 (Or.inl ho)] at k0
  have k1 := coeff_eq cfg bs 1; rw [sum_poly cfg bs hd 1 (Or.inl ho)] at k1
  have k2 := coeff_eq cfg bs 2; rw [sum_poly cfg bs hd 2 (Or.inl ho)] at k2
  have k3 := coeff_eq cfg bs 3; rw [sum_poly cfg bs hd 3 (Or.inl ho)] at k3
  have k4 := coeff_eq cfg bs 4; rw [sum_poly cfg bs hd 4 (Or.inl ho)] at k4
  have k5 := coeff_eq cfg bs 5; rw [sum_poly cfg bs hd 5 (Or.inl ho)] at k5
  have k6 := coeff_eq cfg bs 6; rw [sum_poly cfg bs hd 6 (Or.inl ho)] at k6
  have k7 := coeff_eq cfg bs 7; rw [sum_poly cfg bs hd 7 (Or.inl ho)] at k7
  have k8 := coeff_eq cfg bs 8; rw [sum_poly cfg bs hd 8 (Or.inl ho)] at k8
  have k9 := coeff_eq cfg bs 9; rw [sum_poly cfg bs hd 9 (Or.inl ho)] at k9
  have k10 := coeff_eq cfg bs 10; rw [sum_poly cfg bs hd 10 (Or.inl ho)] at k10
  have k11 := coeff_eq cfg bs 11; rw [sum_poly cfg bs hd 11 (Or.inl ho)] at k11
  have k12 := coeff_eq cfg bs 12; rw [sum_poly cfg bs hd 12 (Or.inl ho)] at k12
  have k13 := coeff_eq cfg bs 13; rw [sum_poly cfg bs hd 13 (Or.inl ho)] at k13
  have k14 := coeff_eq cfg bs 14; rw [sum_poly cfg bs hd 14 (Or.inl ho)] at k14
  have k15 := coeff_eq cfg bs 15; rw [sum_poly cfg bs hd 15 (Or.inl ho)] at k15
  have k16 := coeff_eq cfg bs 16; rw [sum_poly cfg bs hd 16 (Or.inl ho)] at k16
  have k17 := coeff_eq cfg bs 17; rw [sum_poly cfg bs hd 17 (Or.inl ho)] at k17
  have k18 := coeff_eq cfg bs 18; rw [sum_poly cfg bs hd 18 (Or.inl ho)] at k18
  have k19 := coeff_eq cfg bs 19; rw [sum_poly cfg bs hd 19 (Or.inl ho)] at k19
  have k20 := coeff_eq cfg bs 20; rw [sum_poly cfg bs hd 20 (Or.inl ho)] at k20
  have k21 := coeff_eq cfg bs 21; rw [sum_poly cfg bs hd 21 (Or.inl ho)] at k21
  have k22 := coeff_eq cfg bs 22; rw [sum_poly cfg bs hd 22 (Or.inl ho)] at k22
  have k23 := coeff_eq cfg bs 23; rw [sum_poly cfg bs hd 23 (Or.inl ho)] at k23
  have k24 := coeff_eq cfg bs 24; rw [sum_poly cfg bs hd 24 (Or.inl ho)] at k24
  rw [k0, k1, k2, k3, k4, k5, k6, k7, k8, k9, k10, k11, k12, k13, k14, k15, k16, k17, k18, k19, k20, k21, k22, k23, k24]
  simp only [sqrt_inv]
  simp only [ho, mpScale, inv_r2, zonal3, if_true]
  generalize len (x, y, z) = r
  simp only [dec0, dec1, dec2, dec3, dec4, dec5, dec6, dec7, dec8, dec9, dec10, dec11, dec12, dec13, dec14]
  ring

/-- **Expansion up to order 4, partial**: for `mporder = 4` the boundary potential is the expansion up to order 4 if the
two zonal moments of order 3 vanish, as for masses symmetric about the plane `z = 0` through the origin of the
expansion. (The full statement, without this condition, is false: `multipole4_wrong`.) -/
theorem multipole4_partial (cfg : MpCfg) (ho : cfg.order = 4) (bs : List MpBlock) (hd : cfg.nodipole = true → NoDipole cfg bs)
    (h1 : massSum bs (fun m c => (m.at cfg c).2.2 ^ 3) = 0)
    (h2 : massSum bs (fun m c => (m.at cfg c).2.2 * ((m.at cfg c).1 ^ 2 + (m.at cfg c).2.1 ^ 2)) = 0)
    (x y z : ℝ) (hp : (x, y, z) ≠ ((0, 0, 0) : ℝ × ℝ × ℝ)) :
    phisOf cfg.order (mpCoeff cfg bs) x y z = potential 4 cfg bs (x, y, z) := by
  rw [multipole4_error cfg ho bs hd x y z hp]
  have a : massSum bs (fun m c => (m.at cfg c).2.2 *
      ((m.at cfg c).2.2 ^ 2 - 3 * ((m.at cfg c).1 ^ 2 + (m.at cfg c).2.1 ^ 2 + (m.at cfg c).2.2 ^ 2))) = 0 := by
    have : massSum bs (fun m c => (m.at cfg c).2.2 *
      ((m.at cfg c).2.2 ^ 2 - 3 * ((m.at cfg c).1 ^ 2 + (m.at cfg c).2.1 ^ 2 + (m.at cfg c).2.2 ^ 2)))
      = massSum bs (fun m c => (-2) * (m.at cfg c).2.2 ^ 3 + (-3) * ((m.at cfg c).2.2 * ((m.at cfg c).1 ^ 2 + (m.at cfg c).2.1 ^ 2))) := by
      apply massSum_congr; intro m c; ring
    rw [this, massSum_add, massSum_mul, massSum_mul, h1, h2]; ring
  have b : massSum bs (fun m c => zonal3 (m.at cfg c)) = 0 := by
    have : massSum bs (fun m c => zonal3 (m.at cfg c))
      = massSum bs (fun m c => 2 * (m.at cfg c).2.2 ^ 3 + (-3) * ((m.at cfg c).2.2 * ((m.at cfg c).1 ^ 2 + (m.at cfg c).2.1 ^ 2))) := by
      apply massSum_congr; intro m c; unfold zonal3; ring
    rw [this, massSum_add, massSum_mul, massSum_mul, h1, h2]; ring
  rw [a, b]; ring

/-- One cell of size 1 with mass 1 whose centre is at `(0, 0, 1)`. -/
def oneMass : MpBlock where
  b := ⟨1, 1, 1, 1, 1, 1⟩
  coord := ⟨fun _ => 0, fun _ => 0, fun _ => 1, fun i => i, fun i => i, fun i => i⟩
  src := fun _ => 1

theorem oneMass_sum (f : MpBlock → ℤ × ℤ × ℤ → ℝ) : massSum [oneMass] f = f oneMass (1, 1, 1) := by
  simp only [massSum, List.map_cons, List.map_nil, List.sum_cons, List.sum_nil, Box.total, Box.cells]
  have hv : oneMass.vol = 1 := by norm_num [MpBlock.vol, oneMass]
  rw [hv]
  simp [oneMass]

/-- **The octupole is wrong**: for one mass at `(0, 0, 1)` and the point `(3, 0, 1)` the boundary potential of
`mporder = 4` is not the expansion up to order 4. -/
theorem multipole4_wrong :
    ∃ (cfg : MpCfg) (bs : List MpBlock) (x y z : ℝ), cfg.order = 4 ∧ cfg.nodipole = false ∧
      (∀ m ∈ bs, ∀ c ∈ m.b.cells, len (m.at cfg c) < len (x, y, z)) ∧
      phisOf cfg.order (mpCoeff cfg bs) x y z ≠ potential 4 cfg bs (x, y, z) := by
  refine ⟨⟨4, false, 0, 0, 0⟩, [oneMass], 3, 0, 1, rfl, rfl, ?_, ?_⟩
  · intro m hm c _
    rw [List.mem_singleton] at hm
    subst hm
    unfold len MpBlock.at oneMass
    apply Real.sqrt_lt_sqrt <;> norm_num
  · have hp : ((3, 0, 1) : ℝ × ℝ × ℝ) ≠ (0, 0, 0) := by simp
    rw [multipole4_error ⟨4, false, 0, 0, 0⟩ rfl [oneMass] (by simp) 3 0 1 hp]
    rw [oneMass_sum, oneMass_sum]
    simp only [zonal3, MpBlock.at, oneMass]
    have hl := len_ne _ hp
    intro h
    have hz : 1 / (16 * Real.pi) * (1 / len (3, 0, 1)) ^ 7 ≠ 0 := by
      have := Real.pi_ne_zero
      positivity
    rw [sub_eq_self] at h
    rcases mul_eq_zero.mp h with h | h
    · exact hz h
    · norm_num at h

/-- **The centre of mass as origin**: with `auto_mporigin` the dipole vanishes, unless the total mass is zero. -/
theorem center_no_dipole (bs : List MpBlock) (hm : massSum bs (fun _ _ => 1) ≠ 0) (order : ℕ) (nodipole : Bool) :
    let o := centerOfMass bs
    NoDipole ⟨order, nodipole, o.1, o.2.1, o.2.2⟩ bs := by
  intro o
  have ho : o = centerOfMass bs := rfl
  unfold centerOfMass at ho
  rw [com_eq] at ho
  simp only at ho
  have one : ∀ (f : MpBlock → ℤ × ℤ × ℤ → ℝ) (a : ℝ), a = massSum bs f / massSum bs (fun _ _ => 1) →
      massSum bs (fun m c => f m c - a) = 0 := by
    intro f a ha
    have : massSum bs (fun m c => f m c - a) = massSum bs (fun m c => f m c + (-a) * 1) := by
      apply massSum_congr; intro m c; ring
    rw [this, massSum_add, massSum_mul bs (fun _ _ => 1), ha]
    field_simp
    ring
  refine ⟨one _ _ ?_, one _ _ ?_, one _ _ ?_⟩ <;> rw [ho] <;> norm_num <;> ring

/-- So `multipole2` holds for the origin that the code computes. -/
example (bs : List MpBlock) (hm : massSum bs (fun _ _ => 1) ≠ 0) (x y z : ℝ) (hp : (x, y, z) ≠ ((0, 0, 0) : ℝ × ℝ × ℝ)) :
    let o := centerOfMass bs
    phisOf 2 (mpCoeff ⟨2, true, o.1, o.2.1, o.2.2⟩ bs) x y z = potential 2 ⟨2, true, o.1, o.2.1, o.2.2⟩ bs (x, y, z) :=
  multipole2 _ rfl bs (fun _ => center_no_dipole bs hm 2 true) x y z hp

/-- The mass of the example is not zero. -/
example : massSum [oneMass] (fun _ _ => 1) ≠ 0 := by rw [oneMass_sum]; norm_num

/-! ## The boundary functions -/

/-- The loops of the six functions. -/
noncomputable def faceGen (e : ℤ → ℤ → ℤ → ℤ × ℤ × ℤ) (s s' t t' xg xin : ℤ) (F : ℤ → ℤ → ℝ) (dst : A3 ℝ) : A3 ℝ :=
  loop s s' (fun o => loop t t' fun v dst => Function.update dst (e o v xg) (2.0 * F o v - dst (e o v xin))) dst

theorem faceGen_spec (e : ℤ → ℤ → ℤ → ℤ × ℤ × ℤ) (he : Names e) (s s' t t' xg xin : ℤ) (hx : xin ≠ xg) (F : ℤ → ℤ → ℝ) (dst : A3 ℝ) :
    (∀ o v, (s ≤ o ∧ o ≤ s') → (t ≤ v ∧ v ≤ t') → faceGen e s s' t t' xg xin F dst (e o v xg) = 2 * F o v - dst (e o v xin)) ∧
    (∀ q, (∀ o v, (s ≤ o ∧ o ≤ s') → (t ≤ v ∧ v ≤ t') → q ≠ e o v xg) → faceGen e s s' t t' xg xin F dst q = dst q) := by
  have hs : s' = s + (s' + 1 - s) - 1 := by ring
  have ht : t' = t + (t' + 1 - t) - 1 := by ring
  have eq : faceGen e s s' t t' xg xin F dst = (plane s t (s' + 1 - s) (t' + 1 - t)).foldl
      (fun st q => Function.update st (e q.1 q.2 xg) (2.0 * F q.1 q.2 - st (e q.1 q.2 xin))) dst := by
    unfold faceGen
    conv_lhs => rw [hs, ht]
    exact plane_loops s t (s' + 1 - s) (t' + 1 - t) _ dst
  have hnd : ((plane s t (s' + 1 - s) (t' + 1 - t)).map fun q => e q.1 q.2 xg).Nodup :=
    (nodup_plane _ _ _ _).map fun q r h => by
      have := he _ _ _ _ _ _ h
      exact Prod.ext this.1 this.2.1
  rw [eq]
  constructor
  · intro o v ho hv
    have := Verif.Grid.fold_in (plane s t (s' + 1 - s) (t' + 1 - t)) (fun q => e q.1 q.2 xg)
      (fun q st => 2.0 * F q.1 q.2 - st (e q.1 q.2 xin)) dst hnd ?_ (o, v) (mem_plane.mpr ⟨by simp only; omega, by simp only; omega⟩)
    · rw [this]; norm_num
    · intro q _ st _ hout
      rw [hout (e q.1 q.2 xin)]
      rw [List.mem_map]
      rintro ⟨r, _, hr⟩
      exact hx (he _ _ _ _ _ _ hr).2.2.symm
  · intro q hq
    refine Verif.Grid.fold_out (plane s t (s' + 1 - s) (t' + 1 - t)) (fun q => e q.1 q.2 xg) (fun q st => 2.0 * F q.1 q.2 - st (e q.1 q.2 xin)) dst q ?_
    rw [List.mem_map]
    rintro ⟨r, hr, h⟩
    have hr := mem_plane.mp hr
    exact hq r.1 r.2 (by omega) (by omega) h.symm

/-- `MGMultipoleInnerX1`: the mean of the ghost cell and the active cell is the boundary potential at the centre of the
face between them; nothing else changes. -/
theorem multipole_inner_x1 (cfg : MpCfg) (co : MgCoord) (c : ℕ → ℝ) (b : Box) (dst : A3 ℝ) :
    let new := mpInnerX1 cfg co c b dst
    (∀ k j : ℤ, (b.kl ≤ k ∧ k ≤ b.ku) → (b.jl ≤ j ∧ j ≤ b.ju) →
      (new (k, j, b.il - 1) + new (k, j, b.il)) / 2 = phisOf cfg.order c (co.x1f (b.il) - cfg.ox) (co.x2v j - cfg.oy) (co.x3v k - cfg.oz)) ∧
    (∀ q, (∀ k j : ℤ, (b.kl ≤ k ∧ k ≤ b.ku) → (b.jl ≤ j ∧ j ≤ b.ju) → q ≠ (k, j, b.il - 1)) → new q = dst q) := by
  intro new
  obtain ⟨h1, h2⟩ := faceGen_spec (fun o t x => (o, t, x)) names1 b.kl b.ku b.jl b.ju (b.il - 1) b.il (by omega)
    (fun k j => phisOf cfg.order c (co.x1f (b.il) - cfg.ox) (co.x2v j - cfg.oy) (co.x3v k - cfg.oz)) dst
  refine ⟨fun k j hk hj => ?_, fun q hq => h2 q hq⟩
  have a : new (k, j, b.il - 1) = _ := h1 k j hk hj
  have a' : new (k, j, b.il) = dst (k, j, b.il) := h2 (k, j, b.il) fun o t _ _ h => by
    simp only [Prod.mk.injEq] at h; omega
  rw [a, a']; ring

/-- `MGMultipoleOuterX1`: the mean of the ghost cell and the active cell is the boundary potential at the centre of the
face between them; nothing else changes. -/
theorem multipole_outer_x1 (cfg : MpCfg) (co : MgCoord) (c : ℕ → ℝ) (b : Box) (dst : A3 ℝ) :
    let new := mpOuterX1 cfg co c b dst
    (∀ k j : ℤ, (b.kl ≤ k ∧ k ≤ b.ku) → (b.jl ≤ j ∧ j ≤ b.ju) →
      (new (k, j, b.iu + 1) + new (k, j, b.iu)) / 2 = phisOf cfg.order c (co.x1f (b.iu + 1) - cfg.ox) (co.x2v j - cfg.oy) (co.x3v k - cfg.oz)) ∧
    (∀ q, (∀ k j : ℤ, (b.kl ≤ k ∧ k ≤ b.ku) → (b.jl ≤ j ∧ j ≤ b.ju) → q ≠ (k, j, b.iu + 1)) → new q = dst q) := by
  intro new
  obtain ⟨h1, h2⟩ := faceGen_spec (fun o t x => (o, t, x)) names1 b.kl b.ku b.jl b.ju (b.iu + 1) b.iu (by omega)
    (fun k j => phisOf cfg.order c (co.x1f (b.iu + 1) - cfg.ox) (co.x2v j - cfg.oy) (co.x3v k - cfg.oz)) dst
  refine ⟨fun k j hk hj => ?_, fun q hq => h2 q hq⟩
  have a : new (k, j, b.iu + 1) = _ := h1 k j hk hj
  have a' : new (k, j, b.iu) = dst (k, j, b.iu) := h2 (k, j, b.iu) fun o t _ _ h => by
    simp only [Prod.mk.injEq] at h; omega
  rw [a, a']; ring

/-- `MGMultipoleInnerX2`: the mean of the ghost cell and the active cell is the boundary potential at the centre of the
face between them; nothing else changes. -/
theorem multipole_inner_x2 (cfg : MpCfg) (co : MgCoord) (c : ℕ → ℝ) (b : Box) (dst : A3 ℝ) :
    let new := mpInnerX2 cfg co c b dst
    (∀ k i : ℤ, (b.kl ≤ k ∧ k ≤ b.ku) → (b.il ≤ i ∧ i ≤ b.iu) →
      (new (k, b.jl - 1, i) + new (k, b.jl, i)) / 2 = phisOf cfg.order c (co.x1v i - cfg.ox) (co.x2f (b.jl) - cfg.oy) (co.x3v k - cfg.oz)) ∧
    (∀ q, (∀ k i : ℤ, (b.kl ≤ k ∧ k ≤ b.ku) → (b.il ≤ i ∧ i ≤ b.iu) → q ≠ (k, b.jl - 1, i)) → new q = dst q) := by
  intro new
  obtain ⟨h1, h2⟩ := faceGen_spec (fun o t x => (o, x, t)) names2 b.kl b.ku b.il b.iu (b.jl - 1) b.jl (by omega)
    (fun k i => phisOf cfg.order c (co.x1v i - cfg.ox) (co.x2f (b.jl) - cfg.oy) (co.x3v k - cfg.oz)) dst
  refine ⟨fun k i hk hi => ?_, fun q hq => h2 q hq⟩
  have a : new (k, b.jl - 1, i) = _ := h1 k i hk hi
  have a' : new (k, b.jl, i) = dst (k, b.jl, i) := h2 (k, b.jl, i) fun o t _ _ h => by
    simp only [Prod.mk.injEq] at h; omega
  rw [a, a']; ring

/-- `MGMultipoleOuterX2`: the mean of the ghost cell and the active cell is the boundary potential at the centre of the
face between them; nothing else changes. -/
theorem multipole_outer_x2 (cfg : MpCfg) (co : MgCoord) (c : ℕ → ℝ) (b : Box) (dst : A3 ℝ) :
    let new := mpOuterX2 cfg co c b dst
    (∀ k i : ℤ, (b.kl ≤ k ∧ k ≤ b.ku) → (b.il ≤ i ∧ i ≤ b.iu) →
      (new (k, b.ju + 1, i) + new (k, b.ju, i)) / 2 = phisOf cfg.order c (co.x1v i - cfg.ox) (co.x2f (b.ju + 1) - cfg.oy) (co.x3v k - cfg.oz)) ∧
    (∀ q, (∀ k i : ℤ, (b.kl ≤ k ∧ k ≤ b.ku) → (b.il ≤ i ∧ i ≤ b.iu) → q ≠ (k, b.ju + 1, i)) → new q = dst q) := by
  intro new
  obtain ⟨h1, h2⟩ := faceGen_spec (fun o t x => (o, x, t)) names2 b.kl b.ku b.il b.iu (b.ju + 1) b.ju (by omega)
    (fun k i => phisOf cfg.order c (co.x1v i - cfg.ox) (co.x2f (b.ju + 1) - cfg.oy) (co.x3v k - cfg.oz)) dst
  refine ⟨fun k i hk hi => ?_, fun q hq => h2 q hq⟩
  have a : new (k, b.ju + 1, i) = _ := h1 k i hk hi
  have a' : new (k, b.ju, i) = dst (k, b.ju, i) := h2 (k, b.ju, i) fun o t _ _ h => by
    simp only [Prod.mk.injEq] at h; omega
  rw [a, a']; ring

/-- `MGMultipoleInnerX3`: the mean of the ghost cell and the active cell is the boundary potential at the centre of the
face between them; nothing else changes. -/
theorem multipole_inner_x3 (cfg : MpCfg) (co : MgCoord) (c : ℕ → ℝ) (b : Box) (dst : A3 ℝ) :
    let new := mpInnerX3 cfg co c b dst
    (∀ j i : ℤ, (b.jl ≤ j ∧ j ≤ b.ju) → (b.il ≤ i ∧ i ≤ b.iu) →
      (new (b.kl - 1, j, i) + new (b.kl, j, i)) / 2 = phisOf cfg.order c (co.x1v i - cfg.ox) (co.x2v j - cfg.oy) (co.x3f (b.kl) - cfg.oz)) ∧
    (∀ q, (∀ j i : ℤ, (b.jl ≤ j ∧ j ≤ b.ju) → (b.il ≤ i ∧ i ≤ b.iu) → q ≠ (b.kl - 1, j, i)) → new q = dst q) := by
  intro new
  obtain ⟨h1, h2⟩ := faceGen_spec (fun o t x => (x, o, t)) names3 b.jl b.ju b.il b.iu (b.kl - 1) b.kl (by omega)
    (fun j i => phisOf cfg.order c (co.x1v i - cfg.ox) (co.x2v j - cfg.oy) (co.x3f (b.kl) - cfg.oz)) dst
  refine ⟨fun j i hj hi => ?_, fun q hq => h2 q hq⟩
  have a : new (b.kl - 1, j, i) = _ := h1 j i hj hi
  have a' : new (b.kl, j, i) = dst (b.kl, j, i) := h2 (b.kl, j, i) fun o t _ _ h => by
    simp only [Prod.mk.injEq] at h; omega
  rw [a, a']; ring

/-- `MGMultipoleOuterX3`: the mean of the ghost cell and the active cell is the boundary potential at the centre of the
face between them; nothing else changes. -/
theorem multipole_outer_x3 (cfg : MpCfg) (co : MgCoord) (c : ℕ → ℝ) (b : Box) (dst : A3 ℝ) :
    let new := mpOuterX3 cfg co c b dst
    (∀ j i : ℤ, (b.jl ≤ j ∧ j ≤ b.ju) → (b.il ≤ i ∧ i ≤ b.iu) →
      (new (b.ku + 1, j, i) + new (b.ku, j, i)) / 2 = phisOf cfg.order c (co.x1v i - cfg.ox) (co.x2v j - cfg.oy) (co.x3f (b.ku + 1) - cfg.oz)) ∧
    (∀ q, (∀ j i : ℤ, (b.jl ≤ j ∧ j ≤ b.ju) → (b.il ≤ i ∧ i ≤ b.iu) → q ≠ (b.ku + 1, j, i)) → new q = dst q) := by
  intro new
  obtain ⟨h1, h2⟩ := faceGen_spec (fun o t x => (x, o, t)) names3 b.jl b.ju b.il b.iu (b.ku + 1) b.ku (by omega)
    (fun j i => phisOf cfg.order c (co.x1v i - cfg.ox) (co.x2v j - cfg.oy) (co.x3f (b.ku + 1) - cfg.oz)) dst
  refine ⟨fun j i hj hi => ?_, fun q hq => h2 q hq⟩
  have a : new (b.ku + 1, j, i) = _ := h1 j i hj hi
  have a' : new (b.ku, j, i) = dst (b.ku, j, i) := h2 (b.ku, j, i) fun o t _ _ h => by
    simp only [Prod.mk.injEq] at h; omega
  rw [a, a']; ring

end Verif.Mg
