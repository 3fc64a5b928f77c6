import Verif.Model.RadMoments
import Mathlib.Tactic
import Mathlib.Algebra.Order.Chebyshev

/-!
C101: moments of the radiation field.
-/

namespace Verif.RadMoments

open scoped BigOperators

/-! ### Specification -/

namespace Spec

/-- Index of the component `(a, b)` of the pressure in `rad_mom`, radiation.hpp:36-37. -/
def pr : Fin 3 → Fin 3 → Fin 13 := ![![4, 7, 8], ![10, 5, 9], ![11, 12, 6]]

/-- Index of a component of the flux. -/
def fr : Fin 3 → Fin 13 := ![1, 2, 3]

/-- The mean of `f` over the radiation field. -/
def mean {N K : ℕ} (w : Fin N → ℝ) (I : Fin K → Fin N → ℝ) (f : Fin N → ℝ) : ℝ :=
  ∑ k, ∑ n, w n * I k n * f n

end Spec

variable {N K : ℕ}

/-- A component of a direction. -/
def dir (cosx cosy cosz : Fin N → ℝ) (n : Fin N) : Fin 3 → ℝ := ![cosx n, cosy n, cosz n]

/-- **C101.** Each entry is the moment that its name tells: energy, flux, and the pressure, a
symmetric tensor. -/
theorem moments_meaning (w cosx cosy cosz : Fin N → ℝ) (I : Fin K → Fin N → ℝ) :
    lab w cosx cosy cosz I 0 = Spec.mean w I (fun _ => 1) ∧
    (∀ a, lab w cosx cosy cosz I (Spec.fr a) = Spec.mean w I fun n => dir cosx cosy cosz n a) ∧
    (∀ a b, lab w cosx cosy cosz I (Spec.pr a b) =
      Spec.mean w I fun n => dir cosx cosy cosz n a * dir cosx cosy cosz n b) := by
  refine ⟨rfl, ?_, ?_⟩
  · intro a
    fin_cases a <;> rfl
  · intro a b
    unfold lab group Spec.mean
    apply Finset.sum_congr rfl
    intro k _
    apply Finset.sum_congr rfl
    intro n _
    congr 1
    fin_cases a <;> fin_cases b <;> simp [Spec.pr, factor, dir, mul_comm]

/-- **C101.** The trace of the pressure is the energy. -/
theorem trace_energy (w cosx cosy cosz : Fin N → ℝ) (I : Fin K → Fin N → ℝ)
    (hu : ∀ n, cosx n * cosx n + cosy n * cosy n + cosz n * cosz n = 1) :
    lab w cosx cosy cosz I 4 + lab w cosx cosy cosz I 5 + lab w cosx cosy cosz I 6 =
      lab w cosx cosy cosz I 0 := by
  unfold lab group
  rw [← Finset.sum_add_distrib, ← Finset.sum_add_distrib]
  apply Finset.sum_congr rfl
  intro k _
  rw [← Finset.sum_add_distrib, ← Finset.sum_add_distrib]
  apply Finset.sum_congr rfl
  intro n _
  have e4 : factor (cosx n) (cosy n) (cosz n) 4 = cosx n * cosx n := rfl
  have e5 : factor (cosx n) (cosy n) (cosz n) 5 = cosy n * cosy n := rfl
  have e6 : factor (cosx n) (cosy n) (cosz n) 6 = cosz n * cosz n := rfl
  have e0 : factor (cosx n) (cosy n) (cosz n) 0 = 1 := rfl
  rw [e4, e5, e6, e0]
  linear_combination w n * I k n * hu n

theorem mean_cs (w : Fin N → ℝ) (I : Fin K → Fin N → ℝ) (hw : ∀ n, 0 ≤ w n) (hI : ∀ k n, 0 ≤ I k n)
    (f : Fin N → ℝ) :
    Spec.mean w I f ^ 2 ≤ Spec.mean w I (fun _ => 1) * Spec.mean w I fun n => f n * f n := by
  unfold Spec.mean
  simp only [← Finset.sum_product' (s := Finset.univ) (t := Finset.univ)
    (f := fun (k : Fin K) (n : Fin N) => w n * I k n * f n),
    ← Finset.sum_product' (s := Finset.univ) (t := Finset.univ)
    (f := fun (k : Fin K) (n : Fin N) => w n * I k n * 1),
    ← Finset.sum_product' (s := Finset.univ) (t := Finset.univ)
    (f := fun (k : Fin K) (n : Fin N) => w n * I k n * (f n * f n))]
  apply Finset.sum_sq_le_sum_mul_sum_of_sq_le_mul
  · intro i _
    have := mul_nonneg (hw i.2) (hI i.1 i.2)
    linarith
  · intro i _
    exact mul_nonneg (mul_nonneg (hw i.2) (hI i.1 i.2)) (mul_self_nonneg _)
  · intro i _
    exact le_of_eq (by ring)

/-- **C101.** No flux exceeds the energy: the moments are those of light. -/
theorem flux_limited (w cosx cosy cosz : Fin N → ℝ) (I : Fin K → Fin N → ℝ) (hw : ∀ n, 0 ≤ w n)
    (hI : ∀ k n, 0 ≤ I k n) (hu : ∀ n, cosx n * cosx n + cosy n * cosy n + cosz n * cosz n = 1) :
    0 ≤ lab w cosx cosy cosz I 0 ∧
    lab w cosx cosy cosz I 1 ^ 2 + lab w cosx cosy cosz I 2 ^ 2 + lab w cosx cosy cosz I 3 ^ 2 ≤
      lab w cosx cosy cosz I 0 ^ 2 := by
  have hx : lab w cosx cosy cosz I 1 ^ 2 ≤ lab w cosx cosy cosz I 0 * lab w cosx cosy cosz I 4 :=
    mean_cs w I hw hI cosx
  have hy : lab w cosx cosy cosz I 2 ^ 2 ≤ lab w cosx cosy cosz I 0 * lab w cosx cosy cosz I 5 :=
    mean_cs w I hw hI cosy
  have hz : lab w cosx cosy cosz I 3 ^ 2 ≤ lab w cosx cosy cosz I 0 * lab w cosx cosy cosz I 6 :=
    mean_cs w I hw hI cosz
  have ht := trace_energy w cosx cosy cosz I hu
  refine ⟨?_, ?_⟩
  · show 0 ≤ Spec.mean w I fun _ => 1
    unfold Spec.mean
    refine Finset.sum_nonneg fun k _ => Finset.sum_nonneg fun n _ => ?_
    have := mul_nonneg (hw n) (hI k n)
    linarith
  · calc _ ≤ lab w cosx cosy cosz I 0 * (lab w cosx cosy cosz I 4 + lab w cosx cosy cosz I 5 +
        lab w cosx cosy cosz I 6) := by linarith
      _ = lab w cosx cosy cosz I 0 ^ 2 := by rw [ht]; ring

/-- Directions and weights of one beam. -/
example : (0.6 : ℝ) * 0.6 + 0 * 0 + 0.8 * 0.8 = 1 := by norm_num

/-! ### The co-moving frame -/

/-- **C101.** The limit keeps the direction of the velocity and brings its size below light. -/
theorem limited_speed {c vmax : ℝ} (hc : 0 < c) (h0 : 0 ≤ vmax) (h1 : vmax < 1) (vx vy vz : ℝ) :
    let v := limited c vmax vx vy vz
    (v.1 * v.1 + v.2.1 * v.2.1 + v.2.2 * v.2.2) * c * c < 1 ∧
      ∃ a, 0 ≤ a ∧ a ≤ 1 ∧ v = (vx * a, vy * a, vz * a) := by
  intro v
  have hs0 : 0 ≤ vx * vx + vy * vy + vz * vz := by
    nlinarith [mul_self_nonneg vx, mul_self_nonneg vy, mul_self_nonneg vz]
  have hq := Real.sq_sqrt hs0
  have hr0 : 0 ≤ Real.sqrt (vx * vx + vy * vy + vz * vz) * c := by positivity
  have hrr : (vx * vx + vy * vy + vz * vz) * c * c =
      (Real.sqrt (vx * vx + vy * vy + vz * vz) * c) ^ 2 := by rw [mul_pow, hq]; ring
  have hv : v = limited c vmax vx vy vz := rfl
  unfold limited at hv
  simp only at hv
  generalize Real.sqrt (vx * vx + vy * vy + vz * vz) * c = r at *
  by_cases h : r > vmax
  · rw [if_pos h] at hv
    have hrp : 0 < r := lt_of_le_of_lt h0 h
    rw [hv]
    refine ⟨?_, vmax / r, div_nonneg h0 hrp.le, by rw [div_le_one hrp]; exact h.le, rfl⟩
    have e : (vx * (vmax / r) * (vx * (vmax / r)) + vy * (vmax / r) * (vy * (vmax / r)) +
        vz * (vmax / r) * (vz * (vmax / r))) * c * c =
        ((vx * vx + vy * vy + vz * vz) * c * c) * (vmax / r) ^ 2 := by ring
    simp only
    rw [e, hrr]
    have : r ^ 2 * (vmax / r) ^ 2 = vmax ^ 2 := by field_simp
    rw [this]
    nlinarith
  · rw [if_neg h] at hv
    rw [hv]
    refine ⟨?_, 1, by norm_num, le_refl _, by simp⟩
    simp only
    rw [hrr]
    have := not_lt.mp h
    nlinarith

/-- What each direction adds, with the frequency map summed out. -/
theorem com_eq (c vx vy vz : ℝ) (w cosx cosy cosz : Fin N → ℝ)
    (shift : Fin N → (Fin K → ℝ) → Fin K → ℝ) (hs : ∀ n q, ∑ k, shift n q k = ∑ k, q k)
    (I : Fin K → Fin N → ℝ) (f : Fin N → ℝ)
    (hS : ∑ n, wcm c vx vy vz (w n) (cosx n) (cosy n) (cosz n) ≠ 0) :
    (∑ n, wcm c vx vy vz (w n) (cosx n) (cosy n) (cosz n)) *
      com c vx vy vz w cosx cosy cosz shift I f =
    ∑ k, ∑ n, I k n * (toCm c vx vy vz (cosx n) (cosy n) (cosz n) *
      wcm c vx vy vz (w n) (cosx n) (cosy n) (cosz n)) * f n := by
  unfold com
  simp only
  generalize hSd : ∑ n, wcm c vx vy vz (w n) (cosx n) (cosy n) (cosz n) = S at *
  rw [Finset.sum_comm]
  conv_rhs => rw [Finset.sum_comm]
  rw [Finset.mul_sum]
  apply Finset.sum_congr rfl
  intro n _
  have h1 : ∑ k, shift n (fun k => I k n * toCm c vx vy vz (cosx n) (cosy n) (cosz n)) k *
      (wcm c vx vy vz (w n) (cosx n) (cosy n) (cosz n) * (1 / S)) * f n =
      (∑ k, I k n * toCm c vx vy vz (cosx n) (cosy n) (cosz n)) *
      ((wcm c vx vy vz (w n) (cosx n) (cosy n) (cosz n) * (1 / S)) * f n) := by
    rw [← hs n (fun k => I k n * toCm c vx vy vz (cosx n) (cosy n) (cosz n)), Finset.sum_mul]
    apply Finset.sum_congr rfl
    intro k _
    ring
  rw [h1, Finset.sum_mul, Finset.mul_sum]
  apply Finset.sum_congr rfl
  intro k _
  field_simp

/-- The weight of the energy of a direction. -/
theorem weight_eq {c vx vy vz x y z : ℝ} (w : ℝ)
    (hv : (vx * vx + vy * vy + vz * vz) * c * c < 1) (hn : vnc c vx vy vz x y z ≠ 0) :
    toCm c vx vy vz x y z * wcm c vx vy vz w x y z =
      w * lorz c vx vy vz ^ 2 * vnc c vx vy vz x y z ^ 2 := by
  have hp : 0 < 1 - (vx * vx + vy * vy + vz * vz) * c * c := by linarith
  have hl : lorz c vx vy vz ^ 2 = 1 / (1 - (vx * vx + vy * vy + vz * vz) * c * c) :=
    Real.sq_sqrt (by positivity)
  unfold toCm wcm
  rw [mul_pow, show lorz c vx vy vz ^ 4 = (lorz c vx vy vz ^ 2) ^ 2 by ring, hl]
  field_simp

/-- **C101.** The energy in the frame of the gas is the Lorentz transform of energy, flux and pressure
in the lab, up to the sum of the weights in that frame. -/
theorem com_energy (c vx vy vz : ℝ) (hv : (vx * vx + vy * vy + vz * vz) * c * c < 1)
    (w cosx cosy cosz : Fin N → ℝ) (hn : ∀ n, vnc c vx vy vz (cosx n) (cosy n) (cosz n) ≠ 0)
    (shift : Fin N → (Fin K → ℝ) → Fin K → ℝ) (hs : ∀ n q, ∑ k, shift n q k = ∑ k, q k)
    (I : Fin K → Fin N → ℝ)
    (hS : ∑ n, wcm c vx vy vz (w n) (cosx n) (cosy n) (cosz n) ≠ 0) :
    let M := lab w cosx cosy cosz I
    (∑ n, wcm c vx vy vz (w n) (cosx n) (cosy n) (cosz n)) *
      comEnergy c vx vy vz w cosx cosy cosz shift I =
    1 / (1 - (vx * vx + vy * vy + vz * vz) * c * c) *
      (M 0 - 2 * c * (vx * M 1 + vy * M 2 + vz * M 3) +
        c ^ 2 * (vx * (vx * M 4 + vy * M 7 + vz * M 8) + vy * (vx * M 10 + vy * M 5 + vz * M 9) +
          vz * (vx * M 11 + vy * M 12 + vz * M 6))) := by
  intro M
  have hp : 0 < 1 - (vx * vx + vy * vy + vz * vz) * c * c := by linarith
  have hl : lorz c vx vy vz ^ 2 = 1 / (1 - (vx * vx + vy * vy + vz * vz) * c * c) :=
    Real.sq_sqrt (by positivity)
  unfold comEnergy
  rw [com_eq c vx vy vz w cosx cosy cosz shift hs I _ hS, ← hl]
  have hM : ∀ s, M s = ∑ k, ∑ n, w n * I k n * factor (cosx n) (cosy n) (cosz n) s := fun _ => rfl
  simp only [hM, Finset.mul_sum, ← Finset.sum_add_distrib, ← Finset.sum_sub_distrib]
  apply Finset.sum_congr rfl
  intro k _
  apply Finset.sum_congr rfl
  intro n _
  rw [weight_eq (w n) hv (hn n)]
  simp only [vnc, factor]
  simp [Matrix.cons_val_zero, Matrix.cons_val_one]
  ring

/-- **C101.** So is the flux. -/
theorem com_flux (c vx vy vz : ℝ) (hv : (vx * vx + vy * vy + vz * vz) * c * c < 1)
    (w cosx cosy cosz : Fin N → ℝ) (hn : ∀ n, vnc c vx vy vz (cosx n) (cosy n) (cosz n) ≠ 0)
    (shift : Fin N → (Fin K → ℝ) → Fin K → ℝ) (hs : ∀ n q, ∑ k, shift n q k = ∑ k, q k)
    (I : Fin K → Fin N → ℝ)
    (hS : ∑ n, wcm c vx vy vz (w n) (cosx n) (cosy n) (cosz n) ≠ 0) :
    let M := lab w cosx cosy cosz I
    let S := ∑ n, wcm c vx vy vz (w n) (cosx n) (cosy n) (cosz n)
    let g := Real.sqrt (1 / (1 - (vx * vx + vy * vy + vz * vz) * c * c))
    let Px := vx * M 4 + vy * M 7 + vz * M 8
    let Py := vx * M 10 + vy * M 5 + vz * M 9
    let Pz := vx * M 11 + vy * M 12 + vz * M 6
    let vF := vx * M 1 + vy * M 2 + vz * M 3
    let b := g * c * (M 0 - c * vF) - g ^ 2 / (1 + g) * c ^ 2 * (vF - c * (vx * Px + vy * Py + vz * Pz))
    let F := comFlux c vx vy vz w cosx cosy cosz shift I
    S * F.1 = g * (M 1 - c * Px - vx * b) ∧ S * F.2.1 = g * (M 2 - c * Py - vy * b) ∧
      S * F.2.2 = g * (M 3 - c * Pz - vz * b) := by
  intro M S g Px Py Pz vF b F
  have hp : 0 < 1 - (vx * vx + vy * vy + vz * vz) * c * c := by linarith
  have hg : lorz c vx vy vz = g := rfl
  have hg0 : 0 < g := Real.sqrt_pos.mpr (by positivity)
  have hM : ∀ s, M s = ∑ k, ∑ n, w n * I k n * factor (cosx n) (cosy n) (cosz n) s := fun _ => rfl
  have key : ∀ (comp : Fin N → ℝ) (vcomp : ℝ) k n,
      I k n * (toCm c vx vy vz (cosx n) (cosy n) (cosz n) *
        wcm c vx vy vz (w n) (cosx n) (cosy n) (cosz n)) *
        cosCm c vx vy vz (cosx n) (cosy n) (cosz n) (comp n) vcomp =
      w n * I k n * g * vnc c vx vy vz (cosx n) (cosy n) (cosz n) *
        (comp n - vcomp * (g * c - g ^ 2 / (1 + g) * c ^ 2 *
          (vx * cosx n + vy * cosy n + vz * cosz n))) := by
    intro comp vcomp k n
    rw [weight_eq (w n) hv (hn n)]
    unfold cosCm angcoef
    rw [hg]
    have h1 := hn n
    have h2 : 1 + g ≠ 0 := by positivity
    generalize vnc c vx vy vz (cosx n) (cosy n) (cosz n) = u at *
    field_simp
  refine ⟨?_, ?_, ?_⟩
  all_goals
    simp only [S, F, comFlux]
    rw [com_eq c vx vy vz w cosx cosy cosz shift hs I _ hS]
    simp only [key]
    simp only [b, vF, Px, Py, Pz, hM, Finset.mul_sum, ← Finset.sum_add_distrib,
      ← Finset.sum_sub_distrib]
    apply Finset.sum_congr rfl
    intro k _
    apply Finset.sum_congr rfl
    intro n _
    simp only [vnc, factor]
    generalize g ^ 2 / (1 + g) = q
    simp [Matrix.cons_val_zero, Matrix.cons_val_one]
    ring

/-- A slow gas meets the hypotheses. -/
example : (0.1 * 0.1 + 0 * 0 + 0 * 0 : ℝ) * 1 * 1 < 1 ∧ vnc 1 0.1 0 0 0.6 0 0.8 ≠ 0 := by
  norm_num [vnc]

end Verif.RadMoments
