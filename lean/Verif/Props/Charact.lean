import Verif.Lemmas.Charact
import Mathlib.Tactic.IntervalCases
import Mathlib.Tactic.Tauto

/-!
# C76: characteristic variables
-/
namespace Verif.Charact
open Verif.Riemann (Gas)
open Verif.Recon (Line slopeX1 slopeX2 slopeX3)

variable {mag : Bool} {g : Gas} {ivx : ℤ} {bx : ℝ} {w : Col}

/-! ## The rows are left eigenvectors -/

theorem quasi_at (hdir : Dir ivx) (v : Col) :
    quasi true g ivx bx w v 0 = w ivx * v 0 + w 0 * v ivx ∧
    quasi true g ivx bx w v ivx = w ivx * v ivx + (gradP g v + (w (IBY g) * v (IBY g) + w (IBZ g) * v (IBZ g))) / w 0 ∧
    quasi true g ivx bx w v (ivy ivx) = w ivx * v (ivy ivx) - bx * v (IBY g) / w 0 ∧
    quasi true g ivx bx w v (ivz ivx) = w ivx * v (ivz ivx) - bx * v (IBZ g) / w 0 ∧
    quasi true g ivx bx w v (IBY g) = w ivx * v (IBY g) + w (IBY g) * v ivx - bx * v (ivy ivx) ∧
    quasi true g ivx bx w v (IBZ g) = w ivx * v (IBZ g) + w (IBZ g) * v ivx - bx * v (ivz ivx) := by
  rcases hdir with rfl | rfl | rfl <;> cases g <;> simp [quasi, ivy, ivz, IBY, IBZ, fld]

theorem quasi_p (gamma : ℝ) (hdir : Dir ivx) (v : Col) :
    quasi mag (.adiabatic gamma) ivx bx w v 4 = w ivx * v 4 + gamma * w 4 * v ivx := by
  rcases hdir with rfl | rfl | rfl <;> simp [quasi, ivy, ivz, IBY, IBZ]

/-- Values of the speeds. -/
theorem speeds (h : Phys g w) :
    Speeds g bx w (Real.sqrt (cfsq g bx w)) (|bx| / Real.sqrt (w 0)) (Real.sqrt (cssq g bx w)) := by
  obtain ⟨r1, r2, r3, r4, r5, r6, r7, r8⟩ := roots (bx := bx) h
  have hd := h.d_pos
  have ca2 : (|bx| / Real.sqrt (w 0)) ^ 2 = bx ^ 2 / w 0 := by rw [div_pow, sq_abs, Real.sq_sqrt hd.le]
  have ca0 : 0 ≤ |bx| / Real.sqrt (w 0) := by positivity
  refine ⟨Real.sqrt_nonneg _, ?_, ?_, ?_, ?_, ?_, ?_⟩
  · rw [← sq_le_sq₀ (Real.sqrt_nonneg _) ca0, ca2, Real.sq_sqrt r4, le_div_iff₀ hd]; linarith
  · rw [← sq_le_sq₀ ca0 (Real.sqrt_nonneg _), ca2, Real.sq_sqrt r3.le, div_le_iff₀ hd]; linarith
  · rw [Real.sq_sqrt r4, Real.sq_sqrt r3.le, ← asq_eq]; exact ⟨r5, r6⟩
  · rw [ca2]; field_simp
  · rw [Real.sq_sqrt r4, Real.sq_sqrt r3.le, ← asq_eq, r1]; rfl
  · rw [Real.sq_sqrt r4, Real.sq_sqrt r3.le, ← asq_eq, r2]

/-- With a magnetic field: each characteristic variable of `LeftEigenmatrixDotVector` obeys an advection equation of its own, with
the speeds of the fast, Alfvén, slow (and entropy) waves in ascending order. -/
theorem left_eigen_mhd (h : Phys g w) (hdir : Dir ivx) :
    ∃ cf ca cs, Speeds g bx w cf ca cs ∧ ∀ v n, 0 ≤ n → n < nwave true g →
      leftM g ivx bx w (quasi true g ivx bx w v) n = (w ivx + waves true g cf ca cs 0 n) * leftM g ivx bx w v n := by
  refine ⟨_, _, _, speeds h, ?_⟩
  intro v n hn0 hn
  have F := facts (bx := bx) h
  obtain ⟨hu, hby, hbz⟩ := unit g w
  obtain ⟨q0, q1, q2, q3, q5, q6⟩ := quasi_at (g := g) (bx := bx) (w := w) hdir v
  have hd := h.d_pos
  have hr : 0 < Real.sqrt (w 0) := Real.sqrt_pos.mpr hd
  have hr2 : Real.sqrt (w 0) ^ 2 = w 0 := Real.sq_sqrt hd.le
  have ha := snd_pos h
  have ha2 := snd_sq h
  have hG := gamp_eq h
  have habs := sgn_abs bx
  generalize Real.sqrt (btsq g w) = bt at F hby hbz
  cases g with
  | adiabatic gamma =>
    have qp := quasi_p (mag := true) (w := w) (bx := bx) gamma hdir v
    simp only [gradP] at q1
    simp only [gamp] at hG
    have hn7 : n < 7 := by simpa [nwave, IBY] using hn
    have f1 := fast_eig F 1 (w ivx) (v 4) (v ivx) (bet2 1 (.adiabatic gamma) w * v (ivy ivx) + bet3 0 (.adiabatic gamma) w * v (ivz ivx))
      (bet2 1 (.adiabatic gamma) w * v (IBY (.adiabatic gamma)) + bet3 0 (.adiabatic gamma) w * v (IBZ (.adiabatic gamma))) (by norm_num)
    have f2 := fast_eig F (-1) (w ivx) (v 4) (v ivx) (bet2 1 (.adiabatic gamma) w * v (ivy ivx) + bet3 0 (.adiabatic gamma) w * v (ivz ivx))
      (bet2 1 (.adiabatic gamma) w * v (IBY (.adiabatic gamma)) + bet3 0 (.adiabatic gamma) w * v (IBZ (.adiabatic gamma))) (by norm_num)
    have f3 := slow_eig F 1 (w ivx) (v 4) (v ivx) (bet2 1 (.adiabatic gamma) w * v (ivy ivx) + bet3 0 (.adiabatic gamma) w * v (ivz ivx))
      (bet2 1 (.adiabatic gamma) w * v (IBY (.adiabatic gamma)) + bet3 0 (.adiabatic gamma) w * v (IBZ (.adiabatic gamma))) (by norm_num)
    have f4 := slow_eig F (-1) (w ivx) (v 4) (v ivx) (bet2 1 (.adiabatic gamma) w * v (ivy ivx) + bet3 0 (.adiabatic gamma) w * v (ivz ivx))
      (bet2 1 (.adiabatic gamma) w * v (IBY (.adiabatic gamma)) + bet3 0 (.adiabatic gamma) w * v (IBZ (.adiabatic gamma))) (by norm_num)
    have hs := F.ss
    interval_cases n <;> simp only [leftM, q0, q1, q2, q3, q5, q6, qp, waves, Int.reduceEq, if_true, if_false, one_ne_zero, OfNat.ofNat_ne_zero, OfNat.one_ne_ofNat, OfNat.ofNat_ne_one, hby, hbz, habs] <;>
      clear q0 q1 q2 q3 q5 q6 qp habs hby hbz F <;>
      generalize asq (.adiabatic gamma) w = A at * <;>
      generalize snd (.adiabatic gamma) w = a at * <;>
      generalize Real.sqrt (w 0) = r at * <;>
      generalize Real.sqrt (cfsq (.adiabatic gamma) bx w) = cf at * <;>
      generalize Real.sqrt (cssq (.adiabatic gamma) bx w) = cs at * <;>
      generalize alphaF (.adiabatic gamma) bx w = alf at * <;>
      generalize alphaS (.adiabatic gamma) bx w = als at * <;>
      generalize sgn bx = s at * <;>
      generalize bet2 1 (.adiabatic gamma) w = b2 at * <;>
      generalize bet3 0 (.adiabatic gamma) w = b3 at * <;>
      generalize gamma * w 4 = G at * <;>
      generalize w 0 = d at * <;>
      subst ha2 hr2 hG
    · linear_combination (norm := (field_simp; ring)) (1 / (2 * a ^ 2 * r ^ 2)) * f1 + (als * bt * v ivx / (2 * a * r)) * hu
    · linear_combination (norm := (field_simp; ring)) (bx / (2 * r ^ 2) * (b2 * v (IBZ (.adiabatic gamma)) - b3 * v (IBY (.adiabatic gamma)))) * hs
    · linear_combination (norm := (field_simp; ring)) (1 / (2 * a ^ 2 * r ^ 2)) * f3 - (alf * bt * v ivx / (2 * a * r)) * hu
    · field_simp; ring
    · linear_combination (norm := (field_simp; ring)) (1 / (2 * a ^ 2 * r ^ 2)) * f4 - (alf * bt * v ivx / (2 * a * r)) * hu
    · linear_combination (norm := (field_simp; ring)) -(bx / (2 * r ^ 2) * (b2 * v (IBZ (.adiabatic gamma)) - b3 * v (IBY (.adiabatic gamma)))) * hs
    · linear_combination (norm := (field_simp; ring)) (1 / (2 * a ^ 2 * r ^ 2)) * f2 + (als * bt * v ivx / (2 * a * r)) * hu
  | isothermal c =>
    simp only [gradP] at q1
    simp only [snd, asq] at ha ha2 hG F
    have hn7 : n < 6 := by simpa [nwave, IBY] using hn
    have f1 := fast_eig F 1 (w ivx) (c ^ 2 * v 0) (v ivx) (bet2 1 (.isothermal c) w * v (ivy ivx) + bet3 0 (.isothermal c) w * v (ivz ivx))
      (bet2 1 (.isothermal c) w * v (IBY (.isothermal c)) + bet3 0 (.isothermal c) w * v (IBZ (.isothermal c))) (by norm_num)
    have f2 := fast_eig F (-1) (w ivx) (c ^ 2 * v 0) (v ivx) (bet2 1 (.isothermal c) w * v (ivy ivx) + bet3 0 (.isothermal c) w * v (ivz ivx))
      (bet2 1 (.isothermal c) w * v (IBY (.isothermal c)) + bet3 0 (.isothermal c) w * v (IBZ (.isothermal c))) (by norm_num)
    have f3 := slow_eig F 1 (w ivx) (c ^ 2 * v 0) (v ivx) (bet2 1 (.isothermal c) w * v (ivy ivx) + bet3 0 (.isothermal c) w * v (ivz ivx))
      (bet2 1 (.isothermal c) w * v (IBY (.isothermal c)) + bet3 0 (.isothermal c) w * v (IBZ (.isothermal c))) (by norm_num)
    have f4 := slow_eig F (-1) (w ivx) (c ^ 2 * v 0) (v ivx) (bet2 1 (.isothermal c) w * v (ivy ivx) + bet3 0 (.isothermal c) w * v (ivz ivx))
      (bet2 1 (.isothermal c) w * v (IBY (.isothermal c)) + bet3 0 (.isothermal c) w * v (IBZ (.isothermal c))) (by norm_num)
    have hs := F.ss
    interval_cases n <;> simp only [leftM, q0, q1, q2, q3, q5, q6, waves, Int.reduceEq, if_true, if_false, one_ne_zero, OfNat.ofNat_ne_zero, OfNat.one_ne_ofNat, OfNat.ofNat_ne_one, hby, hbz, habs] <;>
      clear q0 q1 q2 q3 q5 q6 habs hby hbz F <;>
      generalize Real.sqrt (w 0) = r at * <;>
      generalize Real.sqrt (cfsq (.isothermal c) bx w) = cf at * <;>
      generalize Real.sqrt (cssq (.isothermal c) bx w) = cs at * <;>
      generalize alphaF (.isothermal c) bx w = alf at * <;>
      generalize alphaS (.isothermal c) bx w = als at * <;>
      generalize sgn bx = s at * <;>
      generalize bet2 1 (.isothermal c) w = b2 at * <;>
      generalize bet3 0 (.isothermal c) w = b3 at * <;>
      generalize w 0 = d at * <;>
      subst hr2
    · linear_combination (norm := (field_simp; ring)) (1 / (2 * c ^ 2 * r ^ 2)) * f1 + (als * bt * v ivx / (2 * c * r)) * hu
    · linear_combination (norm := (field_simp; ring)) (bx / (2 * r ^ 2) * (b2 * v (IBZ (.isothermal c)) - b3 * v (IBY (.isothermal c)))) * hs
    · linear_combination (norm := (field_simp; ring)) (1 / (2 * c ^ 2 * r ^ 2)) * f3 - (alf * bt * v ivx / (2 * c * r)) * hu
    · linear_combination (norm := (field_simp; ring)) (1 / (2 * c ^ 2 * r ^ 2)) * f4 - (alf * bt * v ivx / (2 * c * r)) * hu
    · linear_combination (norm := (field_simp; ring)) -(bx / (2 * r ^ 2) * (b2 * v (IBZ (.isothermal c)) - b3 * v (IBY (.isothermal c)))) * hs
    · linear_combination (norm := (field_simp; ring)) (1 / (2 * c ^ 2 * r ^ 2)) * f2 + (als * bt * v ivx / (2 * c * r)) * hu

theorem quasiH_at (hdir : Dir ivx) (v : Col) :
    quasi false g ivx bx w v 0 = w ivx * v 0 + w 0 * v ivx ∧
    quasi false g ivx bx w v ivx = w ivx * v ivx + gradP g v / w 0 ∧
    quasi false g ivx bx w v (ivy ivx) = w ivx * v (ivy ivx) ∧
    quasi false g ivx bx w v (ivz ivx) = w ivx * v (ivz ivx) := by
  rcases hdir with rfl | rfl | rfl <;> cases g <;> simp [quasi, ivy, ivz, fld]

/-- The same without a field: two sound waves, and the entropy and the transverse velocities carried with the gas. -/
theorem left_eigen_hydro (h : Phys g w) (hdir : Dir ivx) :
    ∃ a, 0 < a ∧ a ^ 2 = sound2 g w ∧ ∀ v n, 0 ≤ n → n < nwave false g →
      leftH g ivx w (quasi false g ivx bx w v) n = (w ivx + waves false g 0 0 0 a n) * leftH g ivx w v n := by
  have hd := h.d_pos
  cases g with
  | adiabatic gamma =>
    obtain ⟨-, h2, h3⟩ := h
    have hA : 0 < gamma * w 4 / w 0 := by positivity
    refine ⟨Real.sqrt (gamma * w 4 / w 0), Real.sqrt_pos.mpr hA, Real.sq_sqrt hA.le, ?_⟩
    intro v n hn0 hn
    obtain ⟨q0, q1, q2, q3⟩ := quasiH_at (g := .adiabatic gamma) (bx := bx) (w := w) hdir v
    have qp := quasi_p (mag := false) (w := w) (bx := bx) gamma hdir v
    have hn7 : n < 5 := by simpa [nwave, IBY] using hn
    have ha := Real.sqrt_pos.mpr hA
    have ha2 := Real.sq_sqrt hA.le
    have hG : gamma * w 4 = w 0 * (gamma * w 4 / w 0) := by field_simp
    simp only [gradP] at q1
    interval_cases n <;> simp only [leftH, q0, q1, q2, q3, qp, waves, Int.reduceEq, if_true, if_false, one_ne_zero,
        OfNat.ofNat_ne_zero, OfNat.ofNat_ne_one] <;>
      clear q0 q1 q2 q3 qp <;>
      generalize Real.sqrt (gamma * w 4 / w 0) = a at * <;>
      generalize gamma * w 4 / w 0 = A at * <;>
      generalize gamma * w 4 = G at * <;>
      subst ha2 hG <;>
      field_simp <;> ring
  | isothermal c =>
    refine ⟨c, h.2, rfl, ?_⟩
    intro v n hn0 hn
    obtain ⟨q0, q1, q2, q3⟩ := quasiH_at (g := .isothermal c) (bx := bx) (w := w) hdir v
    have hn7 : n < 4 := by simpa [nwave, IBY] using hn
    have hc := h.2
    simp only [gradP] at q1
    interval_cases n <;> simp only [leftH, q0, q1, q2, q3, waves, Int.reduceEq, if_true, if_false, one_ne_zero,
        OfNat.ofNat_ne_zero, OfNat.ofNat_ne_one] <;>
      clear q0 q1 q2 q3 <;>
      field_simp <;> ring

/-! ## There and back -/

theorem bet_same (hb : bt2 g w ≠ 0) : bet2 0 g w = bet2 1 g w ∧ bet3 0 g w = bet3 0 g w := by
  have t0 : 0 ≤ btsq g w := by unfold btsq; positivity
  have : Real.sqrt (btsq g w) ≠ 0 := by rw [Real.sqrt_ne_zero t0]; exact hb
  refine ⟨?_, rfl⟩
  unfold bet2
  rw [if_pos this, if_pos this]

theorem bet_zero (hb : bt2 g w = 0) : bet2 0 g w = 0 ∧ bet3 0 g w = 0 := by
  have : Real.sqrt (btsq g w) = 0 := by rw [show btsq g w = bt2 g w from rfl, hb, Real.sqrt_zero]
  unfold bet2 bet3
  rw [if_neg (not_not.mpr this), if_neg (not_not.mpr this)]
  exact ⟨rfl, rfl⟩

set_option maxHeartbeats 1600000 in
/-- The components of the sum over the right eigenvectors, for the characteristic variables of `v`, without the last factor. -/
theorem back (h : Phys g w) (hdir : Dir ivx) (v : Col) :
    let c := leftM g ivx bx w v
    let R := rightM g ivx bx w c
    let X := bet2 1 g w * v (ivy ivx) + bet3 0 g w * v (ivz ivx)
    let Y := bet2 1 g w * v (ivz ivx) - bet3 0 g w * v (ivy ivx)
    let B := bet2 1 g w * v (IBY g) + bet3 0 g w * v (IBZ g)
    let C := bet2 1 g w * v (IBZ g) - bet3 0 g w * v (IBY g)
    R 0 = v 0 ∧ R ivx = v ivx ∧ (IBY g = 5 → R 4 = v 4) ∧
      R (ivy ivx) = bet2 0 g w * X - bet3 0 g w * Y ∧ R (ivz ivx) = bet3 0 g w * X + bet2 0 g w * Y ∧
      R (IBY g) = bet2 0 g w * B - bet3 0 g w * C ∧ R (IBZ g) = bet3 0 g w * B + bet2 0 g w * C := by
  have F := facts (bx := bx) h
  have hone := F.one
  have hmean := F.mean
  have hs := F.ss
  have hd := h.d_pos
  have hr : 0 < Real.sqrt (w 0) := Real.sqrt_pos.mpr hd
  have hr2 : Real.sqrt (w 0) ^ 2 = w 0 := Real.sq_sqrt hd.le
  have ha := snd_pos h
  have ha2 := snd_sq h
  clear F
  cases g with
  | adiabatic gamma =>
    rcases hdir with rfl | rfl | rfl <;>
      simp only [leftM, rightM, IBY, IBZ, ivy, ivz, Int.reduceAdd, Int.reduceSub, Int.reduceMod, Int.reduceEq, if_true, if_false,
        one_ne_zero, OfNat.ofNat_ne_zero, OfNat.ofNat_ne_one, OfNat.one_ne_ofNat, zero_ne_one, OfNat.zero_ne_ofNat, sub_self, zero_add] <;>
      generalize asq (.adiabatic gamma) w = A at * <;>
      generalize snd (.adiabatic gamma) w = a at * <;>
      generalize Real.sqrt (w 0) = r at * <;>
      generalize Real.sqrt (cfsq (.adiabatic gamma) bx w) = cf at * <;>
      generalize Real.sqrt (cssq (.adiabatic gamma) bx w) = cs at * <;>
      generalize alphaF (.adiabatic gamma) bx w = alf at * <;>
      generalize alphaS (.adiabatic gamma) bx w = als at * <;>
      generalize sgn bx = s at * <;>
      generalize bet2 1 (.adiabatic gamma) w = b2 at * <;>
      generalize bet3 0 (.adiabatic gamma) w = b3 at * <;>
      generalize bet2 0 (.adiabatic gamma) w = k2 at * <;>
      generalize w 0 = d at * <;>
      subst ha2 hr2 <;>
      refine ⟨?_, ?_, ?_, ?_, ?_, ?_, ?_⟩
    · linear_combination (norm := (field_simp; ring)) (v 4 / a ^ 2) * hone
    · linear_combination (norm := (field_simp; ring)) (v 1 / a ^ 2) * hmean
    · intro _; linear_combination (norm := (field_simp; ring)) v 4 * hone
    · linear_combination (norm := (field_simp; ring)) (k2 * (b2 * v 2 + b3 * v 3) / a ^ 2 * (s * s)) * hmean + k2 * (b2 * v 2 + b3 * v 3) * hs
    · linear_combination (norm := (field_simp; ring)) (b3 * (b2 * v 2 + b3 * v 3) / a ^ 2 * (s * s)) * hmean + b3 * (b2 * v 2 + b3 * v 3) * hs
    · linear_combination (norm := (field_simp; ring)) k2 * (b2 * v 5 + b3 * v 6) * hone - b3 * (b2 * v 6 - b3 * v 5) * hs
    · linear_combination (norm := (field_simp; ring)) b3 * (b2 * v 5 + b3 * v 6) * hone + k2 * (b2 * v 6 - b3 * v 5) * hs
    · linear_combination (norm := (field_simp; ring)) (v 4 / a ^ 2) * hone
    · linear_combination (norm := (field_simp; ring)) (v 2 / a ^ 2) * hmean
    · intro _; linear_combination (norm := (field_simp; ring)) v 4 * hone
    · linear_combination (norm := (field_simp; ring)) (k2 * (b2 * v 3 + b3 * v 1) / a ^ 2 * (s * s)) * hmean + k2 * (b2 * v 3 + b3 * v 1) * hs
    · linear_combination (norm := (field_simp; ring)) (b3 * (b2 * v 3 + b3 * v 1) / a ^ 2 * (s * s)) * hmean + b3 * (b2 * v 3 + b3 * v 1) * hs
    · linear_combination (norm := (field_simp; ring)) k2 * (b2 * v 5 + b3 * v 6) * hone - b3 * (b2 * v 6 - b3 * v 5) * hs
    · linear_combination (norm := (field_simp; ring)) b3 * (b2 * v 5 + b3 * v 6) * hone + k2 * (b2 * v 6 - b3 * v 5) * hs
    · linear_combination (norm := (field_simp; ring)) (v 4 / a ^ 2) * hone
    · linear_combination (norm := (field_simp; ring)) (v 3 / a ^ 2) * hmean
    · intro _; linear_combination (norm := (field_simp; ring)) v 4 * hone
    · linear_combination (norm := (field_simp; ring)) (k2 * (b2 * v 1 + b3 * v 2) / a ^ 2 * (s * s)) * hmean + k2 * (b2 * v 1 + b3 * v 2) * hs
    · linear_combination (norm := (field_simp; ring)) (b3 * (b2 * v 1 + b3 * v 2) / a ^ 2 * (s * s)) * hmean + b3 * (b2 * v 1 + b3 * v 2) * hs
    · linear_combination (norm := (field_simp; ring)) k2 * (b2 * v 5 + b3 * v 6) * hone - b3 * (b2 * v 6 - b3 * v 5) * hs
    · linear_combination (norm := (field_simp; ring)) b3 * (b2 * v 5 + b3 * v 6) * hone + k2 * (b2 * v 6 - b3 * v 5) * hs
  | isothermal c =>
    simp only [snd] at ha hmean
    rcases hdir with rfl | rfl | rfl <;>
      simp only [leftM, rightM, snd, IBY, IBZ, ivy, ivz, Int.reduceAdd, Int.reduceSub, Int.reduceMod, Int.reduceEq, if_true, if_false,
        one_ne_zero, OfNat.ofNat_ne_zero, OfNat.ofNat_ne_one, OfNat.one_ne_ofNat, zero_ne_one, OfNat.zero_ne_ofNat, sub_self, zero_add] <;>
      generalize Real.sqrt (w 0) = r at * <;>
      generalize Real.sqrt (cfsq (.isothermal c) bx w) = cf at * <;>
      generalize Real.sqrt (cssq (.isothermal c) bx w) = cs at * <;>
      generalize alphaF (.isothermal c) bx w = alf at * <;>
      generalize alphaS (.isothermal c) bx w = als at * <;>
      generalize sgn bx = s at * <;>
      generalize bet2 1 (.isothermal c) w = b2 at * <;>
      generalize bet3 0 (.isothermal c) w = b3 at * <;>
      generalize bet2 0 (.isothermal c) w = k2 at * <;>
      generalize w 0 = d at * <;>
      subst hr2 <;>
      refine ⟨?_, ?_, ?_, ?_, ?_, ?_, ?_⟩
    · linear_combination (norm := (field_simp; ring)) v 0 * hone
    · linear_combination (norm := (field_simp; ring)) (v 1 / c ^ 2) * hmean
    · intro hn; norm_num at hn
    · linear_combination (norm := (field_simp; ring)) (k2 * (b2 * v 2 + b3 * v 3) / c ^ 2 * (s * s)) * hmean + k2 * (b2 * v 2 + b3 * v 3) * hs
    · linear_combination (norm := (field_simp; ring)) (b3 * (b2 * v 2 + b3 * v 3) / c ^ 2 * (s * s)) * hmean + b3 * (b2 * v 2 + b3 * v 3) * hs
    · linear_combination (norm := (field_simp; ring)) k2 * (b2 * v 4 + b3 * v 5) * hone - b3 * (b2 * v 5 - b3 * v 4) * hs
    · linear_combination (norm := (field_simp; ring)) b3 * (b2 * v 4 + b3 * v 5) * hone + k2 * (b2 * v 5 - b3 * v 4) * hs
    · linear_combination (norm := (field_simp; ring)) v 0 * hone
    · linear_combination (norm := (field_simp; ring)) (v 2 / c ^ 2) * hmean
    · intro hn; norm_num at hn
    · linear_combination (norm := (field_simp; ring)) (k2 * (b2 * v 3 + b3 * v 1) / c ^ 2 * (s * s)) * hmean + k2 * (b2 * v 3 + b3 * v 1) * hs
    · linear_combination (norm := (field_simp; ring)) (b3 * (b2 * v 3 + b3 * v 1) / c ^ 2 * (s * s)) * hmean + b3 * (b2 * v 3 + b3 * v 1) * hs
    · linear_combination (norm := (field_simp; ring)) k2 * (b2 * v 4 + b3 * v 5) * hone - b3 * (b2 * v 5 - b3 * v 4) * hs
    · linear_combination (norm := (field_simp; ring)) b3 * (b2 * v 4 + b3 * v 5) * hone + k2 * (b2 * v 5 - b3 * v 4) * hs
    · linear_combination (norm := (field_simp; ring)) v 0 * hone
    · linear_combination (norm := (field_simp; ring)) (v 3 / c ^ 2) * hmean
    · intro hn; norm_num at hn
    · linear_combination (norm := (field_simp; ring)) (k2 * (b2 * v 1 + b3 * v 2) / c ^ 2 * (s * s)) * hmean + k2 * (b2 * v 1 + b3 * v 2) * hs
    · linear_combination (norm := (field_simp; ring)) (b3 * (b2 * v 1 + b3 * v 2) / c ^ 2 * (s * s)) * hmean + b3 * (b2 * v 1 + b3 * v 2) * hs
    · linear_combination (norm := (field_simp; ring)) k2 * (b2 * v 4 + b3 * v 5) * hone - b3 * (b2 * v 5 - b3 * v 4) * hs
    · linear_combination (norm := (field_simp; ring)) b3 * (b2 * v 4 + b3 * v 5) * hone + k2 * (b2 * v 5 - b3 * v 4) * hs

theorem comp_cases {ivx n : ℤ} (hdir : Dir ivx) (hn0 : 0 ≤ n) (hn : n < nwave true g) :
    n = 0 ∨ n = ivx ∨ (n = 4 ∧ IBY g = 5) ∨ n = ivy ivx ∨ n = ivz ivx ∨ n = IBY g ∨ n = IBZ g := by
  cases g
  · change n < 5 + 2 at hn
    rcases hdir with rfl | rfl | rfl <;> interval_cases n <;> simp [ivy, ivz, IBY, IBZ]
  · change n < 4 + 2 at hn
    rcases hdir with rfl | rfl | rfl <;> interval_cases n <;> simp [ivy, ivz, IBY, IBZ]

/-- Primitive to characteristic variables and back is the identity, if there is a transverse field. -/
theorem right_left_mhd (h : Phys g w) (hdir : Dir ivx) (hb : bt2 g w ≠ 0) (v : Col) {n : ℤ} (hn0 : 0 ≤ n)
    (hn : n < nwave true g) : rightM g ivx bx w (leftM g ivx bx w v) n = v n := by
  obtain ⟨h0, h1, h2, h3, h4, h5, h6⟩ := back (bx := bx) h hdir v
  have e := (bet_same hb).1
  have hu := (unit g w).1
  rw [e] at h3 h4 h5 h6
  rcases comp_cases hdir hn0 hn with rfl | rfl | ⟨rfl, hg⟩ | rfl | rfl | rfl | rfl
  · exact h0
  · exact h1
  · exact h2 hg
  · rw [h3]; linear_combination v (ivy ivx) * hu
  · rw [h4]; linear_combination v (ivz ivx) * hu
  · rw [h5]; linear_combination v (IBY g) * hu
  · rw [h6]; linear_combination v (IBZ g) * hu

/-- Without a transverse field the transverse velocities and fields are lost: `RightEigenmatrixDotVector` sets
`bet2 = bet3 = 0` where `LeftEigenmatrixDotVector` has `bet2 = 1`. -/
theorem right_left_lost (h : Phys g w) (hdir : Dir ivx) (hb : bt2 g w = 0) (v : Col) {n : ℤ} (hn0 : 0 ≤ n)
    (hn : n < nwave true g) :
    (Transverse g ivx n → rightM g ivx bx w (leftM g ivx bx w v) n = 0) ∧
    (¬ Transverse g ivx n → rightM g ivx bx w (leftM g ivx bx w v) n = v n) := by
  obtain ⟨h0, h1, h2, h3, h4, h5, h6⟩ := back (bx := bx) h hdir v
  obtain ⟨e1, e2⟩ := bet_zero hb
  rw [e1, e2] at h3 h4 h5 h6
  constructor
  · rintro (rfl | rfl | rfl | rfl)
    · rw [h3]; ring
    · rw [h4]; ring
    · rw [h5]; ring
    · rw [h6]; ring
  · intro ht
    unfold Transverse at ht
    rcases comp_cases hdir hn0 hn with rfl | rfl | ⟨rfl, hg⟩ | h' | h' | h' | h'
    · exact h0
    · exact h1
    · exact h2 hg
    all_goals exact absurd h' (by tauto)

/-- Without magnetic fields the transformation and its inverse always fit. -/
theorem right_left_hydro (h : Phys g w) (hdir : Dir ivx) (v : Col) {n : ℤ} (hn0 : 0 ≤ n) (hn : n < nwave false g) :
    rightH g ivx w (leftH g ivx w v) n = v n := by
  have hd := h.d_pos
  cases g with
  | adiabatic gamma =>
    obtain ⟨-, h2, h3⟩ := h
    have hA : 0 < gamma * w 4 / w 0 := by positivity
    have ha := Real.sqrt_pos.mpr hA
    have ha2 := Real.sq_sqrt hA.le
    have hn7 : n < 5 := by simpa [nwave, IBY] using hn
    rcases hdir with rfl | rfl | rfl <;> interval_cases n <;>
      simp only [leftH, rightH, ivy, ivz, Int.reduceAdd, Int.reduceSub, Int.reduceMod, Int.reduceEq, if_true, if_false,
        one_ne_zero, OfNat.ofNat_ne_zero, OfNat.ofNat_ne_one, OfNat.one_ne_ofNat, zero_ne_one, OfNat.zero_ne_ofNat, sub_self, zero_add] <;>
      generalize Real.sqrt (gamma * w 4 / w 0) = a at * <;>
      generalize gamma * w 4 / w 0 = A at * <;>
      field_simp <;> ring
  | isothermal c =>
    have hc := h.2
    have hn7 : n < 4 := by simpa [nwave, IBY] using hn
    rcases hdir with rfl | rfl | rfl <;> interval_cases n <;>
      simp only [leftH, rightH, ivy, ivz, Int.reduceAdd, Int.reduceSub, Int.reduceMod, Int.reduceEq, if_true, if_false,
        one_ne_zero, OfNat.ofNat_ne_zero, OfNat.ofNat_ne_one, OfNat.one_ne_ofNat, zero_ne_one, OfNat.zero_ne_ofNat, sub_self, zero_add] <;>
      field_simp <;> ring

/-! ## Linear data -/

theorem leftM_smul (v : Col) (c : ℝ) {n : ℤ} (hn0 : 0 ≤ n) (hn : n < nwave true g) :
    leftM g ivx bx w (fun m => v m * c) n = leftM g ivx bx w v n * c := by
  cases g with
  | adiabatic gamma =>
    have hn7 : n < 7 := by simpa [nwave, IBY] using hn
    interval_cases n <;> simp only [leftM, Int.reduceEq, if_true, if_false, one_ne_zero, OfNat.ofNat_ne_zero, OfNat.ofNat_ne_one] <;> ring
  | isothermal c =>
    have hn7 : n < 6 := by simpa [nwave, IBY] using hn
    interval_cases n <;> simp only [leftM, Int.reduceEq, if_true, if_false, one_ne_zero, OfNat.ofNat_ne_zero, OfNat.ofNat_ne_one] <;> ring

theorem leftH_smul (v : Col) (c : ℝ) {n : ℤ} (hn0 : 0 ≤ n) (hn : n < nwave false g) :
    leftH g ivx w (fun m => v m * c) n = leftH g ivx w v n * c := by
  cases g with
  | adiabatic gamma =>
    have hn7 : n < 5 := by simpa [nwave, IBY] using hn
    interval_cases n <;> simp only [leftH, Int.reduceEq, if_true, if_false, one_ne_zero, OfNat.ofNat_ne_zero, OfNat.ofNat_ne_one] <;> ring
  | isothermal c =>
    have hn7 : n < 4 := by simpa [nwave, IBY] using hn
    interval_cases n <;> simp only [leftH, Int.reduceEq, if_true, if_false, one_ne_zero, OfNat.ofNat_ne_zero, OfNat.ofNat_ne_one] <;> ring

theorem left_smul (v : Col) (c : ℝ) {n : ℤ} (hn0 : 0 ≤ n) (hn : n < nwave mag g) :
    left mag g ivx bx w (fun m => v m * c) n = left mag g ivx bx w v n * c := by
  cases mag
  · exact leftH_smul v c hn0 hn
  · exact leftM_smul v c hn0 hn

/-- The reverse transformation uses only the `NWAVE` characteristic variables. -/
theorem right_congr {u v : Col} (e : ∀ m, 0 ≤ m → m < nwave mag g → u m = v m) {n : ℤ} (hn0 : 0 ≤ n)
    (hn : n < nwave mag g) : right mag g ivx bx w u n = right mag g ivx bx w v n := by
  cases mag with
  | false =>
    cases g with
    | adiabatic gamma =>
      have e' : ∀ m, 0 ≤ m → m < 5 → u m = v m := fun m h1 h2 => e m h1 (by simpa [nwave, IBY] using h2)
      simp only [right, Bool.false_eq_true, if_false, rightH]
      rw [e' 0, e' 1, e' 2, e' 3, e' 4, e n hn0 hn] <;> norm_num
    | isothermal c =>
      have e' : ∀ m, 0 ≤ m → m < 4 → u m = v m := fun m h1 h2 => e m h1 (by simpa [nwave, IBY] using h2)
      simp only [right, Bool.false_eq_true, if_false, rightH]
      rw [e' 0, e' 1, e' 2, e' 3, e n hn0 hn] <;> norm_num
  | true =>
    cases g with
    | adiabatic gamma =>
      have e' : ∀ m, 0 ≤ m → m < 7 → u m = v m := fun m h1 h2 => e m h1 (by simpa [nwave, IBY] using h2)
      simp only [right, if_true, rightM]
      rw [e' 0, e' 1, e' 2, e' 3, e' 4, e' 5, e' 6, e n hn0 hn] <;> norm_num
    | isothermal c =>
      have e' : ∀ m, 0 ≤ m → m < 6 → u m = v m := fun m h1 h2 => e m h1 (by simpa [nwave, IBY] using h2)
      simp only [right, if_true, rightM]
      rw [e' 0, e' 1, e' 2, e' 3, e' 4, e' 5, e n hn0 hn] <;> norm_num

theorem slopes_linear {slope : ℝ → ℝ → ℝ} {dl du f : ℝ} (hs : ∀ b, slope (b * dl) (b * du) = b * f)
    {m c p : Col} (old : Col) (dw : Col) (hm : ∀ n, c n - m n = dw n * dl) (hp : ∀ n, p n - c n = dw n * du) {n : ℤ} (hn0 : 0 ≤ n)
    (hn : n < nwave mag g) :
    slopesC mag g ivx slope bx m c p old n = right mag g ivx bx c (left mag g ivx bx c fun n => dw n * f) n := by
  unfold slopesC
  refine right_congr (fun k h0 h1 => ?_) hn0 hn
  rw [if_pos ⟨h0, h1⟩]
  simp only [hm, hp]
  rw [left_smul dw dl h0 h1, left_smul dw du h0 h1, hs, left_smul dw f h0 h1]

/-- Reconstruction in characteristic variables (`xorder = 2c`) reproduces data that are linear in the coordinate, in all three
directions and with each limiter, if the cell has a transverse field or there is no field in the problem. -/
theorem plm_char_linear {line : Line ℝ} {i : ℤ} (hc : line.Cell i) {mm flat : Bool}
    (hflat : flat = true → line.dxv i = line.dxf i ∧ line.dxv (i - 1) = line.dxf i) {q : ℤ → Col} (a b : Col)
    (hq : ∀ k n, i - 1 ≤ k → k ≤ i + 1 → q k n = a n + b n * line.xv k)
    (h : Phys g (q i)) (hb : mag = true → bt2 g (q i) ≠ 0) (hdir : Dir ivx) {slope : ℝ → ℝ → ℝ}
    (hs : slope = slopeX1 mm flat line i ∨ slope = slopeX2 mm flat line i ∨ slope = slopeX3 mm flat line i)
    (old : Col) {n : ℤ} (hn0 : 0 ≤ n) (hn : n < nwave mag g) :
    let dwm := slopesC mag g ivx slope bx (q (i - 1)) (q i) (q (i + 1)) old
    let r := faces ((line.xf (i + 1) - line.xv i) / line.dxf i) ((line.xv i - line.xf i) / line.dxf i) (q i) dwm
    r.1 n = a n + b n * line.xf (i + 1) ∧ r.2 n = a n + b n * line.xf i := by
  intro dwm r
  have hs' : ∀ t, slope (t * line.dxv (i - 1)) (t * line.dxv i) = t * line.dxf i := by
    intro t
    rcases hs with rfl | rfl | rfl
    · exact Verif.Recon.slopeX1_linear hc hflat
    · rw [Verif.Recon.slopeX2_eq]; exact Verif.Recon.slopeX1_linear hc hflat
    · exact Verif.Recon.slopeX3_linear hc hflat
  have hm : ∀ n, q i n - q (i - 1) n = b n * line.dxv (i - 1) := by
    intro n
    rw [hq i n (by omega) (by omega), hq (i - 1) n (by omega) (by omega), hc.dxv']; ring_nf
  have hp : ∀ n, q (i + 1) n - q i n = b n * line.dxv i := by
    intro n
    rw [hq i n (by omega) (by omega), hq (i + 1) n (by omega) (by omega), hc.dxv]; ring
  have e : dwm n = b n * line.dxf i := by
    change slopesC mag g ivx slope bx (q (i - 1)) (q i) (q (i + 1)) old n = _
    rw [slopes_linear hs' old b hm hp hn0 hn]
    cases mag
    · exact right_left_hydro h hdir _ hn0 hn
    · exact right_left_mhd h hdir (hb rfl) _ hn0 hn
  have hf := hc.dxf_pos
  simp only [r, faces, e]
  rw [hq i n (by omega) (by omega)]
  constructor <;> field_simp <;> ring

/-- The same for the arrays: the hydrodynamic variables keep their places; the field transverse to the direction is in cyclic
order. -/
theorem plm_char_arrays {line : Line ℝ} {i : ℤ} (hc : line.Cell i) {mm flat : Bool}
    (hflat : flat = true → line.dxv i = line.dxf i ∧ line.dxv (i - 1) = line.dxf i) {W B : ℤ → ℤ → ℝ} (a b a' b' : ℤ → ℝ)
    (hW : ∀ k n, i - 1 ≤ k → k ≤ i + 1 → W k n = a n + b n * line.xv k)
    (hB : ∀ k n, i - 1 ≤ k → k ≤ i + 1 → B k n = a' n + b' n * line.xv k)
    (h : Phys g (W i)) (hdir : Dir ivx) (hb : mag = true → B i (ivy ivx - 1) ^ 2 + B i (ivz ivx - 1) ^ 2 ≠ 0) {slope : ℝ → ℝ → ℝ}
    (hs : slope = slopeX1 mm flat line i ∨ slope = slopeX2 mm flat line i ∨ slope = slopeX3 mm flat line i) (old : Col) :
    let q := fun k => gather g ivx (W k) (B k)
    let dwm := slopesC mag g ivx slope (B i (ivx - 1)) (q (i - 1)) (q i) (q (i + 1)) old
    let r := faces ((line.xf (i + 1) - line.xv i) / line.dxf i) ((line.xv i - line.xf i) / line.dxf i) (q i) dwm
    (∀ n, 0 ≤ n → n < nwave false g → r.1 n = a n + b n * line.xf (i + 1) ∧ r.2 n = a n + b n * line.xf i) ∧
    (mag = true →
      r.1 (IBY g) = a' (ivy ivx - 1) + b' (ivy ivx - 1) * line.xf (i + 1) ∧
      r.1 (IBZ g) = a' (ivz ivx - 1) + b' (ivz ivx - 1) * line.xf (i + 1) ∧
      r.2 (IBY g) = a' (ivy ivx - 1) + b' (ivy ivx - 1) * line.xf i ∧
      r.2 (IBZ g) = a' (ivz ivx - 1) + b' (ivz ivx - 1) * line.xf i) := by
  intro q dwm r
  have e1 : ∀ x y, gather g ivx x y (IBY g) = y (ivy ivx - 1) := by
    intro x y
    rcases hdir with rfl | rfl | rfl <;> cases g <;> rfl
  have e2 : ∀ x y, gather g ivx x y (IBZ g) = y (ivz ivx - 1) := by
    intro x y
    rcases hdir with rfl | rfl | rfl <;> cases g <;> rfl
  have e3 : ∀ x y n, n < nwave false g → gather g ivx x y n = x n := by
    intro x y n hn
    simp only [nwave, Bool.false_eq_true, if_false, add_zero] at hn
    unfold gather IBZ
    rw [if_neg (by omega), if_neg (by omega)]
  have hq : ∀ k n, i - 1 ≤ k → k ≤ i + 1 → q k n = gather g ivx a a' n + gather g ivx b b' n * line.xv k := by
    intro k n h1 h2
    simp only [q, gather]
    split
    · exact hB _ _ h1 h2
    split
    · exact hB _ _ h1 h2
    · exact hW _ _ h1 h2
  have hP : Phys g (q i) := by
    have h0 : q i 0 = W i 0 := e3 _ _ _ (by cases g <;> simp [nwave, IBY])
    cases g
    · have h4 : q i 4 = W i 4 := e3 _ _ _ (by simp [nwave, IBY])
      obtain ⟨g1, g2, g3⟩ := h
      exact ⟨h0 ▸ g1, g2, h4 ▸ g3⟩
    · obtain ⟨g1, g2⟩ := h
      exact ⟨h0 ▸ g1, g2⟩
  have hb' : mag = true → bt2 g (q i) ≠ 0 := by
    intro hm
    unfold bt2
    simp only [q]
    rw [e1, e2]
    exact hb hm
  have main := fun n (h0 : 0 ≤ n) (h1 : n < nwave mag g) =>
    plm_char_linear (mag := mag) (bx := B i (ivx - 1)) (ivx := ivx) (g := g) (q := q) hc hflat _ _ hq hP hb' hdir hs old h0 h1
  have mono : nwave false g ≤ nwave mag g := by cases mag <;> simp [nwave]
  constructor
  · intro n h0 h1
    have := main n h0 (lt_of_lt_of_le h1 mono)
    rw [e3 _ _ _ h1, e3 _ _ _ h1] at this
    exact this
  · rintro rfl
    have m1 := main (IBY g) (by cases g <;> simp [IBY]) (by simp [nwave])
    have m2 := main (IBZ g) (by cases g <;> simp [IBY, IBZ]) (by simp [nwave, IBZ])
    rw [e1, e1] at m1
    rw [e2, e2] at m2
    exact ⟨m1.1, m2.1, m1.2, m2.2⟩

/-- Without a transverse field in the cell, every transverse velocity and field is reconstructed as constant in the cell,
whatever the data: the method is of first order in these components. -/
theorem plm_char_flat {slope : ℝ → ℝ → ℝ} {m c p old : Col} (h : Phys g c) (hb : bt2 g c = 0) (hdir : Dir ivx) {n : ℤ}
    (ht : Transverse g ivx n) (up lo : ℝ) :
    let r := faces up lo c (slopesC true g ivx slope bx m c p old)
    r.1 n = c n ∧ r.2 n = c n := by
  intro r
  obtain ⟨e1, e2⟩ := bet_zero hb
  have e : slopesC true g ivx slope bx m c p old n = 0 := by
    simp only [slopesC, right, if_true]
    generalize (fun n => if 0 ≤ n ∧ n < nwave true g then slope (left true g ivx bx c (fun n => c n - m n) n)
      (left true g ivx bx c (fun n => p n - c n) n) else old n) = x
    rcases hdir with rfl | rfl | rfl <;> cases g <;> rcases ht with rfl | rfl | rfl | rfl <;>
      simp [rightM, e1, e2, IBY, IBZ, ivy, ivz]
  simp only [r, faces, e]
  constructor <;> ring

/-! ## Cases -/

/-- Unit cells. -/
noncomputable def unitLine : Line ℝ := ⟨fun i => i, fun i => i + 1/2, fun _ => 1, fun _ => 1⟩

/-- Hypotheses of `plm_char_arrays` (and of the others): a sheared gas with a field that grows; in cell 0 the transverse field is
not zero. -/
example : ∃ (W B : ℤ → ℤ → ℝ) (a b a' b' : ℤ → ℝ), unitLine.Cell 0 ∧
    (∀ k n, 0 - 1 ≤ k → k ≤ 0 + 1 → W k n = a n + b n * unitLine.xv k) ∧
    (∀ k n, 0 - 1 ≤ k → k ≤ 0 + 1 → B k n = a' n + b' n * unitLine.xv k) ∧
    Phys (.adiabatic (5/3)) (W 0) ∧ Dir 2 ∧ B 0 (ivy 2 - 1) ^ 2 + B 0 (ivz 2 - 1) ^ 2 ≠ 0 ∧ W 0 3 ≠ W 1 3 := by
  refine ⟨fun k n => 4 + (n : ℝ) * unitLine.xv k, fun k n => 1 + (n : ℝ) * unitLine.xv k, fun _ => 4, fun n => n, fun _ => 1,
    fun n => n, ?_, fun _ _ _ _ => rfl, fun _ _ _ _ => rfl, ?_, Or.inr (Or.inl rfl), ?_, ?_⟩
  · constructor <;> norm_num [unitLine]
  · refine ⟨?_, ?_, ?_⟩ <;> norm_num [unitLine]
  · norm_num [ivy, ivz, unitLine]
  · norm_num [unitLine]

/-- A case of `plm_char_flat`: the field is along the direction, and the transverse velocity is not constant. -/
example : ∃ m c p : Col, Phys (.adiabatic (5/3)) c ∧ bt2 (.adiabatic (5/3)) c = 0 ∧ Transverse (.adiabatic (5/3)) 1 2 ∧
    m 2 < c 2 ∧ c 2 < p 2 := by
  refine ⟨fun n => if n = 2 then -1 else 0, fun n => if n = 0 ∨ n = 4 then 1 else 0, fun n => if n = 2 then 1 else 0, ?_, ?_,
    Or.inl rfl, ?_, ?_⟩
  · refine ⟨?_, ?_, ?_⟩ <;> norm_num
  · norm_num [bt2, IBY, IBZ]
  · norm_num
  · norm_num

end Verif.Charact
