import Verif.Props.RiemannHlld

/-!
# The low Mach number corrections of LHLLD (lhlld.cpp:149-188)
-/
namespace Verif.Mhd
open Verif.TimeStep
open Verif.Riemann (Gas)

/-- `clsq`, `crsq` is the square of the fast speed of a gas whose speed of sound is the speed of the flow: the larger root of
the dispersion relation of the fast and slow waves. -/
theorem lhlld_speed (bx : ℝ) (w : W) (hd : 0 < w.d) :
    let v2 := w.vx ^ 2 + w.vy ^ 2 + w.vz ^ 2
    let x := lhlldCsq bx w
    (x - v2) * (x - bx ^ 2 / w.d) = x * ((w.bY ^ 2 + w.bZ ^ 2) / w.d) ∧ v2 ≤ x ∧ bx ^ 2 / w.d ≤ x := by
  intro v2 x
  have hv : 0 ≤ v2 := by positivity
  have hk : 1/2 * w.d * (w.vx ^ 2 + (w.vy ^ 2 + w.vz ^ 2)) = 1/2 * w.d * v2 := by simp only [v2]; ring
  set t := w.bY ^ 2 + w.bZ ^ 2 with ht
  have ht0 : 0 ≤ t := by positivity
  set q := (1/2 * (bx * bx + t) + 1/2 * w.d * v2) ^ 2 - 2 * (1/2 * w.d * v2) * (bx * bx) with hq
  have q0 : (1/2 * (w.d * v2 - bx * bx)) ^ 2 ≤ q := by
    rw [hq]
    nlinarith [mul_nonneg ht0 (mul_nonneg hd.le hv), mul_nonneg ht0 (mul_self_nonneg bx), sq_nonneg t]
  have hx : w.d * x = 1/2 * (bx * bx + t) + 1/2 * w.d * v2 + Real.sqrt q := by
    simp only [x, lhlldCsq]
    rw [hk, ← ht, ← hq, mul_div_cancel₀ _ hd.ne']
  have hs : Real.sqrt q * Real.sqrt q = q := Real.mul_self_sqrt (le_trans (sq_nonneg _) q0)
  have hs' : |1/2 * (w.d * v2 - bx * bx)| ≤ Real.sqrt q := Real.abs_le_sqrt q0
  obtain ⟨l1, l2⟩ := abs_le.mp hs'
  refine ⟨?_, ?_, ?_⟩
  · have e : (w.d * x - w.d * v2) * (w.d * x - bx ^ 2) = w.d * x * t := by
      rw [hx]
      linear_combination hs
    have e' : (x - v2) * (w.d * x - bx ^ 2) = x * t := by
      apply mul_left_cancel₀ hd.ne'
      linear_combination e
    rw [← mul_right_inj' hd.ne']
    have b1 : w.d * (bx ^ 2 / w.d) = bx ^ 2 := mul_div_cancel₀ _ hd.ne'
    have b2 : w.d * (t / w.d) = t := mul_div_cancel₀ _ hd.ne'
    linear_combination e' - (x - v2) * b1 - x * b2
  · have : w.d * v2 ≤ w.d * x := by rw [hx]; linarith
    exact le_of_mul_le_mul_left this hd
  · rw [div_le_iff₀ hd, mul_comm, hx]
    nlinarith

/-- The pressure between the waves: as in LHLLC, the jump of the velocity counts with a factor between 0 and 1, in proportion
to the speed of `lhlld_speed`; with factor 1 it is the pressure of HLLD. -/
theorem lhlld_pressure (gamma bx : ℝ) (wl wr : W) (hl : Ok (.adiabatic gamma) wl) (hr : Ok (.adiabatic gamma) wr) :
    let c := max (fast (.adiabatic gamma) bx wl) (fast (.adiabatic gamma) bx wr)
    let u2 := max (lhlldCsq bx wl) (lhlldCsq bx wr)
    let zl := wl.d * (wl.vx - hlldSl gamma bx wl wr)
    let zr := wr.d * (hlldSr gamma bx wl wr - wr.vx)
    ∃ θ, 0 ≤ θ ∧ θ ≤ 1 ∧ θ ≤ 2 * (Real.sqrt u2 / c) ∧ (c ^ 2 ≤ u2 → θ = 1) ∧
      0 < zl ∧ 0 < zr ∧
      lhlldPst gamma bx wl wr = (zr * hlldPt bx wl + zl * hlldPt bx wr - θ * zl * zr * (wr.vx - wl.vx)) / (zl + zr) ∧
      hlldPst gamma bx wl wr = (zr * hlldPt bx wl + zl * hlldPt bx wr - 1 * zl * zr * (wr.vx - wl.vx)) / (zl + zr) := by
  intro c u2 zl zr
  obtain ⟨a1, a2, a3, a4⟩ := hlld_outer gamma bx wl wr
  have cl := (fast_bounds bx hl).1
  have cr := (fast_bounds bx hr).1
  have c0 : 0 < c := lt_max_of_lt_left cl
  have m0 : 0 ≤ Real.sqrt u2 / c := div_nonneg (Real.sqrt_nonneg _) c0.le
  have e0 : 0 ≤ min 1 (Real.sqrt u2 / c) := le_min zero_le_one m0
  have e1 : min 1 (Real.sqrt u2 / c) ≤ 1 := min_le_left _ _
  have e2 : min 1 (Real.sqrt u2 / c) ≤ Real.sqrt u2 / c := min_le_right _ _
  have hzl : 0 < zl := mul_pos hl.d_pos (by linarith)
  have hzr : 0 < zr := mul_pos hr.d_pos (by linarith)
  refine ⟨min 1 (Real.sqrt u2 / c) * (2 - min 1 (Real.sqrt u2 / c)), mul_nonneg e0 (by linarith), ?_, ?_, ?_, hzl, hzr,
    ?_, ?_⟩
  · nlinarith [sq_nonneg (1 - min 1 (Real.sqrt u2 / c))]
  · nlinarith
  · intro h
    have : 1 ≤ Real.sqrt u2 / c := by
      rw [le_div_iff₀ c0, one_mul]
      exact Real.le_sqrt_of_sq_le h
    rw [min_eq_left this]
    norm_num
  · unfold lhlldPst
    simp only
    congr 1
    · simp only [zl, zr, c, u2]; ring
    · simp only [zl, zr]; ring
  · obtain ⟨p1, p2⟩ := hlld_pressure gamma bx wl wr hl hr
    rw [eq_div_iff (by linarith)]
    generalize hlldSm gamma bx wl wr = sm at *
    generalize hlldPst gamma bx wl wr = P at *
    simp only [zl, zr]
    linear_combination (wr.d * (hlldSr gamma bx wl wr - wr.vx)) * p1 + (wl.d * (wl.vx - hlldSl gamma bx wl wr)) * p2

/-- Where the flow is as fast as the waves and the shock detector sees no compression along the face, LHLLD is HLLD. -/
theorem lhlld_is_hlld (gamma bx dvn dvt : ℝ) (wl wr : W) (hl : Ok (.adiabatic gamma) wl) (hr : Ok (.adiabatic gamma) wr)
    (hd : min dvn 0 ≤ min dvt 0)
    (hv : max (fast (.adiabatic gamma) bx wl) (fast (.adiabatic gamma) bx wr) ^ 2 ≤
      max (lhlldCsq bx wl) (lhlldCsq bx wr)) :
    lhlld gamma bx dvn dvt wl wr = hlld gamma bx wl wr := by
  have c0 : 0 < max (fast (.adiabatic gamma) bx wl) (fast (.adiabatic gamma) bx wr) :=
    lt_max_of_lt_left (fast_bounds bx hl).1
  have ecp : lhlldPst gamma bx wl wr = hlldPst gamma bx wl wr := by
    obtain ⟨θ, -, -, -, h1, -, -, h2, h3⟩ := lhlld_pressure gamma bx wl wr hl hr
    rw [h2, h3, h1 hv]
  have eth : Verif.Riemann.lhllcTh (max (fast (.adiabatic gamma) bx wl) (fast (.adiabatic gamma) bx wr)) dvn dvt = 1 := by
    unfold Verif.Riemann.lhllcTh
    have hm : min dvt 0 ≤ 0 := min_le_right _ _
    have : 1 ≤ (max (fast (.adiabatic gamma) bx wl) (fast (.adiabatic gamma) bx wr) - min dvn 0) /
        (max (fast (.adiabatic gamma) bx wl) (fast (.adiabatic gamma) bx wr) - min dvt 0) := by
      rw [le_div_iff₀ (by linarith)]
      linarith
    rw [min_eq_left this]
    norm_num
  have eam : lhlldSm gamma bx dvn dvt wl wr = hlldSm gamma bx wl wr := by
    unfold lhlldSm hlldSm
    simp only [eth]
    congr 1; ring
  unfold lhlld hlld
  rw [ecp, eam]

/-- Hypotheses of `lhlld_is_hlld`: a flow at four times the fast speed. -/
example : ∃ wl wr : W, wl ≠ wr ∧ Ok (.adiabatic 2) wl ∧ Ok (.adiabatic 2) wr ∧ min (0:ℝ) 0 ≤ min 0 0 ∧
    max (fast (.adiabatic 2) 0 wl) (fast (.adiabatic 2) 0 wr) ^ 2 ≤ max (lhlldCsq 0 wl) (lhlldCsq 0 wr) := by
  refine ⟨⟨1, 40, 0, 0, 2, 0, 0⟩, ⟨1, 41, 0, 0, 2, 0, 0⟩, ?_, ?_, ?_, le_rfl, ?_⟩
  · simp
  · constructor <;> norm_num
  · constructor <;> norm_num
  · refine le_trans ?_ (le_trans (lhlld_speed 0 ⟨1, 40, 0, 0, 2, 0, 0⟩ (by norm_num)).2.1 (le_max_left _ _))
    simp only [fast, fastSpeed, asq]
    have h4 : Real.sqrt 16 = 4 := by rw [show (16:ℝ) = 4 ^ 2 by norm_num]; exact Real.sqrt_sq (by norm_num)
    norm_num
    rw [h4, mul_pow, inv_pow, Real.sq_sqrt (by norm_num), Real.sq_sqrt (by norm_num)]
    norm_num

end Verif.Mhd
