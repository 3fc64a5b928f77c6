import Verif.Lemmas.RiemannMhd

/-!
# C46: HLLD and LHLLD
-/
namespace Verif.Mhd
open Verif.TimeStep
open Verif.Riemann (Gas Gas.ifEnergy)

/-! ## Order of the waves -/

theorem hlld_outer (gamma bx : ℝ) (wl wr : W) :
    hlldSl gamma bx wl wr ≤ wl.vx - fast (.adiabatic gamma) bx wl ∧
    hlldSl gamma bx wl wr ≤ wr.vx - fast (.adiabatic gamma) bx wr ∧
    wl.vx + fast (.adiabatic gamma) bx wl ≤ hlldSr gamma bx wl wr ∧
    wr.vx + fast (.adiabatic gamma) bx wr ≤ hlldSr gamma bx wl wr :=
  ⟨min_le_left _ _, min_le_right _ _, le_max_left _ _, le_max_right _ _⟩

/-- The middle wave lies strictly between the outer ones, whatever part `th` of the pressure difference is used. -/
theorem middle_between (gamma bx th : ℝ) (wl wr : W) (hl : Ok (.adiabatic gamma) wl) (hr : Ok (.adiabatic gamma) wr)
    (h0 : 0 ≤ th) (h1 : th ≤ 1) (sl sr : ℝ)
    (a1 : sl ≤ wl.vx - fast (.adiabatic gamma) bx wl) (a2 : sl ≤ wr.vx - fast (.adiabatic gamma) bx wr)
    (a3 : wl.vx + fast (.adiabatic gamma) bx wl ≤ sr) (a4 : wr.vx + fast (.adiabatic gamma) bx wr ≤ sr) :
    let sm := ((sr - wr.vx) * (wr.vx * wr.d) - (sl - wl.vx) * (wl.vx * wl.d) + th * (hlldPt bx wl - hlldPt bx wr)) /
      ((sr - wr.vx) * wr.d - (sl - wl.vx) * wl.d)
    0 < (sr - wr.vx) * wr.d - (sl - wl.vx) * wl.d ∧ sl < sm ∧ sm < sr := by
  intro sm
  obtain ⟨cl0, cl1, cl2⟩ := fast_bounds bx hl
  obtain ⟨cr0, cr1, cr2⟩ := fast_bounds bx hr
  obtain ⟨hdl, hpl, hg⟩ := hl
  obtain ⟨hdr, hpr, _⟩ := hr
  simp only [asq] at cl1 cr1
  set cl := fast (.adiabatic gamma) bx wl
  set cr := fast (.adiabatic gamma) bx wr
  have hD : 0 < (sr - wr.vx) * wr.d - (sl - wl.vx) * wl.d := by
    have e1 : 0 < (sr - wr.vx) * wr.d := mul_pos (by linarith) hdr
    have e2 : 0 < (wl.vx - sl) * wl.d := mul_pos (by linarith) hdl
    have e3 : (wl.vx - sl) * wl.d = -((sl - wl.vx) * wl.d) := by ring
    linarith
  have p1 : wr.d * cr ^ 2 ≤ wr.d * ((sr - wr.vx) * (wr.vx - sl)) := by
    refine mul_le_mul_of_nonneg_left ?_ hdr.le
    rw [sq]; exact mul_le_mul (by linarith) (by linarith) cr0.le (by linarith)
  have p2 : wl.d * cl ^ 2 ≤ wl.d * (wl.vx - sl) ^ 2 :=
    mul_le_mul_of_nonneg_left (pow_le_pow_left₀ cl0.le (by linarith) 2) hdl.le
  have p3 : wl.d * cl ^ 2 ≤ wl.d * ((wl.vx - sl) * (sr - wl.vx)) := by
    refine mul_le_mul_of_nonneg_left ?_ hdl.le
    rw [sq]; exact mul_le_mul (by linarith) (by linarith) cl0.le (by linarith)
  have p4 : wr.d * cr ^ 2 ≤ wr.d * (sr - wr.vx) ^ 2 :=
    mul_le_mul_of_nonneg_left (pow_le_pow_left₀ cr0.le (by linarith) 2) hdr.le
  have hgl : wl.p < gamma * wl.p := by
    have := mul_lt_mul_of_pos_right hg hpl
    linarith
  have hgr : wr.p < gamma * wr.p := by
    have := mul_lt_mul_of_pos_right hg hpr
    linarith
  have bl : 0 ≤ wl.bY ^ 2 + wl.bZ ^ 2 := by positivity
  have br : 0 ≤ wr.bY ^ 2 + wr.bZ ^ 2 := by positivity
  have hx : 0 ≤ bx ^ 2 := sq_nonneg _
  have el : hlldPt bx wl = wl.p + 1/2 * (bx ^ 2 + (wl.bY ^ 2 + wl.bZ ^ 2)) := by unfold hlldPt; ring
  have er : hlldPt bx wr = wr.p + 1/2 * (bx ^ 2 + (wr.bY ^ 2 + wr.bZ ^ 2)) := by unfold hlldPt; ring
  have hPl : 0 < hlldPt bx wl := by rw [el]; linarith
  have hPr : 0 < hlldPt bx wr := by rw [er]; linarith
  have t1 : -hlldPt bx wr ≤ th * (hlldPt bx wl - hlldPt bx wr) := by
    have u1 := mul_nonneg h0 hPl.le
    have u2 := mul_le_mul_of_nonneg_right h1 hPr.le
    have u3 : th * (hlldPt bx wl - hlldPt bx wr) = th * hlldPt bx wl - th * hlldPt bx wr := by ring
    linarith
  have t2 : th * (hlldPt bx wl - hlldPt bx wr) ≤ hlldPt bx wl := by
    have u1 := mul_nonneg h0 hPr.le
    have u2 := mul_le_mul_of_nonneg_right h1 hPl.le
    have u3 : th * (hlldPt bx wl - hlldPt bx wr) = th * hlldPt bx wl - th * hlldPt bx wr := by ring
    linarith
  generalize hT : th * (hlldPt bx wl - hlldPt bx wr) = T at *
  refine ⟨hD, ?_, ?_⟩
  · rw [lt_div_iff₀ hD]
    have e : (sr - wr.vx) * (wr.vx * wr.d) - (sl - wl.vx) * (wl.vx * wl.d) + T
        - sl * ((sr - wr.vx) * wr.d - (sl - wl.vx) * wl.d)
        = wr.d * ((sr - wr.vx) * (wr.vx - sl)) + wl.d * (wl.vx - sl) ^ 2 + T := by ring
    linarith
  · rw [div_lt_iff₀ hD]
    have e : sr * ((sr - wr.vx) * wr.d - (sl - wl.vx) * wl.d)
        - ((sr - wr.vx) * (wr.vx * wr.d) - (sl - wl.vx) * (wl.vx * wl.d) + T)
        = wl.d * ((wl.vx - sl) * (sr - wl.vx)) + wr.d * (sr - wr.vx) ^ 2 - T := by ring
    linarith

/-- HLLD: the speeds are ordered, the divisors do not vanish, and the densities of the star states are positive. -/
theorem hlld_order (gamma bx : ℝ) (wl wr : W) (hl : Ok (.adiabatic gamma) wl) (hr : Ok (.adiabatic gamma) wr) :
    hlldSl gamma bx wl wr < hlldSm gamma bx wl wr ∧ hlldSm gamma bx wl wr < hlldSr gamma bx wl wr ∧
    0 < hlldDst (hlldSl gamma bx wl wr) (hlldSm gamma bx wl wr) wl ∧
    0 < hlldDst (hlldSr gamma bx wl wr) (hlldSm gamma bx wl wr) wr := by
  obtain ⟨a1, a2, a3, a4⟩ := hlld_outer gamma bx wl wr
  obtain ⟨hD, h1, h2⟩ := middle_between gamma bx 1 wl wr hl hr zero_le_one le_rfl _ _ a1 a2 a3 a4
  rw [one_mul] at h1 h2
  change hlldSl gamma bx wl wr < hlldSm gamma bx wl wr at h1
  change hlldSm gamma bx wl wr < hlldSr gamma bx wl wr at h2
  have cl := (fast_bounds bx hl).1
  have cr := (fast_bounds bx hr).1
  refine ⟨h1, h2, ?_, ?_⟩
  · unfold hlldDst
    rw [mul_one_div]
    exact div_pos_of_neg_of_neg (mul_neg_of_pos_of_neg hl.d_pos (by linarith)) (by linarith)
  · unfold hlldDst
    rw [mul_one_div]
    exact div_pos (mul_pos hr.d_pos (by linarith)) (by linarith)

/-- The detector of LHLLD lies between 0 and 1. -/
theorem th_bounds (c dvn dvt : ℝ) (hc : 0 < c) :
    0 ≤ Verif.Riemann.lhllcTh c dvn dvt ∧ Verif.Riemann.lhllcTh c dvn dvt ≤ 1 := by
  unfold Verif.Riemann.lhllcTh
  have h1 : 0 < c - min dvn 0 := by have := min_le_right dvn 0; linarith
  have h2 : 0 < c - min dvt 0 := by have := min_le_right dvt 0; linarith
  have h3 : 0 ≤ min 1 ((c - min dvn 0) / (c - min dvt 0)) := le_min zero_le_one (div_pos h1 h2).le
  have h4 : min 1 ((c - min dvn 0) / (c - min dvt 0)) ≤ 1 := min_le_left _ _
  generalize min 1 ((c - min dvn 0) / (c - min dvt 0)) = t at *
  have e : t * t * t * t = t ^ 4 := by ring
  simp only [e]
  exact ⟨by positivity, pow_le_one₀ h3 h4⟩

/-- LHLLD: the same, for every value of the velocity differences. -/
theorem lhlld_order (gamma bx dvn dvt : ℝ) (wl wr : W) (hl : Ok (.adiabatic gamma) wl)
    (hr : Ok (.adiabatic gamma) wr) :
    hlldSl gamma bx wl wr < lhlldSm gamma bx dvn dvt wl wr ∧ lhlldSm gamma bx dvn dvt wl wr < hlldSr gamma bx wl wr ∧
    0 < hlldDst (hlldSl gamma bx wl wr) (lhlldSm gamma bx dvn dvt wl wr) wl ∧
    0 < hlldDst (hlldSr gamma bx wl wr) (lhlldSm gamma bx dvn dvt wl wr) wr := by
  obtain ⟨a1, a2, a3, a4⟩ := hlld_outer gamma bx wl wr
  have cl := (fast_bounds bx hl).1
  have cr := (fast_bounds bx hr).1
  obtain ⟨t0, t1⟩ := th_bounds (max (fast (.adiabatic gamma) bx wl) (fast (.adiabatic gamma) bx wr)) dvn dvt
    (lt_max_of_lt_left cl)
  obtain ⟨hD, h1, h2⟩ := middle_between gamma bx _ wl wr hl hr t0 t1 _ _ a1 a2 a3 a4
  change hlldSl gamma bx wl wr < lhlldSm gamma bx dvn dvt wl wr at h1
  change lhlldSm gamma bx dvn dvt wl wr < hlldSr gamma bx wl wr at h2
  refine ⟨h1, h2, ?_, ?_⟩
  · unfold hlldDst
    rw [mul_one_div]
    exact div_pos_of_neg_of_neg (mul_neg_of_pos_of_neg hl.d_pos (by linarith)) (by linarith)
  · unfold hlldDst
    rw [mul_one_div]
    exact div_pos (mul_pos hr.d_pos (by linarith)) (by linarith)

/-! ## Jump conditions -/

theorem hlldStar_d (gamma bx s sm P : ℝ) (w : W) : (hlldStar gamma bx s sm P w).d = hlldDst s sm w := by
  unfold hlldStar
  simp only
  split <;> rfl

theorem hlldStar_mx (gamma bx s sm P : ℝ) (w : W) : (hlldStar gamma bx s sm P w).mx = hlldDst s sm w * sm := by
  unfold hlldStar
  simp only
  split <;> rfl

/-- The jump conditions at an outer wave in the regular case. -/
theorem star_jump (gamma bx s sm P : ℝ) (w : W) (hd : 0 < w.d) (hs : s ≠ w.vx) (hm : s ≠ sm)
    (hP : P = hlldPt bx w + w.d * (s - w.vx) * (sm - w.vx)) (hdeg : ¬ hlldDeg bx s sm P w)
    (hden : w.d * (s - w.vx) * (s - sm) - bx * bx ≠ 0) :
    fluxOf bx sm P (hlldStar gamma bx s sm P w) - flux (.adiabatic gamma) bx w
      = s • (hlldStar gamma bx s sm P w - cons (.adiabatic gamma) bx w) := by
  have h1 : s - w.vx ≠ 0 := sub_ne_zero.2 hs
  have h2 : s - sm ≠ 0 := sub_ne_zero.2 hm
  have hd' : w.d ≠ 0 := hd.ne'
  unfold hlldStar
  simp only [if_neg hdeg]
  simp only [hlldCons_eq, hlldVb, hlldDst]
  rw [hP, hlldPt_eq gamma]
  clear hP hdeg
  obtain ⟨d, vx, vy, vz, p, by', bz⟩ := w
  simp only [cons] at *
  set X := d * (s - vx) * (s - sm) - bx * bx with hX
  have f1 : d * (s - vx) * (bx * (s - vx - (s - sm)) / X) = bx * ((d * (s - vx) ^ 2 - bx * bx) / X - 1) := by
    field_simp
    rw [hX]; ring
  have f2 : (d * (s - vx) ^ 2 - bx * bx) / X * (s - sm) = (s - vx) + bx * (bx * (s - vx - (s - sm)) / X) := by
    field_simp
    rw [hX]; ring
  generalize bx * (s - vx - (s - sm)) / X = t1 at *
  generalize (d * (s - vx) ^ 2 - bx * bx) / X = t2 at *
  ext <;> simp only [fluxOf, flux, sub_d, sub_mx, sub_my, sub_mz, sub_e, sub_bY, sub_bZ, smul_d, smul_mx, smul_my,
    smul_mz, smul_e, smul_bY, smul_bZ, totalP, totalE, gasP]
  · field_simp; ring
  · field_simp; ring
  · field_simp
    linear_combination by' * (s - sm) * f1
  · field_simp
    linear_combination bz * (s - sm) * f1
  · generalize p / (gamma - 1) = ei
    field_simp; ring
  · field_simp
    linear_combination (-by') * f2
  · field_simp
    linear_combination (-bz) * f2

theorem bxsig_sq (bx : ℝ) : bxsig bx * bxsig bx = 1 := by unfold bxsig; split <;> norm_num

theorem abs_bxsig (bx : ℝ) : |bx| = bxsig bx * bx := by
  unfold bxsig
  split
  · rw [abs_of_pos (by assumption)]; ring
  · rw [abs_of_nonpos (by linarith)]; ring

/-- The jump conditions at the Alfven wave on the left. -/
theorem alfven_jump_left (bx sm P : ℝ) (ul ur : F) (hl : 0 < ul.d) (hr : 0 < ur.d) (hm : ul.mx = ul.d * sm) :
    fluxOf bx sm P (hlldDst2 bx sm (-1) ul ur ul) - fluxOf bx sm P ul
      = hlldSa bx sm (-1) ul • (hlldDst2 bx sm (-1) ul ur ul - ul) := by
  have h1 : 0 < Real.sqrt ul.d := Real.sqrt_pos.2 hl
  have h2 : 0 < Real.sqrt ur.d := Real.sqrt_pos.2 hr
  have e1 : ul.d = Real.sqrt ul.d ^ 2 := (Real.sq_sqrt hl.le).symm
  have e2 : ur.d = Real.sqrt ur.d ^ 2 := (Real.sq_sqrt hr.le).symm
  have hsig := bxsig_sq bx
  unfold hlldSa hlldDst2 hlldVb
  rw [abs_bxsig]
  obtain ⟨dl, mxl, myl, mzl, el, byl, bzl⟩ := ul
  obtain ⟨dr, mxr, myr, mzr, er, byr, bzr⟩ := ur
  simp only at *
  generalize bxsig bx = σ at *
  generalize Real.sqrt dl = sl at *
  generalize Real.sqrt dr = sr at *
  subst e1 e2 hm
  have hS : sl + sr ≠ 0 := by positivity
  ext <;> simp only [fluxOf, sub_d, sub_mx, sub_my, sub_mz, sub_e, sub_bY, sub_bZ, smul_d, smul_mx, smul_my, smul_mz,
    smul_e, smul_bY, smul_bZ]
  · ring
  · ring
  all_goals
    rcases mul_self_eq_one_iff.1 hsig with rfl | rfl <;> field_simp <;> ring

/-- The jump conditions at the Alfven wave on the right. -/
theorem alfven_jump_right (bx sm P : ℝ) (ul ur : F) (hl : 0 < ul.d) (hr : 0 < ur.d) (hm : ur.mx = ur.d * sm) :
    fluxOf bx sm P (hlldDst2 bx sm 1 ul ur ur) - fluxOf bx sm P ur
      = hlldSa bx sm 1 ur • (hlldDst2 bx sm 1 ul ur ur - ur) := by
  have h1 : 0 < Real.sqrt ul.d := Real.sqrt_pos.2 hl
  have h2 : 0 < Real.sqrt ur.d := Real.sqrt_pos.2 hr
  have e1 : ul.d = Real.sqrt ul.d ^ 2 := (Real.sq_sqrt hl.le).symm
  have e2 : ur.d = Real.sqrt ur.d ^ 2 := (Real.sq_sqrt hr.le).symm
  have hsig := bxsig_sq bx
  unfold hlldSa hlldDst2 hlldVb
  rw [abs_bxsig]
  obtain ⟨dl, mxl, myl, mzl, el, byl, bzl⟩ := ul
  obtain ⟨dr, mxr, myr, mzr, er, byr, bzr⟩ := ur
  simp only at *
  generalize bxsig bx = σ at *
  generalize Real.sqrt dl = sl at *
  generalize Real.sqrt dr = sr at *
  subst e1 e2 hm
  have hS : sl + sr ≠ 0 := by positivity
  ext <;> simp only [fluxOf, sub_d, sub_mx, sub_my, sub_mz, sub_e, sub_bY, sub_bZ, smul_d, smul_mx, smul_my, smul_mz,
    smul_e, smul_bY, smul_bZ]
  · ring
  · ring
  all_goals
    rcases mul_self_eq_one_iff.1 hsig with rfl | rfl <;> field_simp <;> ring

/-- The jump conditions at the middle wave. -/
theorem contact_jump (bx sm P : ℝ) (ul ur : F) (hl : 0 < ul.d) (hr : 0 < ur.d) (hm : ul.mx = ul.d * sm)
    (hm' : ur.mx = ur.d * sm) :
    fluxOf bx sm P (hlldDst2 bx sm 1 ul ur ur) - fluxOf bx sm P (hlldDst2 bx sm (-1) ul ur ul)
      = sm • (hlldDst2 bx sm 1 ul ur ur - hlldDst2 bx sm (-1) ul ur ul) := by
  unfold hlldDst2
  simp only
  generalize hlldVb bx ul = vl
  generalize hlldVb bx ur = vr
  have h1 : ul.d ≠ 0 := hl.ne'
  have h2 : ur.d ≠ 0 := hr.ne'
  generalize 1 / (Real.sqrt ul.d + Real.sqrt ur.d) * (Real.sqrt ul.d * (ul.my * (1 / ul.d))
    + Real.sqrt ur.d * (ur.my * (1 / ur.d)) + bxsig bx * (ur.bY - ul.bY)) = vy
  generalize 1 / (Real.sqrt ul.d + Real.sqrt ur.d) * (Real.sqrt ul.d * (ul.mz * (1 / ul.d))
    + Real.sqrt ur.d * (ur.mz * (1 / ur.d)) + bxsig bx * (ur.bZ - ul.bZ)) = vz
  generalize 1 / (Real.sqrt ul.d + Real.sqrt ur.d) * (Real.sqrt ul.d * ur.bY + Real.sqrt ur.d * ul.bY
    + bxsig bx * Real.sqrt ul.d * Real.sqrt ur.d * (ur.my * (1 / ur.d) - ul.my * (1 / ul.d))) = bY
  generalize 1 / (Real.sqrt ul.d + Real.sqrt ur.d) * (Real.sqrt ul.d * ur.bZ + Real.sqrt ur.d * ul.bZ
    + bxsig bx * Real.sqrt ul.d * Real.sqrt ur.d * (ur.mz * (1 / ur.d) - ul.mz * (1 / ul.d))) = bZ
  ext <;> simp only [fluxOf, sub_d, sub_mx, sub_my, sub_mz, sub_e, sub_bY, sub_bZ, smul_d, smul_mx, smul_my, smul_mz,
    smul_e, smul_bY, smul_bZ, hm, hm'] <;> field_simp <;> ring

/-- Both expressions for the total pressure of the star states agree (the assertion asked for in hlld.cpp:177). -/
theorem hlld_pressure (gamma bx : ℝ) (wl wr : W) (hl : Ok (.adiabatic gamma) wl) (hr : Ok (.adiabatic gamma) wr) :
    hlldPst gamma bx wl wr = hlldPt bx wl
        + wl.d * (hlldSl gamma bx wl wr - wl.vx) * (hlldSm gamma bx wl wr - wl.vx) ∧
      hlldPst gamma bx wl wr = hlldPt bx wr
        + wr.d * (hlldSr gamma bx wl wr - wr.vx) * (hlldSm gamma bx wl wr - wr.vx) := by
  obtain ⟨a1, a2, a3, a4⟩ := hlld_outer gamma bx wl wr
  have hD := (middle_between gamma bx 1 wl wr hl hr zero_le_one le_rfl _ _ a1 a2 a3 a4).1
  have hm : hlldSm gamma bx wl wr * ((hlldSr gamma bx wl wr - wr.vx) * wr.d - (hlldSl gamma bx wl wr - wl.vx) * wl.d)
      = (hlldSr gamma bx wl wr - wr.vx) * (wr.vx * wr.d) - (hlldSl gamma bx wl wr - wl.vx) * (wl.vx * wl.d)
        + (hlldPt bx wl - hlldPt bx wr) := by
    unfold hlldSm
    exact div_mul_cancel₀ _ hD.ne'
  unfold hlldPst
  simp only
  generalize hlldSm gamma bx wl wr = sm at *
  generalize hlldSr gamma bx wl wr = sr at *
  generalize hlldSl gamma bx wl wr = sl at *
  constructor
  · linear_combination (1/2) * hm
  · linear_combination (-1/2) * hm

/-- HLLD in the regular case: the flux is that of the state which covers the face, in a fan of waves that satisfies all
the jump conditions. -/
theorem hlld_waves (gamma bx : ℝ) (wl wr : W) (hl : Ok (.adiabatic gamma) wl) (hr : Ok (.adiabatic gamma) wr)
    (dl : ¬ hlldDeg bx (hlldSl gamma bx wl wr) (hlldSm gamma bx wl wr) (hlldPst gamma bx wl wr) wl)
    (dr : ¬ hlldDeg bx (hlldSr gamma bx wl wr) (hlldSm gamma bx wl wr) (hlldPst gamma bx wl wr) wr)
    (nl : wl.d * (hlldSl gamma bx wl wr - wl.vx) * (hlldSl gamma bx wl wr - hlldSm gamma bx wl wr) - bx * bx ≠ 0)
    (nr : wr.d * (hlldSr gamma bx wl wr - wr.vx) * (hlldSr gamma bx wl wr - hlldSm gamma bx wl wr) - bx * bx ≠ 0) :
    ∃ s1 s3 P ul uld urd ur, Fan gamma bx wl wr (hlldSl gamma bx wl wr) s1 (hlldSm gamma bx wl wr) s3
        (hlldSr gamma bx wl wr) P ul uld urd ur ∧
      hlld gamma bx wl wr =
        if 0 ≤ hlldSl gamma bx wl wr then flux (.adiabatic gamma) bx wl
        else if hlldSr gamma bx wl wr ≤ 0 then flux (.adiabatic gamma) bx wr
        else fluxOf bx (hlldSm gamma bx wl wr) P
          (if 0 ≤ s1 then ul else if s3 ≤ 0 then ur else if 0 ≤ hlldSm gamma bx wl wr then uld else urd) := by
  obtain ⟨p1, p2⟩ := hlld_pressure gamma bx wl wr hl hr
  obtain ⟨o1, o2, o3, o4⟩ := hlld_order gamma bx wl wr hl hr
  obtain ⟨a1, a2, a3, a4⟩ := hlld_outer gamma bx wl wr
  have cl := (fast_bounds bx hl).1
  have cr := (fast_bounds bx hr).1
  set sl := hlldSl gamma bx wl wr with hsl
  set sr := hlldSr gamma bx wl wr with hsr
  set sm := hlldSm gamma bx wl wr with hsm
  set P := hlldPst gamma bx wl wr with hPdef
  set ul := hlldStar gamma bx sl sm P wl with hul
  set ur := hlldStar gamma bx sr sm P wr with hur
  have el : ul.d = hlldDst sl sm wl := hlldStar_d ..
  have er : ur.d = hlldDst sr sm wr := hlldStar_d ..
  have ml : ul.mx = ul.d * sm := by rw [el]; exact hlldStar_mx ..
  have mr : ur.mx = ur.d * sm := by rw [er]; exact hlldStar_mx ..
  have dul : 0 < ul.d := el ▸ o3
  have dur : 0 < ur.d := er ▸ o4
  have j1 := star_jump gamma bx sl sm P wl hl.d_pos (by linarith : sl < wl.vx).ne o1.ne p1 dl nl
  have j2 := star_jump gamma bx sr sm P wr hr.d_pos (by linarith : wr.vx < sr).ne' o2.ne' p2 dr nr
  have j3 := alfven_jump_left bx sm P ul ur dul dur ml
  have j4 := alfven_jump_right bx sm P ul ur dul dur mr
  have j5 := contact_jump bx sm P ul ur dul dur ml mr
  refine ⟨hlldSa bx sm (-1) ul, hlldSa bx sm 1 ur, P, ul, hlldDst2 bx sm (-1) ul ur ul, hlldDst2 bx sm 1 ul ur ur, ur,
    ?_, ?_⟩
  · refine ⟨⟨o1, o2, ?_, ?_⟩, ⟨dul, dul, dur, dur⟩, ⟨ml, ml, mr, mr⟩, j1, j3, j5, j4, j2, ?_, ?_, rfl, rfl⟩
    · unfold hlldSa; ring
    · unfold hlldSa; ring
    · unfold hlldDst2
      simp only
      rw [mul_div_cancel_left₀ _ dul.ne', mul_div_cancel_left₀ _ dur.ne']
    · unfold hlldDst2
      simp only
      rw [mul_div_cancel_left₀ _ dul.ne', mul_div_cancel_left₀ _ dur.ne']
  · have step : ∀ (f g u v : F) (s : ℝ), g - f = s • (u - v) → f + s • (u - v) = g := by
      intro f g u v s h
      rw [← h]
      ext <;> simp
    unfold hlld hlldFrom
    simp only [hlldFlux_eq, hlldCons_eq, plus_eq, ← hsl, ← hsr, ← hsm, ← hPdef, ← hul, ← hur]
    rw [step _ _ _ _ _ j1, step _ _ _ _ _ j2, step _ _ _ _ _ j3, step _ _ _ _ _ j4]
    split_ifs <;> rfl

/-! ## Waves that HLLD and LHLLD keep exactly -/

/-- With equal normal velocity and total pressure the star states are the given ones. -/
theorem star_still (gamma bx s P : ℝ) (w : W) (hd : 0 < w.d) (hs : s ≠ w.vx) (hP : hlldPt bx w = P) (hpos : 0 < P) :
    hlldStar gamma bx s w.vx P w = cons (.adiabatic gamma) bx w := by
  have h1 : s - w.vx ≠ 0 := sub_ne_zero.2 hs
  have hd' : w.d ≠ 0 := hd.ne'
  have e1 : hlldDst s w.vx w = w.d := by unfold hlldDst; field_simp
  unfold hlldStar
  simp only [e1, hlldVb, hlldCons_eq, hP]
  split
  · ext <;> simp [cons] <;> field_simp <;> ring
  · rename_i hdeg
    have hden : w.d * (s - w.vx) * (s - w.vx) - bx * bx ≠ 0 := by
      intro h0
      apply hdeg
      unfold hlldDeg
      rw [h0, abs_zero]; positivity
    have e2 : (cons (.adiabatic gamma) bx w).d = w.d := rfl
    have e3 : ((cons (.adiabatic gamma) bx w).d * (s - w.vx) ^ 2 - bx * bx) /
        ((cons (.adiabatic gamma) bx w).d * (s - w.vx) * (s - w.vx) - bx * bx) = 1 := by
      rw [e2, div_eq_one_iff_eq hden]; ring
    rw [e3, sub_self, mul_zero, zero_div]
    ext <;> simp [cons] <;> field_simp <;> ring

/-- What remains of the solver then. -/
theorem from_still (gamma bx P : ℝ) (wl wr : W) (hl : Ok (.adiabatic gamma) wl) (hr : Ok (.adiabatic gamma) wr)
    (hv : wl.vx = wr.vx) (hPl : hlldPt bx wl = P) (hPr : hlldPt bx wr = P) (ul ur : F)
    (hul : ul = cons (.adiabatic gamma) bx wl) (hur : ur = cons (.adiabatic gamma) bx wr) :
    hlldFrom gamma bx wl.vx P wl wr =
      if 0 ≤ hlldSl gamma bx wl wr then flux (.adiabatic gamma) bx wl
      else if hlldSr gamma bx wl wr ≤ 0 then flux (.adiabatic gamma) bx wr
      else if 0 ≤ hlldSa bx wl.vx (-1) ul then flux (.adiabatic gamma) bx wl
      else if hlldSa bx wl.vx 1 ur ≤ 0 then flux (.adiabatic gamma) bx wr
      else if 0 ≤ wl.vx then flux (.adiabatic gamma) bx wl
        + hlldSa bx wl.vx (-1) ul • (hlldDst2 bx wl.vx (-1) ul ur ul - ul)
      else flux (.adiabatic gamma) bx wr + hlldSa bx wl.vx 1 ur • (hlldDst2 bx wl.vx 1 ul ur ur - ur) := by
  obtain ⟨a1, a2, a3, a4⟩ := hlld_outer gamma bx wl wr
  have cl := (fast_bounds bx hl).1
  have cr := (fast_bounds bx hr).1
  have hpos : 0 < P := by
    rw [← hPl]
    unfold hlldPt
    have := hl.2.1
    have : 0 ≤ bx * bx := mul_self_nonneg _
    positivity
  have s1 := star_still gamma bx (hlldSl gamma bx wl wr) P wl hl.d_pos (by linarith : _ < wl.vx).ne hPl hpos
  have s2 := star_still gamma bx (hlldSr gamma bx wl wr) P wr hr.d_pos (by linarith : wr.vx < _).ne' hPr hpos
  rw [← hv] at s2
  have zero : ∀ (f u : F) (s : ℝ), f + s • (u - u) = f := by
    intro f u s; ext <;> simp
  unfold hlldFrom
  simp only [hlldFlux_eq, hlldCons_eq, plus_eq, s1, s2, zero, ← hul, ← hur]

/-- The middle wave and the total pressure for equal normal velocity and total pressure. -/
theorem hlldSm_still (gamma bx : ℝ) (wl wr : W) (hl : Ok (.adiabatic gamma) wl) (hr : Ok (.adiabatic gamma) wr)
    (hv : wl.vx = wr.vx) (hP : hlldPt bx wl = hlldPt bx wr) :
    hlldSm gamma bx wl wr = wl.vx ∧ hlldPst gamma bx wl wr = hlldPt bx wl := by
  obtain ⟨a1, a2, a3, a4⟩ := hlld_outer gamma bx wl wr
  have hD := (middle_between gamma bx 1 wl wr hl hr zero_le_one le_rfl _ _ a1 a2 a3 a4).1
  have h1 : hlldSm gamma bx wl wr = wl.vx := by
    have e : hlldSm gamma bx wl wr = ((hlldSr gamma bx wl wr - wr.vx) * (wr.vx * wr.d)
      - (hlldSl gamma bx wl wr - wl.vx) * (wl.vx * wl.d) + (hlldPt bx wl - hlldPt bx wr)) /
      ((hlldSr gamma bx wl wr - wr.vx) * wr.d - (hlldSl gamma bx wl wr - wl.vx) * wl.d) := rfl
    rw [e, hP, div_eq_iff hD.ne', hv]; ring
  refine ⟨h1, ?_⟩
  rw [(hlld_pressure gamma bx wl wr hl hr).1, h1]; ring

theorem lhlldSm_still (gamma bx dvn dvt : ℝ) (wl wr : W) (hl : Ok (.adiabatic gamma) wl)
    (hr : Ok (.adiabatic gamma) wr) (hv : wl.vx = wr.vx) (hP : hlldPt bx wl = hlldPt bx wr) :
    lhlldSm gamma bx dvn dvt wl wr = wl.vx ∧ lhlldPst gamma bx wl wr = hlldPt bx wl := by
  obtain ⟨a1, a2, a3, a4⟩ := hlld_outer gamma bx wl wr
  have hD := (middle_between gamma bx 1 wl wr hl hr zero_le_one le_rfl _ _ a1 a2 a3 a4).1
  constructor
  · unfold lhlldSm
    simp only
    rw [hP, sub_self, mul_zero, add_zero]
    show ((hlldSr gamma bx wl wr - wr.vx) * (wr.vx * wr.d) - (hlldSl gamma bx wl wr - wl.vx) * (wl.vx * wl.d)) /
      ((hlldSr gamma bx wl wr - wr.vx) * wr.d - (hlldSl gamma bx wl wr - wl.vx) * wl.d) = wl.vx
    rw [div_eq_iff hD.ne', hv]; ring
  · unfold lhlldPst
    simp only
    rw [hP, hv, sub_self, mul_zero, add_zero]
    rw [hv] at hD
    rw [div_eq_iff hD.ne']; ring

/-- The Alfven speed is not greater than the fast speed. -/
theorem alfven_le_fast {g : Gas} (bx : ℝ) {w : W} (h : Ok g w) : |bx| / Real.sqrt w.d ≤ fast g bx w := by
  obtain ⟨h0, _, h2⟩ := fast_bounds bx h
  have hd := Real.sqrt_pos.2 h.d_pos
  rw [div_le_iff₀ hd]
  apply abs_le_of_sq_le_sq' ?_ (by positivity) |> fun x => abs_le.2 x
  rw [mul_pow, Real.sq_sqrt h.d_pos.le]; linarith

/-- The flux of the specification in terms of the conserved variables. -/
theorem fluxOf_cons (gamma bx : ℝ) (w : W) (hd : 0 < w.d) (P : ℝ) (hP : totalP (.adiabatic gamma) bx w = P) :
    fluxOf bx w.vx P (cons (.adiabatic gamma) bx w) = flux (.adiabatic gamma) bx w := by
  subst hP
  unfold fluxOf cons flux
  ext <;> simp only [mul_div_cancel_left₀ _ hd.ne'] <;> ring

/-- The double-star states with the sign of the normal field eliminated: `v` and `B` as given. -/
theorem dst2_of (bx sm side vy vz bY bZ : ℝ) (ul ur own : F) (hl : 0 < ul.d) (hr : 0 < ur.d)
    (h1 : Real.sqrt ul.d * (ul.my / ul.d - vy) + Real.sqrt ur.d * (ur.my / ur.d - vy) + bxsig bx * (ur.bY - ul.bY) = 0)
    (h2 : Real.sqrt ul.d * (ul.mz / ul.d - vz) + Real.sqrt ur.d * (ur.mz / ur.d - vz) + bxsig bx * (ur.bZ - ul.bZ) = 0)
    (h3 : Real.sqrt ul.d * (ur.bY - bY) + Real.sqrt ur.d * (ul.bY - bY)
      + bxsig bx * Real.sqrt ul.d * Real.sqrt ur.d * (ur.my / ur.d - ul.my / ul.d) = 0)
    (h4 : Real.sqrt ul.d * (ur.bZ - bZ) + Real.sqrt ur.d * (ul.bZ - bZ)
      + bxsig bx * Real.sqrt ul.d * Real.sqrt ur.d * (ur.mz / ur.d - ul.mz / ul.d) = 0) :
    hlldDst2 bx sm side ul ur own = ⟨own.d, own.mx, own.d * vy, own.d * vz,
      own.e + side * Real.sqrt own.d * bxsig bx * (hlldVb bx own - (sm * bx + vy * bY + vz * bZ)), bY, bZ⟩ := by
  have p1 : 0 < Real.sqrt ul.d := Real.sqrt_pos.2 hl
  have p2 : 0 < Real.sqrt ur.d := Real.sqrt_pos.2 hr
  have hS : Real.sqrt ul.d + Real.sqrt ur.d ≠ 0 := by positivity
  have q1 : ul.my * (1 / ul.d) = ul.my / ul.d := by ring
  have q2 : ul.mz * (1 / ul.d) = ul.mz / ul.d := by ring
  have q3 : ur.my * (1 / ur.d) = ur.my / ur.d := by ring
  have q4 : ur.mz * (1 / ur.d) = ur.mz / ur.d := by ring
  have inv : ∀ x y : ℝ, x = (Real.sqrt ul.d + Real.sqrt ur.d) * y → 1 / (Real.sqrt ul.d + Real.sqrt ur.d) * x = y := by
    intro x y h
    rw [h, ← mul_assoc, one_div_mul_cancel hS, one_mul]
  unfold hlldDst2
  simp only [q1, q2, q3, q4]
  rw [inv _ vy (by linear_combination h1), inv _ vz (by linear_combination h2), inv _ bY (by linear_combination h3),
    inv _ bZ (by linear_combination h4)]
  have : (ul.d * vy * bY + ul.d * vz * bZ) / ul.d = vy * bY + vz * bZ := by
    have := hl.ne'
    field_simp
  rw [this, add_assoc]

/-- Both double-star states of a pair separated by an Alfven wave to the right are the left state. -/
theorem dst2_alfven_right (gamma bx : ℝ) (wl wr : W) (hl : Ok (.adiabatic gamma) wl)
    (h : AlfvenPair 1 bx wl wr) :
    let ul := cons (.adiabatic gamma) bx wl
    let ur := cons (.adiabatic gamma) bx wr
    hlldDst2 bx wl.vx (-1) ul ur ul = ul ∧ hlldDst2 bx wl.vx 1 ul ur ur = ul := by
  obtain ⟨hb, hd, hv, hp, hB, hy, hz⟩ := h
  intro ul ur
  have hdl := hl.d_pos
  rw [abs_bxsig] at hy hz
  have hsig := bxsig_sq bx
  have ey : wr.bY = wl.bY - bxsig bx * Real.sqrt wl.d * (wr.vy - wl.vy) := by
    apply mul_left_cancel₀ hb; linear_combination hy
  have ez : wr.bZ = wl.bZ - bxsig bx * Real.sqrt wl.d * (wr.vz - wl.vz) := by
    apply mul_left_cancel₀ hb; linear_combination hz
  have e1 : Real.sqrt wl.d ^ 2 = wl.d := Real.sq_sqrt hdl.le
  have m1 : ul.my / ul.d = wl.vy := mul_div_cancel_left₀ _ hdl.ne'
  have m2 : ul.mz / ul.d = wl.vz := mul_div_cancel_left₀ _ hdl.ne'
  have m3 : ur.my / ur.d = wr.vy := mul_div_cancel_left₀ _ (hd ▸ hdl.ne')
  have m4 : ur.mz / ur.d = wr.vz := mul_div_cancel_left₀ _ (hd ▸ hdl.ne')
  have d2 : ur.d = wl.d := hd.symm
  have key := fun side own => dst2_of bx wl.vx side wl.vy wl.vz wl.bY wl.bZ ul ur own hdl (d2 ▸ hdl)
    (by rw [m1, m3, d2]; simp only [ul, ur, cons]; rw [ey]; linear_combination (-Real.sqrt wl.d * (wr.vy - wl.vy)) * hsig)
    (by rw [m2, m4, d2]; simp only [ul, ur, cons]; rw [ez]; linear_combination (-Real.sqrt wl.d * (wr.vz - wl.vz)) * hsig)
    (by rw [m1, m3, d2]; simp only [ul, ur, cons]; rw [ey]; ring)
    (by rw [m2, m4, d2]; simp only [ul, ur, cons]; rw [ez]; ring)
  have vbl : hlldVb bx ul = wl.vx * bx + wl.vy * wl.bY + wl.vz * wl.bZ := by
    simp only [hlldVb, ul, cons]; field_simp; ring
  have vbr : hlldVb bx ur = wl.vx * bx + wr.vy * wr.bY + wr.vz * wr.bZ := by
    have : wr.d ≠ 0 := hd ▸ hdl.ne'
    simp only [hlldVb, ur, cons]; rw [← hv]; field_simp; ring
  constructor
  · rw [key]
    ext <;> simp [vbl] <;> simp [ul, cons]
  · rw [key, vbr, d2]
    ext
    · rfl
    · simp only [ul, ur, cons]; rw [hd, hv]
    · simp only [ul, cons]
    · simp only [ul, cons]
    · simp only [ul, ur, cons, totalE]
      rw [← hd, ← hv, ← hp]
      have hB' : (wr.vy - wl.vy) * (wl.bY + wr.bY) + (wr.vz - wl.vz) * (wl.bZ + wr.bZ) = 0 := by
        have p1 : 0 < Real.sqrt wl.d := Real.sqrt_pos.2 hdl
        apply mul_left_cancel₀ p1.ne'
        have : bxsig bx ≠ 0 := by intro h0; rw [h0] at hsig; norm_num at hsig
        apply mul_left_cancel₀ this
        rw [mul_zero, mul_zero]
        have a1 : bxsig bx * Real.sqrt wl.d * (wr.vy - wl.vy) = wl.bY - wr.bY := by linear_combination ey
        have a2 : bxsig bx * Real.sqrt wl.d * (wr.vz - wl.vz) = wl.bZ - wr.bZ := by linear_combination ez
        linear_combination (wl.bY + wr.bY) * a1 + (wl.bZ + wr.bZ) * a2 + hB
      have c1 : bxsig bx * (wr.bY - wl.bY) = - Real.sqrt wl.d * (wr.vy - wl.vy) := by
        rw [ey]; linear_combination (-Real.sqrt wl.d * (wr.vy - wl.vy)) * hsig
      have c2 : bxsig bx * (wr.bZ - wl.bZ) = - Real.sqrt wl.d * (wr.vz - wl.vz) := by
        rw [ez]; linear_combination (-Real.sqrt wl.d * (wr.vz - wl.vz)) * hsig
      linear_combination (-1/2) * hB + (1/2) * Real.sqrt wl.d * bxsig bx * hB'
        + (1/2) * Real.sqrt wl.d * (wl.vy + wr.vy) * c1 + (1/2) * Real.sqrt wl.d * (wl.vz + wr.vz) * c2
        - (1/2) * ((wr.vy - wl.vy) * (wl.vy + wr.vy) + (wr.vz - wl.vz) * (wl.vz + wr.vz)) * e1
    · rfl
    · rfl

/-- Both double-star states of a pair separated by an Alfven wave to the left are the right state. -/
theorem dst2_alfven_left (gamma bx : ℝ) (wl wr : W) (hl : Ok (.adiabatic gamma) wl)
    (h : AlfvenPair (-1) bx wl wr) :
    let ul := cons (.adiabatic gamma) bx wl
    let ur := cons (.adiabatic gamma) bx wr
    hlldDst2 bx wl.vx (-1) ul ur ul = ur ∧ hlldDst2 bx wl.vx 1 ul ur ur = ur := by
  obtain ⟨hb, hd, hv, hp, hB, hy, hz⟩ := h
  intro ul ur
  have hdl := hl.d_pos
  rw [abs_bxsig] at hy hz
  have hsig := bxsig_sq bx
  have ey : wr.bY = wl.bY + bxsig bx * Real.sqrt wl.d * (wr.vy - wl.vy) := by
    apply mul_left_cancel₀ hb; linear_combination -hy
  have ez : wr.bZ = wl.bZ + bxsig bx * Real.sqrt wl.d * (wr.vz - wl.vz) := by
    apply mul_left_cancel₀ hb; linear_combination -hz
  have e1 : Real.sqrt wl.d ^ 2 = wl.d := Real.sq_sqrt hdl.le
  have m1 : ul.my / ul.d = wl.vy := mul_div_cancel_left₀ _ hdl.ne'
  have m2 : ul.mz / ul.d = wl.vz := mul_div_cancel_left₀ _ hdl.ne'
  have m3 : ur.my / ur.d = wr.vy := mul_div_cancel_left₀ _ (hd ▸ hdl.ne')
  have m4 : ur.mz / ur.d = wr.vz := mul_div_cancel_left₀ _ (hd ▸ hdl.ne')
  have d2 : ur.d = wl.d := hd.symm
  have key := fun side own => dst2_of bx wl.vx side wr.vy wr.vz wr.bY wr.bZ ul ur own hdl (d2 ▸ hdl)
    (by rw [m1, m3, d2]; simp only [ul, ur, cons]; rw [ey]; linear_combination (Real.sqrt wl.d * (wr.vy - wl.vy)) * hsig)
    (by rw [m2, m4, d2]; simp only [ul, ur, cons]; rw [ez]; linear_combination (Real.sqrt wl.d * (wr.vz - wl.vz)) * hsig)
    (by rw [m1, m3, d2]; simp only [ul, ur, cons]; rw [ey]; ring)
    (by rw [m2, m4, d2]; simp only [ul, ur, cons]; rw [ez]; ring)
  have vbl : hlldVb bx ul = wl.vx * bx + wl.vy * wl.bY + wl.vz * wl.bZ := by
    simp only [hlldVb, ul, cons]; field_simp; ring
  have vbr : hlldVb bx ur = wl.vx * bx + wr.vy * wr.bY + wr.vz * wr.bZ := by
    have : wr.d ≠ 0 := hd ▸ hdl.ne'
    simp only [hlldVb, ur, cons]; rw [← hv]; field_simp; ring
  constructor
  · rw [key, vbl]
    ext
    · exact hd
    · simp only [ul, ur, cons]; rw [hd, hv]
    · simp only [ul, ur, cons]; rw [hd]
    · simp only [ul, ur, cons]; rw [hd]
    · simp only [ul, ur, cons, totalE]
      rw [← hd, ← hv, ← hp]
      have hB' : (wr.vy - wl.vy) * (wl.bY + wr.bY) + (wr.vz - wl.vz) * (wl.bZ + wr.bZ) = 0 := by
        have p1 : 0 < Real.sqrt wl.d := Real.sqrt_pos.2 hdl
        apply mul_left_cancel₀ p1.ne'
        have : bxsig bx ≠ 0 := by intro h0; rw [h0] at hsig; norm_num at hsig
        apply mul_left_cancel₀ this
        rw [mul_zero, mul_zero]
        have a1 : bxsig bx * Real.sqrt wl.d * (wr.vy - wl.vy) = wr.bY - wl.bY := by linear_combination -ey
        have a2 : bxsig bx * Real.sqrt wl.d * (wr.vz - wl.vz) = wr.bZ - wl.bZ := by linear_combination -ez
        linear_combination (wl.bY + wr.bY) * a1 + (wl.bZ + wr.bZ) * a2 - hB
      have c1 : bxsig bx * (wr.bY - wl.bY) = Real.sqrt wl.d * (wr.vy - wl.vy) := by
        rw [ey]; linear_combination (Real.sqrt wl.d * (wr.vy - wl.vy)) * hsig
      have c2 : bxsig bx * (wr.bZ - wl.bZ) = Real.sqrt wl.d * (wr.vz - wl.vz) := by
        rw [ez]; linear_combination (Real.sqrt wl.d * (wr.vz - wl.vz)) * hsig
      linear_combination (1/2) * hB + (1/2) * Real.sqrt wl.d * bxsig bx * hB'
        + (1/2) * Real.sqrt wl.d * (wl.vy + wr.vy) * c1 + (1/2) * Real.sqrt wl.d * (wl.vz + wr.vz) * c2
        + (1/2) * ((wr.vy - wl.vy) * (wl.vy + wr.vy) + (wr.vz - wl.vz) * (wl.vz + wr.vz)) * e1
    · rfl
    · rfl
  · rw [key]
    ext <;> simp [vbr] <;> simp [ur, cons]

/-- Both double-star states at a contact discontinuity are the star states. -/
theorem dst2_contact (gamma bx : ℝ) (wl wr : W) (hl : Ok (.adiabatic gamma) wl) (hr : Ok (.adiabatic gamma) wr)
    (h : ContactPair wl wr) :
    let ul := cons (.adiabatic gamma) bx wl
    let ur := cons (.adiabatic gamma) bx wr
    hlldDst2 bx wl.vx (-1) ul ur ul = ul ∧ hlldDst2 bx wl.vx 1 ul ur ur = ur := by
  obtain ⟨hv, hy, hz, hp, hb, hc⟩ := h
  intro ul ur
  have hdl := hl.d_pos
  have hdr := hr.d_pos
  have m1 : ul.my / ul.d = wl.vy := mul_div_cancel_left₀ _ hdl.ne'
  have m2 : ul.mz / ul.d = wl.vz := mul_div_cancel_left₀ _ hdl.ne'
  have m3 : ur.my / ur.d = wl.vy := hy ▸ mul_div_cancel_left₀ _ hdr.ne'
  have m4 : ur.mz / ur.d = wl.vz := hz ▸ mul_div_cancel_left₀ _ hdr.ne'
  have b1 : ur.bY = wl.bY := hb.symm
  have b2 : ur.bZ = wl.bZ := hc.symm
  have b3 : ul.bY = wl.bY := rfl
  have b4 : ul.bZ = wl.bZ := rfl
  have key := fun side own => dst2_of bx wl.vx side wl.vy wl.vz wl.bY wl.bZ ul ur own hdl hdr
    (by rw [m1, m3, b1, b3]; ring) (by rw [m2, m4, b2, b4]; ring)
    (by rw [m1, m3, b1, b3]; ring) (by rw [m2, m4, b2, b4]; ring)
  have vbl : hlldVb bx ul = wl.vx * bx + wl.vy * wl.bY + wl.vz * wl.bZ := by
    simp only [hlldVb, ul, cons]; field_simp; ring
  have vbr : hlldVb bx ur = wl.vx * bx + wl.vy * wl.bY + wl.vz * wl.bZ := by
    simp only [hlldVb, ur, cons]; rw [← hv, ← hy, ← hz, ← hb, ← hc]; field_simp; ring
  constructor
  · rw [key]
    ext <;> simp [vbl] <;> simp [ul, cons]
  · rw [key]
    ext <;> simp [vbr] <;> simp [ur, cons, hy, hz, hb, hc]

/-- A solver of this form that gives the middle wave the common velocity keeps the three kinds of discontinuities. -/
theorem keeps_of (gamma : ℝ) (solver : ℝ → W → W → F)
    (h : ∀ bx wl wr, Ok (.adiabatic gamma) wl → Ok (.adiabatic gamma) wr → wl.vx = wr.vx →
      hlldPt bx wl = hlldPt bx wr → solver bx wl wr = hlldFrom gamma bx wl.vx (hlldPt bx wl) wl wr) :
    KeepsWaves gamma solver := by
  have zero : ∀ (f u : F) (s : ℝ), f + s • (u - u) = f := by
    intro f u s; ext <;> simp
  constructor
  · intro bx wl wr hl hr hc
    obtain ⟨hv, hy, hz, hp, hb, hc'⟩ := id hc
    have hP : hlldPt bx wl = hlldPt bx wr := by unfold hlldPt; rw [hp, hb, hc']
    obtain ⟨k1, k2⟩ := dst2_contact gamma bx wl wr hl hr hc
    rw [h bx wl wr hl hr hv hP, from_still gamma bx _ wl wr hl hr hv rfl hP.symm _ _ rfl rfl, k1, k2, zero, zero]
    obtain ⟨a1, a2, a3, a4⟩ := hlld_outer gamma bx wl wr
    have cl := (fast_bounds bx hl).1
    have cr := (fast_bounds bx hr).1
    unfold hlldSa
    by_cases hb0 : bx = 0
    · rw [hb0, abs_zero, zero_div, zero_div, mul_zero, mul_zero, add_zero]
      rw [hb0] at a1 a2 a3 a4 cl cr
      split_ifs <;> first | rfl | (exfalso; linarith)
    · have n1 : 0 < |bx| / Real.sqrt (cons (.adiabatic gamma) bx wl).d :=
        div_pos (abs_pos.2 hb0) (Real.sqrt_pos.2 hl.d_pos)
      have n2 : 0 < |bx| / Real.sqrt (cons (.adiabatic gamma) bx wr).d :=
        div_pos (abs_pos.2 hb0) (Real.sqrt_pos.2 hr.d_pos)
      split_ifs <;> first | rfl | (exfalso; linarith)
  · intro bx wl wr hl hr ⟨hb, hv, hP⟩
    rw [← hlldPt_eq, ← hlldPt_eq] at hP
    rw [h bx wl wr hl hr hv hP, from_still gamma bx _ wl wr hl hr hv rfl hP.symm _ _ rfl rfl]
    obtain ⟨a1, a2, a3, a4⟩ := hlld_outer gamma bx wl wr
    have cl := (fast_bounds bx hl).1
    have cr := (fast_bounds bx hr).1
    unfold hlldSa
    rw [hb, abs_zero, zero_div, zero_div, mul_zero, mul_zero, add_zero]
    rw [hb] at a1 a2 a3 a4 cl cr
    split_ifs <;> first | rfl | (exfalso; linarith)
  · intro bx wl wr hl hr ha
    obtain ⟨hb, hd, hv, hp, hB, hy, hz⟩ := id ha
    have hP : hlldPt bx wl = hlldPt bx wr := by unfold hlldPt; rw [hp, hB]
    have hP1 : totalP (.adiabatic gamma) bx wl = hlldPt bx wl := (hlldPt_eq gamma bx wl).symm
    have hP2 : totalP (.adiabatic gamma) bx wr = hlldPt bx wl := by rw [← hlldPt_eq, hP]
    obtain ⟨k1, k2⟩ := dst2_alfven_right gamma bx wl wr hl ha
    have j := alfven_jump_right bx wl.vx (hlldPt bx wl) (cons (.adiabatic gamma) bx wl) (cons (.adiabatic gamma) bx wr)
      hl.d_pos hr.d_pos (by simp only [cons]; rw [hv])
    rw [k2, fluxOf_cons gamma bx wl hl.d_pos _ hP1, hv, fluxOf_cons gamma bx wr hr.d_pos _ hP2, ← hv] at j
    have j' : flux (.adiabatic gamma) bx wr + hlldSa bx wl.vx 1 (cons (.adiabatic gamma) bx wr) •
        (cons (.adiabatic gamma) bx wl - cons (.adiabatic gamma) bx wr) = flux (.adiabatic gamma) bx wl := by
      rw [← j]; ext <;> simp
    rw [h bx wl wr hl hr hv hP, from_still gamma bx _ wl wr hl hr hv rfl hP.symm _ _ rfl rfl, k1, k2, zero, j']
    obtain ⟨a1, a2, a3, a4⟩ := hlld_outer gamma bx wl wr
    have cl := (fast_bounds bx hl).1
    have al := alfven_le_fast bx hl
    have n1 : 0 < |bx| / Real.sqrt wl.d := div_pos (abs_pos.2 hb) (Real.sqrt_pos.2 hl.d_pos)
    unfold hlldSa
    simp only [cons, ← hd]
    split_ifs <;> first | rfl | (exfalso; linarith)
  · intro bx wl wr hl hr ha
    obtain ⟨hb, hd, hv, hp, hB, hy, hz⟩ := id ha
    have hP : hlldPt bx wl = hlldPt bx wr := by unfold hlldPt; rw [hp, hB]
    have hP1 : totalP (.adiabatic gamma) bx wl = hlldPt bx wl := (hlldPt_eq gamma bx wl).symm
    have hP2 : totalP (.adiabatic gamma) bx wr = hlldPt bx wl := by rw [← hlldPt_eq, hP]
    obtain ⟨k1, k2⟩ := dst2_alfven_left gamma bx wl wr hl ha
    have j := alfven_jump_left bx wl.vx (hlldPt bx wl) (cons (.adiabatic gamma) bx wl) (cons (.adiabatic gamma) bx wr)
      hl.d_pos hr.d_pos rfl
    rw [k1, fluxOf_cons gamma bx wl hl.d_pos _ hP1, hv, fluxOf_cons gamma bx wr hr.d_pos _ hP2, ← hv] at j
    have j' : flux (.adiabatic gamma) bx wl + hlldSa bx wl.vx (-1) (cons (.adiabatic gamma) bx wl) •
        (cons (.adiabatic gamma) bx wr - cons (.adiabatic gamma) bx wl) = flux (.adiabatic gamma) bx wr := by
      rw [← j]; ext <;> simp
    rw [h bx wl wr hl hr hv hP, from_still gamma bx _ wl wr hl hr hv rfl hP.symm _ _ rfl rfl, k1, k2, zero, j']
    obtain ⟨a1, a2, a3, a4⟩ := hlld_outer gamma bx wl wr
    have cl := (fast_bounds bx hl).1
    have al := alfven_le_fast bx hl
    have n1 : 0 < |bx| / Real.sqrt wl.d := div_pos (abs_pos.2 hb) (Real.sqrt_pos.2 hl.d_pos)
    unfold hlldSa
    simp only [cons, ← hd]
    split_ifs <;> first | rfl | (exfalso; linarith)

/-- HLLD keeps contact, tangential and rotational discontinuities. -/
theorem hlld_keeps (gamma : ℝ) : KeepsWaves gamma (hlld gamma) := by
  refine keeps_of gamma _ fun bx wl wr hl hr hv hP => ?_
  obtain ⟨e1, e2⟩ := hlldSm_still gamma bx wl wr hl hr hv hP
  unfold hlld
  rw [e1, e2]

/-- LHLLD does so too, for every value of the shock detector. -/
theorem lhlld_keeps (gamma dvn dvt : ℝ) : KeepsWaves gamma (fun bx => lhlld gamma bx dvn dvt) := by
  refine keeps_of gamma _ fun bx wl wr hl hr hv hP => ?_
  obtain ⟨e1, e2⟩ := lhlldSm_still gamma bx dvn dvt wl wr hl hr hv hP
  unfold lhlld
  rw [e1, e2]

/-- HLLD is consistent. -/
theorem hlld_consistent (gamma : ℝ) : Consistent (.adiabatic gamma) (hlld gamma) := by
  refine consistent_of fun bx w h => ?_
  rw [(hlld_keeps gamma).contact bx w w h h ⟨rfl, rfl, rfl, rfl, rfl, rfl⟩, ite_self]

/-- LHLLD is consistent. -/
theorem lhlld_consistent (gamma dvn dvt : ℝ) :
    Consistent (.adiabatic gamma) (fun bx => lhlld gamma bx dvn dvt) := by
  refine consistent_of fun bx w h => ?_
  rw [(lhlld_keeps gamma dvn dvt).contact bx w w h h ⟨rfl, rfl, rfl, rfl, rfl, rfl⟩, ite_self]

/-- If both flows are faster than their fast waves to one side, the flux is that of the side from which they come. -/
theorem hlldFrom_upwind (gamma bx sm P : ℝ) (wl wr : W) (hl : Ok (.adiabatic gamma) wl) :
    (fast (.adiabatic gamma) bx wl ≤ wl.vx → fast (.adiabatic gamma) bx wr ≤ wr.vx →
      hlldFrom gamma bx sm P wl wr = flux (.adiabatic gamma) bx wl) ∧
    (wl.vx ≤ -fast (.adiabatic gamma) bx wl → wr.vx ≤ -fast (.adiabatic gamma) bx wr →
      hlldFrom gamma bx sm P wl wr = flux (.adiabatic gamma) bx wr) := by
  obtain ⟨a1, a2, a3, a4⟩ := hlld_outer gamma bx wl wr
  have cl := (fast_bounds bx hl).1
  unfold hlldFrom
  simp only [hlldFlux_eq]
  constructor
  · intro h1 h2
    rw [if_pos]
    unfold hlldSl
    exact le_min (by linarith) (by linarith)
  · intro h1 h2
    rw [if_neg (by linarith), if_pos]
    unfold hlldSr
    exact max_le (by linarith) (by linarith)

theorem hlld_upwind (gamma bx : ℝ) (wl wr : W) (hl : Ok (.adiabatic gamma) wl) :
    (fast (.adiabatic gamma) bx wl ≤ wl.vx → fast (.adiabatic gamma) bx wr ≤ wr.vx →
      hlld gamma bx wl wr = flux (.adiabatic gamma) bx wl) ∧
    (wl.vx ≤ -fast (.adiabatic gamma) bx wl → wr.vx ≤ -fast (.adiabatic gamma) bx wr →
      hlld gamma bx wl wr = flux (.adiabatic gamma) bx wr) := hlldFrom_upwind _ _ _ _ _ _ hl

theorem lhlld_upwind (gamma bx dvn dvt : ℝ) (wl wr : W) (hl : Ok (.adiabatic gamma) wl) :
    (fast (.adiabatic gamma) bx wl ≤ wl.vx → fast (.adiabatic gamma) bx wr ≤ wr.vx →
      lhlld gamma bx dvn dvt wl wr = flux (.adiabatic gamma) bx wl) ∧
    (wl.vx ≤ -fast (.adiabatic gamma) bx wl → wr.vx ≤ -fast (.adiabatic gamma) bx wr →
      lhlld gamma bx dvn dvt wl wr = flux (.adiabatic gamma) bx wr) := hlldFrom_upwind _ _ _ _ _ _ hl

/-! ## The hypotheses are met -/

/-- Two streams that collide along a field: the regular case of HLLD. -/
theorem collide_regular :
    let wl : W := ⟨1, 1, 5, 0, 2, 0, 0⟩
    let wr : W := ⟨1, -1, 0, 7, 2, 0, 0⟩
    hlldSl 2 1 wl wr = -3 ∧ hlldSr 2 1 wl wr = 3 ∧ hlldSm 2 1 wl wr = 0 ∧ hlldPst 2 1 wl wr = 13/2 := by
  intro wl wr
  have h4 : Real.sqrt 4 = 2 := by
    rw [show (4 : ℝ) = 2 ^ 2 by norm_num]; exact Real.sqrt_sq (by norm_num)
  have h9 : Real.sqrt 9 = 3 := by
    rw [show (9 : ℝ) = 3 ^ 2 by norm_num]; exact Real.sqrt_sq (by norm_num)
  have f1 : fast (.adiabatic 2) 1 wl = 2 := by
    simp only [fast, fastSpeed, asq, wl]; norm_num [h4, h9]
  have f2 : fast (.adiabatic 2) 1 wr = 2 := by
    simp only [fast, fastSpeed, asq, wr]; norm_num [h4, h9]
  have e1 : hlldSl 2 1 wl wr = -3 := by
    simp only [hlldSl, f1, f2]; norm_num [wl, wr]
  have e2 : hlldSr 2 1 wl wr = 3 := by
    simp only [hlldSr, f1, f2]; norm_num [wl, wr]
  have e3 : hlldSm 2 1 wl wr = 0 := by
    simp only [hlldSm, e1, e2, hlldCons, hlldPt]; norm_num [wl, wr]
  refine ⟨e1, e2, e3, ?_⟩
  simp only [hlldPst, e1, e2, e3, hlldPt]; norm_num [wl, wr]

example : ∃ s1 s3 P ul uld urd ur, Fan 2 1 ⟨1, 1, 5, 0, 2, 0, 0⟩ ⟨1, -1, 0, 7, 2, 0, 0⟩ (-3) s1 0 s3 3 P ul uld urd ur := by
  obtain ⟨e1, e2, e3, e4⟩ := collide_regular
  have h := hlld_waves 2 1 ⟨1, 1, 5, 0, 2, 0, 0⟩ ⟨1, -1, 0, 7, 2, 0, 0⟩
    ⟨by norm_num, by norm_num, by norm_num⟩ ⟨by norm_num, by norm_num, by norm_num⟩
  simp only [e1, e2, e3, e4, hlldDeg] at h
  obtain ⟨s1, s3, P, ul, uld, urd, ur, hf, _⟩ := h (by norm_num [abs_of_pos]) (by norm_num [abs_of_pos]) (by norm_num) (by norm_num)
  exact ⟨s1, s3, P, ul, uld, urd, ur, hf⟩

/-- A shear layer in a transverse field at rest: HLLD gives the flux of the left state. -/
example (gamma : ℝ) (hg : 1 < gamma) : hlld gamma 0 ⟨1, 0, 3, 0, 1, 1, 0⟩ ⟨2, 0, -3, 1, 1, 0, 1⟩
    = flux (.adiabatic gamma) 0 ⟨1, 0, 3, 0, 1, 1, 0⟩ := by
  rw [(hlld_keeps gamma).tangential 0 ⟨1, 0, 3, 0, 1, 1, 0⟩ ⟨2, 0, -3, 1, 1, 0, 1⟩
     ⟨by norm_num, by norm_num, hg⟩ ⟨by norm_num, by norm_num, hg⟩
    ⟨rfl, rfl, by simp [totalP, gasP]⟩, if_pos le_rfl]

/-- A rotation of the transverse field by a right angle. -/
example (gamma dvn dvt : ℝ) (hg : 1 < gamma) :
    lhlld gamma 1 dvn dvt ⟨1, 0, 0, 0, 1, 1, 0⟩ ⟨1, 0, 1, -1, 1, 0, 1⟩
    = flux (.adiabatic gamma) 1 ⟨1, 0, 0, 0, 1, 1, 0⟩ := by
  rw [(lhlld_keeps gamma dvn dvt).alfvenRight 1 ⟨1, 0, 0, 0, 1, 1, 0⟩ ⟨1, 0, 1, -1, 1, 0, 1⟩
     ⟨by norm_num, by norm_num, hg⟩ ⟨by norm_num, by norm_num, hg⟩
    ⟨one_ne_zero, rfl, rfl, rfl, by norm_num, by norm_num, by norm_num⟩, if_pos (by norm_num)]

example (gamma : ℝ) (hg : 1 < gamma) :
    hlld gamma 1 ⟨1, -1, 0, 0, 1, 1, 0⟩ ⟨1, -1, -1, 1, 1, 0, 1⟩
    = flux (.adiabatic gamma) 1 ⟨1, -1, -1, 1, 1, 0, 1⟩ := by
  rw [(hlld_keeps gamma).alfvenLeft 1 ⟨1, -1, 0, 0, 1, 1, 0⟩ ⟨1, -1, -1, 1, 1, 0, 1⟩
     ⟨by norm_num, by norm_num, hg⟩ ⟨by norm_num, by norm_num, hg⟩
    ⟨one_ne_zero, rfl, rfl, rfl, by norm_num, by norm_num, by norm_num⟩, if_neg (by norm_num)]

example (gamma bx : ℝ) (hg : 1 < gamma) : hlld gamma bx ⟨1, 0, 3, 0, 1, 1, 5⟩ ⟨8, 0, 3, 0, 1, 1, 5⟩
    = flux (.adiabatic gamma) bx ⟨1, 0, 3, 0, 1, 1, 5⟩ := by
  rw [(hlld_keeps gamma).contact bx ⟨1, 0, 3, 0, 1, 1, 5⟩ ⟨8, 0, 3, 0, 1, 1, 5⟩
     ⟨by norm_num, by norm_num, hg⟩ ⟨by norm_num, by norm_num, hg⟩
    ⟨rfl, rfl, rfl, rfl, rfl, rfl⟩, if_pos le_rfl]

end Verif.Mhd
