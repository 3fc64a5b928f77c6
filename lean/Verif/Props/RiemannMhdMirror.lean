import Verif.Props.RiemannMhd
import Verif.Props.RiemannHlld
import Verif.Props.RiemannHlldIso

/-!
# C59: reflection symmetry of the solvers with a magnetic field, and what follows at a reflecting wall
-/
namespace Verif.Mhd
open Verif.Riemann (Gas)
open Verif.TimeStep

theorem Ok.mirror {g : Gas} {w : W} (h : Ok g w) : Ok g w.mirror := by
  cases g <;> exact h

theorem fast_mirror (g : Gas) (bx : ℝ) (w : W) : fast g (-bx) w.mirror = fast g bx w := by
  cases g <;> simp [fast, fastSpeed, asq, W.mirror]

theorem flux_mirror (g : Gas) (bx : ℝ) (w : W) : flux g (-bx) w.mirror = (flux g bx w).mirror := by
  cases g <;> ext <;> simp only [flux, W.mirror, F.mirror, totalE, totalP, gasP] <;> ring

/-- The conserved variables after reflection. -/
def F.mirrorU (f : F) : F := { f with mx := -f.mx }

theorem cons_mirror (g : Gas) (bx : ℝ) (w : W) : cons g (-bx) w.mirror = (cons g bx w).mirrorU := by
  cases g <;> ext <;> simp [cons, W.mirror, F.mirrorU, totalE]

/-- LLF commutes with reflection. -/
theorem llf_mirror (g : Gas) (bx : ℝ) (wl wr : W) : MirrorAt (llf g) bx wl wr := by
  unfold MirrorAt
  rw [llf_formula, llf_formula, fast_mirror, fast_mirror, flux_mirror, flux_mirror, cons_mirror, cons_mirror]
  have e : max (|wr.mirror.vx| + fast g bx wr) (|wl.mirror.vx| + fast g bx wl)
      = max (|wl.vx| + fast g bx wl) (|wr.vx| + fast g bx wr) := by
    simp only [W.mirror, abs_neg]; exact max_comm _ _
  rw [e]
  generalize max (|wl.vx| + fast g bx wl) (|wr.vx| + fast g bx wr) = A
  ext <;> simp only [F.mirror, F.mirrorU, add_d, add_mx, add_my, add_mz, add_e, add_bY, add_bZ, smul_d, smul_mx,
        smul_my, smul_mz, smul_e, smul_bY, smul_bZ, sub_d, sub_mx, sub_my, sub_mz, sub_e, sub_bY, sub_bZ] <;> ring

theorem roeMean_swap (wl wr : W) (x y : ℝ) : roeMean wr.mirror wl.mirror y x = roeMean wl wr x y := by
  simp only [roeMean, W.mirror]
  ring

theorem roeMeanB_swap (wl wr : W) (x y : ℝ) : roeMeanB wr.mirror wl.mirror y x = roeMeanB wl wr x y := by
  simp only [roeMeanB, W.mirror]
  ring

theorem roeMean_neg (wl wr : W) (x y : ℝ) : roeMean wl wr (-x) (-y) = -roeMean wl wr x y := by
  simp only [roeMean]
  ring

theorem roeEnthalpy_mirror (g : Gas) (bx : ℝ) (wl wr : W) :
    roeEnthalpy g (-bx) wr.mirror wl.mirror = roeEnthalpy g bx wl wr := by
  have he : ∀ w, energy g (-bx) w.mirror = energy g bx w := fun w => by cases g <;> simp [energy, pb, W.mirror]
  have hp : ∀ w, pb (-bx) w.mirror = pb bx w := fun w => by simp [pb, W.mirror]
  simp only [roeEnthalpy, he, hp]
  simp only [W.mirror]
  ring

theorem roeD_mirror (wl wr : W) : roeD wr.mirror wl.mirror = roeD wl wr := by
  simp only [roeD, W.mirror]; ring

theorem roeX_mirror (wl wr : W) : roeX wr.mirror wl.mirror = roeX wl wr := by
  simp only [roeX, W.mirror]
  rw [add_comm (Real.sqrt wr.d)]
  ring

theorem roeY_mirror (wl wr : W) : roeY wr.mirror wl.mirror = roeY wl wr := by
  simp only [roeY, roeD_mirror]
  simp only [W.mirror]
  ring

theorem roeQ_mirror (g : Gas) (bx : ℝ) (wl wr : W) : roeQ g (-bx) wr.mirror wl.mirror = roeQ g bx wl wr := by
  have hx : roeMean wr.mirror wl.mirror wr.mirror.vx wl.mirror.vx = -roeMean wl wr wl.vx wr.vx := by
    rw [roeMean_swap]; exact roeMean_neg wl wr _ _
  have hy : roeMean wr.mirror wl.mirror wr.mirror.vy wl.mirror.vy = roeMean wl wr wl.vy wr.vy := roeMean_swap _ _ _ _
  have hz : roeMean wr.mirror wl.mirror wr.mirror.vz wl.mirror.vz = roeMean wl wr wl.vz wr.vz := roeMean_swap _ _ _ _
  have gy : roeMeanB wr.mirror wl.mirror wr.mirror.bY wl.mirror.bY = roeMeanB wl wr wl.bY wr.bY := roeMeanB_swap _ _ _ _
  have gz : roeMeanB wr.mirror wl.mirror wr.mirror.bZ wl.mirror.bZ = roeMeanB wl wr wl.bZ wr.bZ := roeMeanB_swap _ _ _ _
  simp only [roeQ, roeEnthalpy_mirror, roeD_mirror, hx, hy, hz, gy, gz]
  ring

theorem hlleA_mirror (g : Gas) (bx : ℝ) (wl wr : W) : hlleA g (-bx) wr.mirror wl.mirror = hlleA g bx wl wr := by
  have gy : roeMeanB wr.mirror wl.mirror wr.mirror.bY wl.mirror.bY = roeMeanB wl wr wl.bY wr.bY := roeMeanB_swap _ _ _ _
  have gz : roeMeanB wr.mirror wl.mirror wr.mirror.bZ wl.mirror.bZ = roeMeanB wl wr wl.bZ wr.bZ := roeMeanB_swap _ _ _ _
  have hs : hlleStar g (-bx) wr.mirror wl.mirror = hlleStar g bx wl wr := by
    cases g <;> simp only [hlleStar, gy, gz, roeY_mirror, roeX_mirror, roeQ_mirror]
  simp only [hlleA, hlleRad, hs, roeD_mirror, neg_mul_neg]

/-- HLLE commutes with reflection. -/
theorem hlle_mirror (g : Gas) (bx : ℝ) (wl wr : W) (hl : Ok g wl) (hr : Ok g wr) (hs : SoftGas g ∨ roeY wl wr = 1) :
    MirrorAt (hlle g) bx wl wr := by
  unfold MirrorAt
  obtain ⟨bm, bp, hm, hp, hlt, h⟩ := hlle_formula g bx wl wr hl hr hs
  obtain ⟨bm', bp', hm', hp', _, h'⟩ := hlle_formula g (-bx) wr.mirror wl.mirror hr.mirror hl.mirror
    (by rw [roeY_mirror]; exact hs)
  have hx : roeMean wr.mirror wl.mirror wr.mirror.vx wl.mirror.vx = -roeMean wl wr wl.vx wr.vx := by
    rw [roeMean_swap]; exact roeMean_neg wl wr _ _
  rw [hx, hlleA_mirror, fast_mirror] at hm' hp'
  have e1 : bm' = -bp := by
    rw [hm', hp, ← min_neg_neg, ← min_neg_neg, neg_zero]
    congr 2
    · ring
    · simp only [W.mirror]; ring
  have e2 : bp' = -bm := by
    rw [hp', hm, ← max_neg_neg, ← max_neg_neg, neg_zero]
    congr 2
    · ring
    · simp only [W.mirror]; ring
  rw [h, h', e1, e2, flux_mirror, flux_mirror, cons_mirror, cons_mirror]
  have hne : bp - bm ≠ 0 := by linarith
  rw [show -bm - -bp = bp - bm by ring]
  ext <;> simp only [F.mirror, F.mirrorU, add_d, add_mx, add_my, add_mz, add_e, add_bY, add_bZ, smul_d, smul_mx,
    smul_my, smul_mz, smul_e, smul_bY, smul_bZ, sub_d, sub_mx, sub_my, sub_mz, sub_e, sub_bY, sub_bZ] <;>
    field_simp <;> ring

/-! ## HLLD -/

theorem hlldSl_mirror (gamma bx : ℝ) (wl wr : W) :
    hlldSl gamma (-bx) wr.mirror wl.mirror = -hlldSr gamma bx wl wr := by
  simp only [hlldSl, hlldSr, fast_mirror]
  rw [← min_neg_neg, min_comm]
  congr 1 <;> (simp only [W.mirror]; ring)

theorem hlldSr_mirror (gamma bx : ℝ) (wl wr : W) :
    hlldSr gamma (-bx) wr.mirror wl.mirror = -hlldSl gamma bx wl wr := by
  simp only [hlldSl, hlldSr, fast_mirror]
  rw [← max_neg_neg, max_comm]
  congr 1 <;> (simp only [W.mirror]; ring)

theorem hlldCons_mirror (gamma bx : ℝ) (w : W) : hlldCons gamma (-bx) w.mirror = (hlldCons gamma bx w).mirrorU := by
  ext <;> simp [hlldCons, F.mirrorU, W.mirror]

theorem hlldPt_mirror (bx : ℝ) (w : W) : hlldPt (-bx) w.mirror = hlldPt bx w := by
  simp [hlldPt, W.mirror]

theorem hlldFlux_mirror (gamma bx : ℝ) (w : W) : hlldFlux gamma (-bx) w.mirror = (hlldFlux gamma bx w).mirror := by
  ext <;> simp only [hlldFlux, hlldCons_mirror, hlldPt_mirror] <;> simp only [F.mirrorU, F.mirror, W.mirror] <;> ring

theorem hlldVb_mirror (bx : ℝ) (u : F) : hlldVb (-bx) u.mirrorU = hlldVb bx u := by
  simp only [hlldVb, F.mirrorU]; ring

theorem hlldDst_mirror (s sm : ℝ) (w : W) : hlldDst (-s) (-sm) w.mirror = hlldDst s sm w := by
  simp only [hlldDst, W.mirror]
  rw [show -s - -sm = -(s - sm) by ring, one_div, one_div, inv_neg]
  ring

theorem hlldStar_mirror (gamma bx s sm P : ℝ) (w : W) :
    hlldStar gamma (-bx) (-s) (-sm) P w.mirror = (hlldStar gamma bx s sm P w).mirrorU := by
  have hdeg : hlldDeg (-bx) (-s) (-sm) P w.mirror ↔ hlldDeg bx s sm P w := by
    have : w.d * (-s - -w.vx) * (-s - -sm) - -bx * -bx = w.d * (s - w.vx) * (s - sm) - bx * bx := by ring
    simp only [hlldDeg, W.mirror, this]
  have ei : 1 / (-s - -sm) = -(1 / (s - sm)) := by
    rw [show -s - -sm = -(s - sm) by ring, one_div, one_div, inv_neg]
  have hu := hlldCons_mirror gamma bx w
  have hpt := hlldPt_mirror bx w
  have hdst := hlldDst_mirror s sm w
  unfold hlldStar
  simp only [hu, hpt, hdst, ei]
  by_cases h : hlldDeg bx s sm P w
  · simp only [if_pos h, if_pos (hdeg.2 h)]
    ext <;> simp only [F.mirrorU, W.mirror, hlldVb] <;> ring
  · simp only [if_neg h, if_neg (fun k => h (hdeg.1 k))]
    have e0 : w.d * (-s - -w.vx) * (-s - -sm) - -bx * -bx = w.d * (s - w.vx) * (s - sm) - bx * bx := by ring
    have e1 : -bx * (-s - -w.vx - (-s - -sm)) / (w.d * (-s - -w.vx) * (-s - -sm) - -bx * -bx)
        = bx * (s - w.vx - (s - sm)) / (w.d * (s - w.vx) * (s - sm) - bx * bx) := by
      rw [e0]; congr 1; ring
    have e2 : (w.d * (-s - -w.vx) ^ 2 - -bx * -bx) / (w.d * (-s - -w.vx) * (-s - -sm) - -bx * -bx)
        = (w.d * (s - w.vx) ^ 2 - bx * bx) / (w.d * (s - w.vx) * (s - sm) - bx * bx) := by
      rw [e0]; congr 1; ring
    have hd : (hlldCons gamma bx w).mirrorU.d = w.d := rfl
    have hd' : (hlldCons gamma bx w).d = w.d := rfl
    simp only [hd, hd']
    simp only [F.mirrorU, W.mirror]
    rw [e1, e2]
    generalize bx * (s - w.vx - (s - sm)) / (w.d * (s - w.vx) * (s - sm) - bx * bx) = t1
    generalize (w.d * (s - w.vx) ^ 2 - bx * bx) / (w.d * (s - w.vx) * (s - sm) - bx * bx) = t2
    ext <;> simp only [hlldVb] <;> ring

theorem bxsig_neg {bx : ℝ} (h : bx ≠ 0) : bxsig (-bx) = -bxsig bx := by
  rcases lt_or_gt_of_ne h with h | h
  · simp [bxsig, h, h.not_gt]
  · simp [bxsig, h, h.not_gt]

theorem hlldDst2_mirror {bx : ℝ} (h : bx ≠ 0) (sm side : ℝ) (ul ur own : F) (hl : ul.d ≠ 0) (hr : ur.d ≠ 0) :
    hlldDst2 (-bx) (-sm) (-side) ur.mirrorU ul.mirrorU own.mirrorU = (hlldDst2 bx sm side ul ur own).mirrorU := by
  unfold hlldDst2
  simp only [bxsig_neg h, hlldVb_mirror]
  simp only [F.mirrorU]
  rw [add_comm (Real.sqrt ur.d) (Real.sqrt ul.d)]
  ext <;> simp only [] <;> first | ring1 | (field_simp; ring)

theorem hlldSa_mirror (bx sm side : ℝ) (u : F) : hlldSa (-bx) (-sm) (-side) u.mirrorU = -hlldSa bx sm side u := by
  simp only [hlldSa, F.mirrorU, abs_neg]; ring

theorem plus_mirror (f : F) (s : ℝ) (u' u : F) : f.mirror.plus (-s) u'.mirrorU u.mirrorU = (f.plus s u' u).mirror := by
  ext <;> simp only [F.plus, F.mirror, F.mirrorU] <;> ring

/-- Reflection for the common part of HLLD and LHLLD. The two sides of the middle wave need separate thought only if
that wave stands still (`tie`). -/
theorem hlldFrom_mirror (gamma bx sm P : ℝ) (wl wr : W)
    (ho : hlldSl gamma bx wl wr < hlldSr gamma bx wl wr)
    (h1 : 0 < hlldDst (hlldSl gamma bx wl wr) sm wl) (h2 : 0 < hlldDst (hlldSr gamma bx wl wr) sm wr)
    (tie : sm = 0 →
      let sl := hlldSl gamma bx wl wr
      let sr := hlldSr gamma bx wl wr
      let ulst := hlldStar gamma bx sl 0 P wl
      let urst := hlldStar gamma bx sr 0 P wr
      let fl := (hlldFlux gamma bx wl).plus sl ulst (hlldCons gamma bx wl)
      let fr := (hlldFlux gamma bx wr).plus sr urst (hlldCons gamma bx wr)
      (bx = 0 → fl = fr) ∧
      (bx ≠ 0 → fl.plus (hlldSa bx 0 (-1) ulst) (hlldDst2 bx 0 (-1) ulst urst ulst) ulst
        = fr.plus (hlldSa bx 0 1 urst) (hlldDst2 bx 0 1 ulst urst urst) urst)) :
    hlldFrom gamma (-bx) (-sm) P wr.mirror wl.mirror = (hlldFrom gamma bx sm P wl wr).mirror := by
  unfold hlldFrom
  simp only [hlldSl_mirror, hlldSr_mirror, hlldCons_mirror, hlldFlux_mirror, hlldStar_mirror]
  have d1 := hlldStar_d gamma bx (hlldSl gamma bx wl wr) sm P wl
  have d2 := hlldStar_d gamma bx (hlldSr gamma bx wl wr) sm P wr
  have tie' : sm = 0 →
      let sl := hlldSl gamma bx wl wr
      let sr := hlldSr gamma bx wl wr
      let ulst := hlldStar gamma bx sl sm P wl
      let urst := hlldStar gamma bx sr sm P wr
      let fl := (hlldFlux gamma bx wl).plus sl ulst (hlldCons gamma bx wl)
      let fr := (hlldFlux gamma bx wr).plus sr urst (hlldCons gamma bx wr)
      (bx = 0 → fl = fr) ∧
      (bx ≠ 0 → fl.plus (hlldSa bx sm (-1) ulst) (hlldDst2 bx sm (-1) ulst urst ulst) ulst
        = fr.plus (hlldSa bx sm 1 urst) (hlldDst2 bx sm 1 ulst urst urst) urst) := by
    intro h
    subst h
    exact tie rfl
  clear tie
  simp only [] at tie'
  rw [← d1] at h1
  rw [← d2] at h2
  generalize hlldStar gamma bx (hlldSl gamma bx wl wr) sm P wl = ul at *
  generalize hlldStar gamma bx (hlldSr gamma bx wl wr) sm P wr = ur at *
  have a1 : hlldSa (-bx) (-sm) (-1) ur.mirrorU = -hlldSa bx sm 1 ur := hlldSa_mirror bx sm 1 ur
  have a2 : hlldSa (-bx) (-sm) 1 ul.mirrorU = -hlldSa bx sm (-1) ul := by
    have := hlldSa_mirror bx sm (-1) ul
    rwa [neg_neg] at this
  rw [a1, a2]
  have c1 : hlldSa bx sm (-1) ul ≤ sm := by
    have : 0 ≤ |bx| / Real.sqrt ul.d := by positivity
    simp only [hlldSa]; linarith
  have c2 : sm ≤ hlldSa bx sm 1 ur := by
    have : 0 ≤ |bx| / Real.sqrt ur.d := by positivity
    simp only [hlldSa]; linarith
  simp only [neg_nonneg, neg_nonpos]
  generalize hlldSl gamma bx wl wr = sl at *
  generalize hlldSr gamma bx wl wr = sr at *
  by_cases k1 : 0 ≤ sl
  · rw [if_neg (by linarith), if_pos k1, if_pos k1]
  rw [if_neg k1, if_neg k1]
  by_cases k2 : sr ≤ 0
  · rw [if_pos k2, if_pos k2]
  rw [if_neg k2, if_neg k2]
  by_cases k3 : 0 ≤ hlldSa bx sm (-1) ul
  · by_cases k4 : hlldSa bx sm 1 ur ≤ 0
    · have h0 : sm = 0 := by linarith
      have hb : bx = 0 := by
        have : |bx| / Real.sqrt ul.d ≤ 0 := by simp only [hlldSa, h0] at k3; linarith
        have h3 : 0 < Real.sqrt ul.d := Real.sqrt_pos.2 h1
        have : |bx| ≤ 0 := by
          by_contra hc
          push Not at hc
          have : 0 < |bx| / Real.sqrt ul.d := by positivity
          linarith
        exact abs_nonpos_iff.1 this
      rw [if_pos k4, if_pos k3, plus_mirror, (tie' h0).1 hb]
    · rw [if_neg k4, if_pos k3, if_pos k3, plus_mirror]
  rw [if_neg k3, if_neg k3]
  by_cases k4 : hlldSa bx sm 1 ur ≤ 0
  · rw [if_pos k4, if_pos k4, plus_mirror]
  rw [if_neg k4, if_neg k4]
  have hb : bx ≠ 0 := by
    rintro rfl
    simp only [hlldSa, abs_zero, zero_div, mul_zero, add_zero] at k3 k4
    exact k4 (le_of_not_ge k3)
  have b1 : hlldDst2 (-bx) (-sm) (-1) ur.mirrorU ul.mirrorU ur.mirrorU = (hlldDst2 bx sm 1 ul ur ur).mirrorU :=
    hlldDst2_mirror hb sm 1 ul ur ur h1.ne' h2.ne'
  have b2 : hlldDst2 (-bx) (-sm) 1 ur.mirrorU ul.mirrorU ul.mirrorU = (hlldDst2 bx sm (-1) ul ur ul).mirrorU := by
    have := hlldDst2_mirror hb sm (-1) ul ur ul h1.ne' h2.ne'
    rwa [neg_neg] at this
  rcases lt_trichotomy sm 0 with k5 | k5 | k5
  · rw [if_pos k5.le, if_neg (not_le.2 k5), b1, plus_mirror, plus_mirror]
  · rw [if_pos k5.le, if_pos k5.ge, b1, plus_mirror, plus_mirror, (tie' k5).2 hb]
  · rw [if_neg (not_le.2 k5), if_pos k5.le, b2, plus_mirror, plus_mirror]

theorem hlldSm_mirror (gamma bx : ℝ) (wl wr : W) :
    hlldSm gamma (-bx) wr.mirror wl.mirror = -hlldSm gamma bx wl wr := by
  simp only [hlldSm, hlldSl_mirror, hlldSr_mirror, hlldCons_mirror, hlldPt_mirror]
  rw [← neg_div]
  congr 1 <;> (simp only [F.mirrorU, W.mirror]; ring)

theorem hlldPst_mirror (gamma bx : ℝ) (wl wr : W) :
    hlldPst gamma (-bx) wr.mirror wl.mirror = hlldPst gamma bx wl wr := by
  simp only [hlldPst, hlldSm_mirror, hlldSl_mirror, hlldSr_mirror, hlldPt_mirror]
  simp only [W.mirror]; ring

theorem lhlldSm_mirror (gamma bx dvn dvt : ℝ) (wl wr : W) :
    lhlldSm gamma (-bx) dvn dvt wr.mirror wl.mirror = -lhlldSm gamma bx dvn dvt wl wr := by
  simp only [lhlldSm, hlldSl_mirror, hlldSr_mirror, hlldCons_mirror, hlldPt_mirror, fast_mirror]
  rw [max_comm (fast (.adiabatic gamma) bx wr), ← neg_div]
  congr 1 <;> (simp only [F.mirrorU, W.mirror]; ring)

theorem lhlldPst_mirror (gamma bx : ℝ) (wl wr : W) :
    lhlldPst gamma (-bx) wr.mirror wl.mirror = lhlldPst gamma bx wl wr := by
  have hc : ∀ w, lhlldCsq (-bx) w.mirror = lhlldCsq bx w := fun w => by simp [lhlldCsq, W.mirror]
  simp only [lhlldPst, hlldSl_mirror, hlldSr_mirror, hlldPt_mirror, fast_mirror, hc]
  rw [max_comm (fast (.adiabatic gamma) bx wr), max_comm (lhlldCsq bx wr)]
  congr 1 <;> (simp only [W.mirror]; ring)

theorem add_of_jump {a b c : F} (h : a - b = c) : b + c = a := by
  subst h
  ext <;> simp only [add_d, add_mx, add_my, add_mz, add_e, add_bY, add_bZ, sub_d, sub_mx, sub_my, sub_mz, sub_e, sub_bY,
    sub_bZ] <;> ring

theorem eq_of_still {a b c : F} (h : a - b = (0 : ℝ) • c) : b = a := by
  rw [← add_of_jump h]
  ext <;> simp only [add_d, add_mx, add_my, add_mz, add_e, add_bY, add_bZ, smul_d, smul_mx,
    smul_my, smul_mz, smul_e, smul_bY, smul_bZ] <;> ring

/-- With a middle wave at rest and no degenerate side the two outer expressions give the same flux. -/
theorem tie_regular (gamma bx P : ℝ) (wl wr : W) (sl sr : ℝ) (hl : 0 < wl.d) (hr : 0 < wr.d)
    (hsl : sl ≠ wl.vx) (hsr : sr ≠ wr.vx) (hl0 : sl ≠ 0) (hr0 : sr ≠ 0)
    (h1 : 0 < hlldDst sl 0 wl) (h2 : 0 < hlldDst sr 0 wr)
    (hPl : P = hlldPt bx wl + wl.d * (sl - wl.vx) * (0 - wl.vx))
    (hPr : P = hlldPt bx wr + wr.d * (sr - wr.vx) * (0 - wr.vx))
    (dl : ¬ hlldDeg bx sl 0 P wl) (dr : ¬ hlldDeg bx sr 0 P wr)
    (nl : wl.d * (sl - wl.vx) * (sl - 0) - bx * bx ≠ 0) (nr : wr.d * (sr - wr.vx) * (sr - 0) - bx * bx ≠ 0) :
    let ulst := hlldStar gamma bx sl 0 P wl
    let urst := hlldStar gamma bx sr 0 P wr
    let fl := (hlldFlux gamma bx wl).plus sl ulst (hlldCons gamma bx wl)
    let fr := (hlldFlux gamma bx wr).plus sr urst (hlldCons gamma bx wr)
    (bx = 0 → fl = fr) ∧
    (bx ≠ 0 → fl.plus (hlldSa bx 0 (-1) ulst) (hlldDst2 bx 0 (-1) ulst urst ulst) ulst
      = fr.plus (hlldSa bx 0 1 urst) (hlldDst2 bx 0 1 ulst urst urst) urst) := by
  have jl := star_jump gamma bx sl 0 P wl hl hsl hl0 hPl dl nl
  have jr := star_jump gamma bx sr 0 P wr hr hsr hr0 hPr dr nr
  have d1 := hlldStar_d gamma bx sl 0 P wl
  have d2 := hlldStar_d gamma bx sr 0 P wr
  have m1 := hlldStar_mx gamma bx sl 0 P wl
  have m2 := hlldStar_mx gamma bx sr 0 P wr
  rw [← d1] at h1 m1
  rw [← d2] at h2 m2
  simp only [plus_eq, hlldFlux_eq, hlldCons_eq]
  generalize hlldStar gamma bx sl 0 P wl = ul at *
  generalize hlldStar gamma bx sr 0 P wr = ur at *
  have el : flux (.adiabatic gamma) bx wl + sl • (ul - cons (.adiabatic gamma) bx wl) = fluxOf bx 0 P ul :=
    add_of_jump jl
  have er : flux (.adiabatic gamma) bx wr + sr • (ur - cons (.adiabatic gamma) bx wr) = fluxOf bx 0 P ur :=
    add_of_jump jr
  rw [el, er]
  refine ⟨fun hb => ?_, fun hb => ?_⟩
  · subst hb
    ext <;> simp [fluxOf]
  · have al := alfven_jump_left bx 0 P ul ur h1 h2 m1
    have ar := alfven_jump_right bx 0 P ul ur h1 h2 m2
    have cj := contact_jump bx 0 P ul ur h1 h2 m1 m2
    rw [add_of_jump al, add_of_jump ar]
    exact eq_of_still cj

/-- HLLD commutes with reflection, unless the middle wave stands still and one of the sides is degenerate. -/
theorem hlld_mirror (gamma bx : ℝ) (wl wr : W) (hl : Ok (.adiabatic gamma) wl) (hr : Ok (.adiabatic gamma) wr)
    (h : hlldSm gamma bx wl wr = 0 →
      (¬ hlldDeg bx (hlldSl gamma bx wl wr) 0 (hlldPst gamma bx wl wr) wl ∧
        wl.d * (hlldSl gamma bx wl wr - wl.vx) * hlldSl gamma bx wl wr ≠ bx * bx) ∧
      ¬ hlldDeg bx (hlldSr gamma bx wl wr) 0 (hlldPst gamma bx wl wr) wr ∧
        wr.d * (hlldSr gamma bx wl wr - wr.vx) * hlldSr gamma bx wl wr ≠ bx * bx) :
    MirrorAt (hlld gamma) bx wl wr := by
  obtain ⟨o1, o2, o3, o4⟩ := hlld_order gamma bx wl wr hl hr
  obtain ⟨p1, p2⟩ := hlld_pressure gamma bx wl wr hl hr
  obtain ⟨q1, -, -, q4⟩ := hlld_outer gamma bx wl wr
  have fl := (fast_bounds bx hl).1
  have fr := (fast_bounds bx hr).1
  unfold MirrorAt hlld
  rw [hlldSm_mirror, hlldPst_mirror]
  refine hlldFrom_mirror gamma bx _ _ wl wr (by linarith) o3 o4 ?_
  intro hs
  obtain ⟨⟨a1, a2⟩, a3, a4⟩ := h hs
  rw [hs] at o1 o2 o3 o4 p1 p2
  refine tie_regular gamma bx _ wl wr _ _ hl.1 hr.1 (by linarith) (by linarith) (by linarith) (by linarith) o3 o4 p1 p2
    a1 a3 (by rw [sub_zero]; exact sub_ne_zero.2 a2) (by rw [sub_zero]; exact sub_ne_zero.2 a4)

/-- LHLLD commutes with reflection, unless the middle wave stands still. -/
theorem lhlld_mirror (gamma bx dvn dvt : ℝ) (wl wr : W) (hl : Ok (.adiabatic gamma) wl) (hr : Ok (.adiabatic gamma) wr)
    (h : lhlldSm gamma bx dvn dvt wl wr ≠ 0) :
    MirrorAt (fun bx => lhlld gamma bx dvn dvt) bx wl wr := by
  obtain ⟨o1, o2, o3, o4⟩ := lhlld_order gamma bx dvn dvt wl wr hl hr
  unfold MirrorAt lhlld
  simp only []
  rw [lhlldSm_mirror, lhlldPst_mirror]
  exact hlldFrom_mirror gamma bx _ _ wl wr (by linarith) o3 o4 (fun k => absurd k h)

/-! ## HLLD for an isothermal gas -/

theorem isoSl_mirror (cs bx : ℝ) (wl wr : W) : isoSl cs (-bx) wr.mirror wl.mirror = -isoSr cs bx wl wr := by
  simp only [isoSl, isoSr, fast_mirror]
  rw [← min_neg_neg, min_comm]
  congr 1 <;> (simp only [W.mirror]; ring)

theorem isoSr_mirror (cs bx : ℝ) (wl wr : W) : isoSr cs (-bx) wr.mirror wl.mirror = -isoSl cs bx wl wr := by
  simp only [isoSl, isoSr, fast_mirror]
  rw [← max_neg_neg, max_comm]
  congr 1 <;> (simp only [W.mirror]; ring)

theorem isoCons_mirror (w : W) : isoCons w.mirror = (isoCons w).mirrorU := by
  ext <;> simp [isoCons, F.mirrorU, W.mirror]

theorem isoFlux_mirror (cs bx : ℝ) (w : W) : isoFlux cs (-bx) w.mirror = (isoFlux cs bx w).mirror := by
  ext <;> simp only [isoFlux, isoCons_mirror] <;> simp only [F.mirrorU, F.mirror, W.mirror] <;> ring

theorem isoDraw_mirror (cs bx : ℝ) (wl wr : W) : isoDraw cs (-bx) wr.mirror wl.mirror = isoDraw cs bx wl wr := by
  simp only [isoDraw, isoSl_mirror, isoSr_mirror, isoCons_mirror, isoFlux_mirror]
  simp only [F.mirrorU, F.mirror]
  rw [show -isoSl cs bx wl wr - -isoSr cs bx wl wr = isoSr cs bx wl wr - isoSl cs bx wl wr by ring]
  ring

theorem isoFhll_mirror (cs bx : ℝ) (wl wr : W) : isoFhll cs (-bx) wr.mirror wl.mirror
    = (-(isoFhll cs bx wl wr).1, (isoFhll cs bx wl wr).2) := by
  simp only [isoFhll, isoSl_mirror, isoSr_mirror, isoCons_mirror, isoFlux_mirror]
  simp only [F.mirrorU, F.mirror]
  rw [show -isoSl cs bx wl wr - -isoSr cs bx wl wr = isoSr cs bx wl wr - isoSl cs bx wl wr by ring]
  ext <;> simp only [] <;> ring

theorem isoMx_mirror (cs bx : ℝ) (wl wr : W) : isoMx cs (-bx) wr.mirror wl.mirror = -isoMx cs bx wl wr := by
  simp only [isoMx, isoSl_mirror, isoSr_mirror, isoCons_mirror, isoFlux_mirror]
  simp only [F.mirrorU, F.mirror]
  rw [show -isoSl cs bx wl wr - -isoSr cs bx wl wr = isoSr cs bx wl wr - isoSl cs bx wl wr by ring]
  ring

theorem isoStar_mirror (cs bx D m u s sa s1 s3 : ℝ) (w : W) :
    isoStar cs (-bx) D (-m) (-u) (-s) (-sa) (-s3) (-s1) w.mirror = (isoStar cs bx D m u s sa s1 s3 w).mirrorU := by
  unfold isoStar
  simp only [isoCons_mirror]
  have e : |-s - -sa| = |s - sa| := by rw [show -s - -sa = -(s - sa) by ring, abs_neg]
  rw [e]
  by_cases h : |s - sa| < 1/10000 * cs
  · simp only [if_pos h]; rfl
  · simp only [if_neg h]
    have e1 : (-s - -s3) * (-s - -s1) = (s - s1) * (s - s3) := by ring
    simp only [F.mirrorU, W.mirror, e1]
    ext <;> simp only [] <;> ring

theorem iso_tie (cs D m M s : ℝ) (w : W) (hcs : 0 < cs) (hd : 0 < w.d) (hD : 0 < D)
    (hu : 0 - w.d * w.vx = s * (D - w.d)) (hM : M - (flux (.isothermal cs) 0 w).mx = s * (m - w.d * w.vx))
    (hn : 1/10000 * cs ≤ |s|) :
    (isoFlux cs 0 w).plus s (isoStar cs 0 D m 0 s 0 0 0 w) (isoCons w) = ⟨0, M, 0, 0, 0, 0, 0⟩ := by
  have hs : s ≠ 0 := by
    rintro rfl
    rw [abs_zero] at hn
    linarith
  have := isoStar_jump cs 0 D m 0 M s 0 0 w hd hcs hD (by linarith) (by ring) hM (by rw [sub_zero]; exact hn)
    (by rw [sub_zero]; exact hs) (by rw [add_zero]; exact hs)
  rw [sub_zero, add_zero] at this
  rw [plus_eq, isoFlux_eq, isoCons_eq cs 0, add_of_jump this]
  ext <;> simp [fluxIso]

/-- The isothermal HLLD solver commutes with reflection; without a normal field and with a fan centred on the face the
degenerate sides are excluded. -/
theorem hlldIso_mirror (cs dfloor bx : ℝ) (wl wr : W) (hl : Ok (.isothermal cs) wl) (hr : Ok (.isothermal cs) wr)
    (h : bx = 0 → (isoFhll cs bx wl wr).1 = 0 →
      dfloor ≤ isoDraw cs bx wl wr ∧ 1/10000 * cs ≤ |isoSl cs bx wl wr| ∧ 1/10000 * cs ≤ |isoSr cs bx wl wr|) :
    MirrorAt (hlldIso cs dfloor) bx wl wr := by
  obtain ⟨a1, a2, a3, a4⟩ := iso_strict cs bx wl wr hl hr
  have hD := isoDraw_pos cs bx wl wr hl hr
  obtain ⟨⟨v1, v2⟩, v3, v4⟩ := iso_averages cs bx wl wr hl hr
  unfold MirrorAt hlldIso
  simp only [isoSl_mirror, isoSr_mirror, isoDraw_mirror, isoFhll_mirror, isoMx_mirror, isoCons_mirror, isoFlux_mirror,
    abs_neg, neg_div]
  have hD' : 0 < max (isoDraw cs bx wl wr) dfloor := lt_of_lt_of_le hD (le_max_left _ _)
  have tie : bx = 0 → (isoFhll cs bx wl wr).1 / max (isoDraw cs bx wl wr) dfloor = 0 →
      (isoFlux cs bx wl).plus (isoSl cs bx wl wr) (isoStar cs bx (max (isoDraw cs bx wl wr) dfloor) (isoMx cs bx wl wr)
        0 (isoSl cs bx wl wr) 0 0 0 wl) (isoCons wl)
      = (isoFlux cs bx wr).plus (isoSr cs bx wl wr) (isoStar cs bx (max (isoDraw cs bx wl wr) dfloor) (isoMx cs bx wl wr)
        0 (isoSr cs bx wl wr) 0 0 0 wr) (isoCons wr) := by
    intro hb hf
    have hf0 : (isoFhll cs bx wl wr).1 = 0 := by
      rcases div_eq_zero_iff.1 hf with h | h
      · exact h
      · exact absurd h hD'.ne'
    obtain ⟨h1, h2, h3⟩ := h hb hf0
    rw [max_eq_left h1]
    rw [hf0] at v1 v2
    subst hb
    rw [iso_tie cs _ _ _ _ wl hl.2 hl.1 hD v1 v3 h2, iso_tie cs _ _ _ _ wr hr.2 hr.1 hD v2 v4 h3]
  clear h v1 v2 v3 v4
  generalize hDD : max (isoDraw cs bx wl wr) dfloor = D at *
  generalize (isoFhll cs bx wl wr).1 / D = u at *
  have hq : 0 ≤ |bx| / Real.sqrt D := by positivity
  have hq1 : bx = 0 → |bx| / Real.sqrt D = 0 := by
    rintro rfl
    simp
  have hq0 : |bx| / Real.sqrt D ≤ 0 → bx = 0 := by
    intro h
    have : 0 < Real.sqrt D := Real.sqrt_pos.2 hD'
    by_contra hc
    have : 0 < |bx| / Real.sqrt D := by positivity
    linarith
  generalize |bx| / Real.sqrt D = q at *
  rw [show -u - q = -(u + q) by ring, show -u + q = -(u - q) by ring]
  simp only [isoStar_mirror, neg_nonneg, neg_nonpos]
  generalize isoMx cs bx wl wr = m at *
  generalize isoSl cs bx wl wr = sl at *
  generalize isoSr cs bx wl wr = sr at *
  by_cases k1 : 0 ≤ sl
  · rw [if_neg (by linarith), if_pos k1, if_pos k1]
  rw [if_neg k1, if_neg k1]
  by_cases k2 : sr ≤ 0
  · rw [if_pos k2, if_pos k2]
  rw [if_neg k2, if_neg k2]
  by_cases k3 : 0 ≤ u - q
  · by_cases k4 : u + q ≤ 0
    · have hb : q = 0 := by linarith
      have hu : u = 0 := by linarith
      rw [if_pos k4, if_pos k3, plus_mirror]
      subst hb hu
      rw [sub_zero, add_zero, tie (hq0 le_rfl) rfl]
    · rw [if_neg k4, if_pos k3, if_pos k3, plus_mirror]
  rw [if_neg k3, if_neg k3]
  by_cases k4 : u + q ≤ 0
  · rw [if_pos k4, if_pos k4, plus_mirror]
  rw [if_neg k4, if_neg k4]
  have hb : bx ≠ 0 := by
    intro hb
    rw [hq1 hb, sub_zero] at k3
    rw [hq1 hb, add_zero] at k4
    exact k4 (le_of_not_ge k3)
  rw [bxsig_neg hb]
  have hx : Real.sqrt D * -bxsig bx = -(Real.sqrt D * bxsig bx) := by ring
  rw [hx]
  generalize Real.sqrt D * bxsig bx = x
  ext <;> simp only [F.mirror, F.mirrorU, div_neg] <;> ring

/-! ## A reflecting wall -/

theorem wall_of_mirror {solver : ℝ → W → W → F} {w : W} (h : MirrorAt solver 0 w.mirror w) : WallAt solver w := by
  have hm : w.mirror.mirror = w := by simp [W.mirror]
  unfold MirrorAt at h
  rw [neg_zero, hm] at h
  refine ⟨(solver 0 w.mirror w).mx, ?_⟩
  have : ∀ x : ℝ, x = -x → x = 0 := fun x hx => by linarith
  ext
  · exact this _ (congrArg F.d h)
  · rfl
  · exact this _ (congrArg F.my h)
  · exact this _ (congrArg F.mz h)
  · exact this _ (congrArg F.e h)
  · exact this _ (congrArg F.bY h)
  · exact this _ (congrArg F.bZ h)

theorem llf_wall (g : Gas) (w : W) : WallAt (llf g) w := wall_of_mirror (llf_mirror g 0 _ _)

theorem roeY_wall (w : W) (hd : 0 < w.d) : roeY w.mirror w = 1 := by
  have := hd.ne'
  simp only [roeY, roeD, W.mirror]
  rw [Real.mul_self_sqrt hd.le]
  field_simp
  norm_num

theorem hlle_wall (g : Gas) (w : W) (h : Ok g w) : WallAt (hlle g) w := by
  have hd : 0 < w.d := by cases g <;> exact h.1
  exact wall_of_mirror (hlle_mirror g 0 _ _ h.mirror h (Or.inr (roeY_wall w hd)))

theorem wall_speeds (gamma : ℝ) (w : W) (h : Ok (.adiabatic gamma) w) :
    let c := fast (.adiabatic gamma) 0 w
    hlldSl gamma 0 w.mirror w = -(|w.vx| + c) ∧ hlldSr gamma 0 w.mirror w = |w.vx| + c ∧ 0 < c ∧
      hlldPt 0 w < w.d * c ^ 2 := by
  intro c
  have hc : fast (.adiabatic gamma) 0 w.mirror = c := by rw [← fast_mirror, neg_zero]; simp [W.mirror, c]
  obtain ⟨b1, b2, -⟩ := fast_bounds 0 h
  refine ⟨?_, ?_, b1, ?_⟩
  · simp only [hlldSl, hc]
    simp only [W.mirror]
    rcases abs_cases w.vx with ⟨e, h0⟩ | ⟨e, h0⟩ <;> rw [e]
    · rw [min_eq_left (by linarith)]; ring
    · rw [min_eq_right (by linarith)]; ring
  · simp only [hlldSr, hc]
    simp only [W.mirror]
    rcases abs_cases w.vx with ⟨e, h0⟩ | ⟨e, h0⟩ <;> rw [e]
    · rw [max_eq_right (by linarith)]
    · rw [max_eq_left (by linarith)]
  · refine lt_of_lt_of_le ?_ b2
    obtain ⟨h1, h2, h3⟩ := h
    simp only [hlldPt, asq]
    nlinarith [sq_nonneg w.bY, sq_nonneg w.bZ]

/-- The common part of HLLD and LHLLD between a cell and its reflection. -/
theorem hlldFrom_wall (gamma P : ℝ) (w : W) (h : Ok (.adiabatic gamma) w)
    (hP : 1/10000 * P ≤ w.d * (|w.vx| + fast (.adiabatic gamma) 0 w - w.vx) * (|w.vx| + fast (.adiabatic gamma) 0 w)) :
    ∃ M, hlldFrom gamma 0 0 P w.mirror w = ⟨0, M, 0, 0, 0, 0, 0⟩ := by
  obtain ⟨e1, e2, hc, -⟩ := wall_speeds gamma w h
  generalize fast (.adiabatic gamma) 0 w = c at *
  have ha := le_abs_self w.vx
  have ha0 := abs_nonneg w.vx
  have hd : 0 < w.d := h.1
  unfold hlldFrom
  simp only [e1, e2]
  generalize |w.vx| = a at *
  have hs : ∀ u : F, hlldSa 0 0 (-1) u = 0 := fun u => by simp [hlldSa]
  rw [if_neg (by linarith), if_neg (by linarith), if_pos (by rw [hs])]
  have key : 0 < w.d * (a + c - w.vx) * (a + c) := by
    have : 0 < a + c - w.vx := by linarith
    have : 0 < a + c := by linarith
    positivity
  have hm : w.mirror.vx = -w.vx := rfl
  have hmd : w.mirror.d = w.d := rfl
  have e : w.d * (-(a + c) - -w.vx) * (-(a + c) - 0) - 0 * 0 = w.d * (a + c - w.vx) * (a + c) := by ring
  have hdeg : ¬ hlldDeg 0 (-(a + c)) 0 P w.mirror := by
    unfold hlldDeg
    rw [hm, hmd, e, abs_of_pos key, not_lt]
    exact hP
  have k1 : a + c ≠ 0 := by linarith
  have k2 : a + c - w.vx ≠ 0 := by linarith
  have e' : w.d * (-(a + c) - -w.vx) * (-(a + c) - 0) - 0 * 0 ≠ 0 := by rw [e]; exact key.ne'
  refine ⟨_, F.ext ?_ rfl ?_ ?_ ?_ ?_ ?_⟩ <;>
    simp only [F.plus, hlldStar, if_neg hdeg, hlldFlux, hlldCons, hlldDst, hlldVb] <;>
    simp only [W.mirror] <;> simp only [mul_zero, zero_mul, sub_zero, add_zero, zero_div, zero_add]
  · field_simp; ring
  · field_simp; ring
  · field_simp; ring
  · field_simp; ring
  · field_simp; ring
  · field_simp; ring

theorem hlldSm_wall (gamma dvn dvt : ℝ) (w : W) (h : Ok (.adiabatic gamma) w) :
    hlldSm gamma 0 w.mirror w = 0 ∧ lhlldSm gamma 0 dvn dvt w.mirror w = 0 := by
  obtain ⟨e1, e2, hc, -⟩ := wall_speeds gamma w h
  have hp : hlldPt 0 w.mirror = hlldPt 0 w := by simp [hlldPt, W.mirror]
  simp only [hlldSm, lhlldSm, e1, e2, hp, sub_self, mul_zero]
  simp only [hlldCons, W.mirror]
  constructor <;> rw [div_eq_zero_iff] <;> left <;> ring

/-- HLLD: nothing but pressure acts at a reflecting wall. -/
theorem hlld_wall (gamma : ℝ) (w : W) (h : Ok (.adiabatic gamma) w) : WallAt (hlld gamma) w := by
  obtain ⟨e1, e2, hc, hpt⟩ := wall_speeds gamma w h
  have hd : 0 < w.d := h.1
  unfold WallAt hlld
  have hm := (hlldSm_wall gamma 0 0 w h).1
  rw [hm]
  refine hlldFrom_wall gamma _ w h ?_
  have hp : hlldPt 0 w.mirror = hlldPt 0 w := by simp [hlldPt, W.mirror]
  simp only [hlldPst, hm, e1, e2, hp]
  simp only [W.mirror]
  have hpt0 : 0 < hlldPt 0 w := by
    obtain ⟨h1, h2, h3⟩ := h
    simp only [hlldPt]
    positivity
  generalize hlldPt 0 w = pt at *
  generalize fast (.adiabatic gamma) 0 w = c at *
  generalize w.d = d at *
  rcases abs_cases w.vx with ⟨e, h0⟩ | ⟨e, h0⟩ <;> rw [e] <;> generalize w.vx = v at *
  · nlinarith [mul_nonneg hd.le (mul_nonneg h0 hc.le), mul_pos hd (mul_pos hc hc)]
  · nlinarith [mul_pos hd (mul_pos (neg_pos.2 h0) hc), mul_pos hd (mul_pos hc hc), mul_pos hd (mul_pos (neg_pos.2 h0) (neg_pos.2 h0))]

/-- LHLLD: nothing but pressure acts at a reflecting wall. -/
theorem lhlld_wall (gamma dvn dvt : ℝ) (w : W) (h : Ok (.adiabatic gamma) w) :
    WallAt (fun bx => lhlld gamma bx dvn dvt) w := by
  obtain ⟨e1, e2, hc, hpt⟩ := wall_speeds gamma w h
  have hd : 0 < w.d := h.1
  unfold WallAt lhlld
  simp only []
  rw [(hlldSm_wall gamma dvn dvt w h).2]
  refine hlldFrom_wall gamma _ w h ?_
  have hp : hlldPt 0 w.mirror = hlldPt 0 w := by simp [hlldPt, W.mirror]
  have hcm : fast (.adiabatic gamma) 0 w.mirror = fast (.adiabatic gamma) 0 w := by
    have := fast_mirror (.adiabatic gamma) 0 w
    rwa [neg_zero] at this
  have hpt0 : 0 < hlldPt 0 w := by
    obtain ⟨h1, h2, h3⟩ := h
    simp only [hlldPt]
    positivity
  simp only [lhlldPst, e1, e2, hp, hcm, max_self]
  have hchi : 0 ≤ min 1 (Real.sqrt (max (lhlldCsq 0 w.mirror) (lhlldCsq 0 w)) / fast (.adiabatic gamma) 0 w) :=
    le_min zero_le_one (div_nonneg (Real.sqrt_nonneg _) hc.le)
  have hchi1 := min_le_left 1 (Real.sqrt (max (lhlldCsq 0 w.mirror) (lhlldCsq 0 w)) / fast (.adiabatic gamma) 0 w)
  generalize min 1 (Real.sqrt (max (lhlldCsq 0 w.mirror) (lhlldCsq 0 w)) / fast (.adiabatic gamma) 0 w) = chi at *
  simp only [W.mirror]
  have hphi0 : 0 ≤ chi * (2 - chi) := mul_nonneg hchi (by linarith)
  have hphi1 : chi * (2 - chi) ≤ 1 := by nlinarith [sq_nonneg (chi - 1)]
  generalize chi * (2 - chi) = phi at *
  have ha := le_abs_self w.vx
  have ha0 := abs_nonneg w.vx
  have hs : 0 < |w.vx| + fast (.adiabatic gamma) 0 w - w.vx := by linarith
  have e : ((|w.vx| + fast (.adiabatic gamma) 0 w - w.vx) * w.d * hlldPt 0 w
      - (-(|w.vx| + fast (.adiabatic gamma) 0 w) - -w.vx) * w.d * hlldPt 0 w
      + phi * ((|w.vx| + fast (.adiabatic gamma) 0 w - w.vx) * w.d)
        * ((-(|w.vx| + fast (.adiabatic gamma) 0 w) - -w.vx) * w.d) * (w.vx - -w.vx))
      / ((|w.vx| + fast (.adiabatic gamma) 0 w - w.vx) * w.d - (-(|w.vx| + fast (.adiabatic gamma) 0 w) - -w.vx) * w.d)
      = hlldPt 0 w - phi * (|w.vx| + fast (.adiabatic gamma) 0 w - w.vx) * w.d * w.vx := by
    have h1 : (|w.vx| + fast (.adiabatic gamma) 0 w - w.vx) * w.d - (-(|w.vx| + fast (.adiabatic gamma) 0 w) - -w.vx) * w.d
        = 2 * ((|w.vx| + fast (.adiabatic gamma) 0 w - w.vx) * w.d) := by ring
    rw [h1, div_eq_iff (by positivity)]
    ring
  rw [e]
  generalize hlldPt 0 w = pt at *
  generalize fast (.adiabatic gamma) 0 w = c at *
  generalize w.d = d at *
  have h5 : -(phi * (|w.vx| + c - w.vx) * d * w.vx) ≤ (|w.vx| + c - w.vx) * d * |w.vx| := by
    have : -w.vx ≤ |w.vx| := neg_le_abs _
    have h6 : 0 ≤ (|w.vx| + c - w.vx) * d := by positivity
    have h7 : phi * -w.vx ≤ |w.vx| := by
      rcases le_total 0 w.vx with k | k
      · nlinarith [mul_nonneg hphi0 k]
      · nlinarith
    nlinarith [mul_le_mul_of_nonneg_left h7 h6]
  have h6 : d * c ^ 2 ≤ (|w.vx| + c - w.vx) * d * c := by
    have : 0 ≤ d * c * (|w.vx| - w.vx) := mul_nonneg (by positivity) (by linarith)
    nlinarith
  have h7 : 0 ≤ (|w.vx| + c - w.vx) * d * |w.vx| := by positivity
  nlinarith [mul_pos hd (mul_pos hc hc)]

/-- The isothermal HLLD solver: nothing but pressure acts at a reflecting wall, if the density floor is not above the
density at the wall. -/
theorem hlldIso_wall (cs dfloor : ℝ) (w : W) (h : Ok (.isothermal cs) w) (hf : dfloor ≤ isoDraw cs 0 w.mirror w) :
    WallAt (hlldIso cs dfloor) w := by
  refine wall_of_mirror (hlldIso_mirror cs dfloor 0 _ _ h.mirror h (fun _ _ => ⟨hf, ?_, ?_⟩))
  all_goals
    obtain ⟨b1, b2, -⟩ := fast_bounds 0 h
    have hcm : fast (.isothermal cs) 0 w.mirror = fast (.isothermal cs) 0 w := by
      have := fast_mirror (.isothermal cs) 0 w
      rwa [neg_zero] at this
    have hcs : cs ≤ fast (.isothermal cs) 0 w := by
      have hd : 0 < w.d := h.1
      have h2 : 0 < cs := h.2
      have : w.d * cs ^ 2 ≤ w.d * fast (.isothermal cs) 0 w ^ 2 := by
        simp only [asq] at b2
        nlinarith [sq_nonneg w.bY, sq_nonneg w.bZ]
      have := le_of_mul_le_mul_left this hd
      exact (pow_le_pow_iff_left₀ h2.le b1.le two_ne_zero).1 this
    have h2 : 0 < cs := h.2
    simp only [isoSl, isoSr, hcm]
    simp only [W.mirror]
    generalize fast (.isothermal cs) 0 w = c at *
  · have : min (-w.vx - c) (w.vx - c) ≤ -c := by
      rcases le_total 0 w.vx with k | k
      · exact (min_le_left _ _).trans (by linarith)
      · exact (min_le_right _ _).trans (by linarith)
    rw [abs_of_neg (by linarith)]
    linarith
  · have : c ≤ max (-w.vx + c) (w.vx + c) := by
      rcases le_total 0 w.vx with k | k
      · exact le_trans (by linarith) (le_max_right _ _)
      · exact le_trans (by linarith) (le_max_left _ _)
    rw [abs_of_pos (by linarith)]
    linarith

/-- Where the floor does act at the wall, mass flows through it: a gas with the density of the floor leaves the wall with
the speed of sound. -/
theorem hlldIso_wall_floor : let w : W := ⟨1, 1, 0, 0, 0, 0, 0⟩
    (hlldIso 1 1 0 w.mirror w).d = -1 := by
  have f : fast (.isothermal 1) 0 ⟨1, 1, 0, 0, 0, 0, 0⟩ = 1 := by
    simp only [fast, fastSpeed, asq]; norm_num
  have f' : fast (.isothermal 1) 0 ⟨1, -1, 0, 0, 0, 0, 0⟩ = 1 := by
    simp only [fast, fastSpeed, asq]; norm_num
  unfold hlldIso
  simp only [W.mirror, isoSl, isoSr, f, f', isoDraw, isoFhll, isoCons, isoFlux, isoStar, F.plus]
  norm_num

/-- A contact that moves through the face, with field across it. -/
example : MirrorAt (hlld (5/3)) 1 ⟨1, 1, 0, 2, 1, 3, 0⟩ ⟨2, 1, 0, -1, 1, 3, 0⟩ ∧
    MirrorAt (fun bx => lhlld (5/3) bx (-1) 0) 1 ⟨1, 1, 0, 2, 1, 3, 0⟩ ⟨2, 1, 0, -1, 1, 3, 0⟩ := by
  have hl : Ok (.adiabatic (5/3)) ⟨1, 1, 0, 2, 1, 3, 0⟩ := ⟨by norm_num, by norm_num, by norm_num⟩
  have hr : Ok (.adiabatic (5/3)) ⟨2, 1, 0, -1, 1, 3, 0⟩ := ⟨by norm_num, by norm_num, by norm_num⟩
  have h1 := (hlldSm_still (5/3) 1 _ _ hl hr rfl (by simp only [hlldPt])).1
  have h2 := (lhlldSm_still (5/3) 1 (-1) 0 _ _ hl hr rfl (by simp only [hlldPt])).1
  exact ⟨hlld_mirror _ _ _ _ hl hr (fun h => by rw [h1] at h; norm_num at h),
    lhlld_mirror _ _ _ _ _ _ hl hr (by rw [h2]; norm_num)⟩

/-- A magnetised gas that meets a wall, and one that leaves it. -/
example : WallAt (hlld (5/3)) ⟨1, -3, 2, 0, 1, 3, 4⟩ ∧ WallAt (hlld (5/3)) ⟨1, 3, 2, 0, 1, 3, 4⟩ :=
  ⟨hlld_wall _ _ ⟨by norm_num, by norm_num, by norm_num⟩, hlld_wall _ _ ⟨by norm_num, by norm_num, by norm_num⟩⟩

end Verif.Mhd
