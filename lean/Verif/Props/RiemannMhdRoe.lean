import Verif.Model.RiemannMhdRoe
import Verif.Props.RiemannMhd
import Verif.Props.RiemannHlld

/-!
# C46: Roe's solver with a magnetic field
-/
namespace Verif.Mhd
open Verif.TimeStep
open Verif.Riemann (Gas Gas.ifEnergy)

/-- What is stored when no intermediate density is negative and the flow is not supersonic. -/
theorem roe_regular (g : Gas) (bx : ℝ) (wl wr : W) (hn : ¬ roeFlag g bx wl wr)
    (h0 : (eig g bx wl wr).ev.f0 < 0) (h6 : 0 < (eig g bx wl wr).ev.f6) :
    roe g bx wl wr = (1/2 : ℝ) • (flux g bx wl + flux g bx wr) + (eig g bx wl wr).sum g (roeCoeff g bx wl wr) := by
  unfold roe
  simp only [if_neg hn, if_neg (not_le.2 h0), if_neg (not_le.2 h6), sideFlux_eq]
  cases g <;> ext <;> simp [F.map2, Gas.ifEnergy, Eig.sum, flux] <;> ring

/-- Without negative intermediate densities the flux of a supersonic flow is that of the side from which it comes. -/
theorem roe_upwind (g : Gas) (bx : ℝ) (wl wr : W) (hn : ¬ roeFlag g bx wl wr) (hc : 0 < (eig g bx wl wr).cf) :
    (0 ≤ (eig g bx wl wr).v1 - (eig g bx wl wr).cf → roe g bx wl wr = flux g bx wl) ∧
    ((eig g bx wl wr).v1 + (eig g bx wl wr).cf ≤ 0 → roe g bx wl wr = flux g bx wr) := by
  unfold roe
  simp only [if_neg hn, sideFlux_eq, Eig.ev]
  constructor
  · intro h
    rw [if_neg (by linarith), if_pos h]
  · intro h
    rw [if_pos h]

/-- Equal states have no waves. -/
theorem roeA_same (g : Gas) (bx : ℝ) (w : W) : roeA g bx w w = ⟨0, 0, 0, 0, 0, 0, 0⟩ := by
  have : jump g bx w w = ⟨0, 0, 0, 0, 0, 0, 0⟩ := by
    cases g <;> simp [jump, Gas.ifEnergy]
  cases g <;> simp [roeA, this, Eig.proj, Eig.projIso]

/-- Roe's solver is consistent. -/
theorem roe_consistent (g : Gas) : Consistent g (roe g) := by
  refine consistent_of fun bx w h => ?_
  have ha := roeA_same g bx w
  have hn : ¬ roeFlag g bx w w := by
    simp [roeFlag, ha, h.d_pos.le]
  have hs : (eig g bx w w).sum g (roeCoeff g bx w w) = ⟨0, 0, 0, 0, 0, 0, 0⟩ := by
    cases g <;> simp [roeCoeff, ha, Eig.sum]
  unfold roe
  simp only [if_neg hn, hs, sideFlux_eq]
  split_ifs
  · rfl
  · rfl
  · cases g <;> ext <;> simp [F.map2, Gas.ifEnergy, flux] <;> ring

/-- The averaged values for equal densities one. -/
theorem roe_mean_one (wl wr : W) (hl : wl.d = 1) (hr : wr.d = 1) (x y : ℝ) :
    roeMean wl wr x y = (x + y) / 2 ∧ roeMeanB wl wr x y = (x + y) / 2 ∧ roeD wl wr = 1 ∧ roeY wl wr = 1 := by
  simp only [roeMean, roeMeanB, roeD, roeY, hl, hr, Real.sqrt_one]
  refine ⟨?_, ?_, ?_, ?_⟩ <;> ring

/-- The fast speed of the Roe average for equal densities one and `gamma = 2`. -/
theorem eig_cf_one (bx : ℝ) (wl wr : W) (hl : wl.d = 1) (hr : wr.d = 1) :
    bx ^ 2 / 2 ≤ (eig (.adiabatic 2) bx wl wr).cf ^ 2 ∧
    (roeStar (.adiabatic 2) bx wl wr).2 / 2 ≤ (eig (.adiabatic 2) bx wl wr).cf ^ 2 ∧
    0 < (eig (.adiabatic 2) bx wl wr).cf := by
  have hD := (roe_mean_one wl wr hl hr 0 0).2.2.1
  have ht : 0 < (roeStar (.adiabatic 2) bx wl wr).2 := by
    simp only [roeStar]
    exact lt_max_of_lt_right (by positivity)
  have hb : 0 ≤ (roeStar (.adiabatic 2) bx wl wr).1 := by
    simp only [roeStar]
    norm_num
    positivity
  have hx : 0 ≤ bx ^ 2 := sq_nonneg bx
  simp only [eig, hD, div_one]
  set t := (roeStar (.adiabatic 2) bx wl wr).2
  set b := (roeStar (.adiabatic 2) bx wl wr).1
  set R := Real.sqrt ((bx * bx + b - t) * (bx * bx + b - t) + 4 * t * b)
  have hR : 0 ≤ R := Real.sqrt_nonneg _
  have hpos : 0 < 1/2 * (bx * bx + b + t + R) := by nlinarith
  rw [Real.sq_sqrt hpos.le]
  exact ⟨by nlinarith, by nlinarith, Real.sqrt_pos.2 hpos⟩

/-- An Alfven wave that moves to the right: the energy flux is wrong. The wave is an exact solution which does not
change the energy, but the solver adds the wave's strength times the normal velocity (roe_mhd.cpp:481 has `v1*bet3` in
place of `v2*bet3`). All other components are right. -/
theorem roe_alfven_energy :
    let wl : W := ⟨1, 1/4, 1, 0, 1, -1, 1⟩
    let wr : W := ⟨1, 1/4, -1, 0, 1, 1, 1⟩
    AlfvenPair 1 1 wl wr ∧ 0 < wl.vx + |1| / Real.sqrt wl.d ∧
    roe (.adiabatic 2) 1 wl wr =
      { flux (.adiabatic 2) 1 wl with e := (flux (.adiabatic 2) 1 wl).e + 5/16 } := by
  intro wl wr
  refine ⟨⟨by norm_num, rfl, rfl, rfl, by norm_num [wl, wr], by norm_num [wl, wr], by norm_num [wl, wr]⟩,
    by norm_num [wl], ?_⟩
  have hm := roe_mean_one wl wr rfl rfl
  have hD := (hm 0 0).2.2.1
  have hY := (hm 0 0).2.2.2
  obtain ⟨c1, _, c3⟩ := eig_cf_one 1 wl wr rfl rfl
  set E := eig (.adiabatic 2) 1 wl wr with hE
  have v1 : E.v1 = 1/4 := by simp only [hE, eig, (hm _ _).1]; norm_num [wl, wr]
  have v2 : E.v2 = 0 := by simp only [hE, eig, (hm _ _).1]; norm_num [wl, wr]
  have v3 : E.v3 = 0 := by simp only [hE, eig, (hm _ _).1]; norm_num [wl, wr]
  have b2 : E.b2 = 0 := by simp only [hE, eig, (hm _ _).2.1]; norm_num [wl, wr]
  have b3 : E.b3 = 1 := by simp only [hE, eig, (hm _ _).2.1]; norm_num [wl, wr]
  have be2 : E.bet2 = 0 := by simp only [hE, eig, (hm _ _).2.1]; norm_num [wl, wr]
  have be3 : E.bet3 = 1 := by simp only [hE, eig, (hm _ _).2.1]; norm_num [wl, wr]
  have bs2 : E.bet2_star = 0 := by simp only [hE, eig, (hm _ _).2.1]; norm_num [wl, wr]
  have q2 : E.q2_star = 0 := by
    simp only [hE, eig, (hm _ _).2.1]; norm_num [wl, wr]
  have sd : E.sqrtd = 1 := by simp only [Eig.sqrtd, hE, eig, hD, Real.sqrt_one]
  have sg : E.s = 1 := by simp only [hE, eig]; norm_num
  have va : E.vax = 1 := by simp only [hE, eig, hD]; norm_num
  have du : jump (.adiabatic 2) 1 wl wr = ⟨0, 0, -2, 0, 0, 2, 0⟩ := by
    ext <;> norm_num [jump, Gas.ifEnergy, energy, pb, wl, wr]
  have ha : roeA (.adiabatic 2) 1 wl wr = ⟨0, 0, 0, 0, 0, -2, 0⟩ := by
    simp only [roeA, du, ← hE, Eig.proj, v2, v3, b2, be2, be3, q2, sd, sg]
    norm_num
  have hn : ¬ roeFlag (.adiabatic 2) 1 wl wr := by
    simp only [roeFlag, ha]; norm_num [wl]
  have cf : 1/4 < E.cf := by nlinarith
  rw [roe_regular _ _ _ _ hn (by rw [← hE]; simp only [Eig.ev, v1]; linarith)
    (by rw [← hE]; simp only [Eig.ev, v1]; linarith)]
  simp only [roeCoeff, ha, ← hE, Eig.sum, Eig.ev, v1, v2, v3, be2, be3, va, sd, sg, Eig.isqrtd]
  have ab : |(1/4 : ℝ) + 1| = 5/4 := by norm_num [abs_of_pos]
  rw [ab]
  ext <;> norm_num [flux, totalE, totalP, gasP, wl, wr]

/-- Hence Roe's solver does not keep rotational discontinuities. -/
theorem roe_alfven_not_kept : ¬ ∀ bx wl wr, Ok (.adiabatic 2) wl → Ok (.adiabatic 2) wr → AlfvenPair 1 bx wl wr →
    roe (.adiabatic 2) bx wl wr = if 0 < wl.vx + |bx| / Real.sqrt wl.d then flux (.adiabatic 2) bx wl
      else flux (.adiabatic 2) bx wr := by
  intro h
  obtain ⟨h1, h2, h3⟩ := roe_alfven_energy
  have := h 1 _ _ ⟨by norm_num, by norm_num, by norm_num⟩ ⟨by norm_num, by norm_num, by norm_num⟩ h1
  rw [if_pos h2, h3] at this
  have := congrArg F.e this
  simp only at this
  linarith

/-- If the averaged transverse field vanishes, the Alfven and slow waves have no transverse components (`bet2 = bet3 = 0`,
roe_mhd.cpp:283-288): a shear layer carried by the flow gets the central flux, without any upwinding. The exact flux
is that of the left state. -/
theorem roe_shear_central (v k : ℝ) (hv0 : 0 < v) (hv1 : v < 1) (hk : k ≠ 0) :
    let wl : W := ⟨1, v, -k, 0, 1, 0, 0⟩
    let wr : W := ⟨1, v, k, 0, 1, 0, 0⟩
    TangentialPair 2 0 wl wr ∧ (roe (.adiabatic 2) 0 wl wr).my = 0 ∧
      (flux (.adiabatic 2) 0 wl).my = -(v * k) ∧ roe (.adiabatic 2) 0 wl wr ≠ flux (.adiabatic 2) 0 wl := by
  intro wl wr
  have hm := roe_mean_one wl wr rfl rfl
  obtain ⟨_, c2, c3⟩ := eig_cf_one 0 wl wr rfl rfl
  have hq : roeQ (.adiabatic 2) 0 wl wr = 2 + k ^ 2 / 2 := by
    rw [roeQ_eq 2 0 wl wr ⟨by norm_num [wl], by norm_num [wl], by norm_num⟩ ⟨by norm_num [wr], by norm_num [wr], by norm_num⟩]
    simp only [wl, wr, Real.sqrt_one, roeX]; ring
  have ht : 2 ≤ (roeStar (.adiabatic 2) 0 wl wr).2 := by
    simp only [roeStar, hq]
    apply le_max_of_le_left
    nlinarith [sq_nonneg k]
  set E := eig (.adiabatic 2) 0 wl wr with hE
  have v1 : E.v1 = v := by simp only [hE, eig, (hm _ _).1, wl, wr]; ring
  have v2 : E.v2 = 0 := by simp only [hE, eig, (hm _ _).1, wl, wr]; ring
  have v3 : E.v3 = 0 := by simp only [hE, eig, (hm _ _).1, wl, wr]; ring
  have be2 : E.bet2 = 0 := by simp only [hE, eig, (hm _ _).2.1]; norm_num [wl, wr]
  have be3 : E.bet3 = 0 := by simp only [hE, eig, (hm _ _).2.1]; norm_num [wl, wr]
  have bs2 : E.bet2_star = 0 := by simp only [hE, eig, (hm _ _).2.1]; norm_num [wl, wr]
  have bs3 : E.bet3_star = 0 := by simp only [hE, eig, (hm _ _).2.1]; norm_num [wl, wr]
  have q2 : E.q2_star = 0 := by simp only [hE, eig, (hm _ _).2.1]; norm_num [wl, wr]
  have q3 : E.q3_star = 0 := by simp only [hE, eig, (hm _ _).2.1]; norm_num [wl, wr]
  have du : jump (.adiabatic 2) 0 wl wr = ⟨0, 0, 2 * k, 0, 0, 0, 0⟩ := by
    ext <;> norm_num [jump, Gas.ifEnergy, energy, pb, wl, wr]
    ring
  have ha : roeA (.adiabatic 2) 0 wl wr = ⟨0, 0, 0, 0, 0, 0, 0⟩ := by
    simp only [roeA, du, ← hE, Eig.proj, v2, v3, be2, be3, q2, q3]
    norm_num
  have hn : ¬ roeFlag (.adiabatic 2) 0 wl wr := by
    simp only [roeFlag, ha]; norm_num [wl]
  have cf : 1 ≤ E.cf := by nlinarith
  have hr := roe_regular _ _ _ _ hn (by rw [← hE]; simp only [Eig.ev, v1]; linarith)
    (by rw [← hE]; simp only [Eig.ev, v1]; linarith)
  have my : (roe (.adiabatic 2) 0 wl wr).my = 0 := by
    rw [hr]
    simp [roeCoeff, ha, Eig.sum, flux, wl, wr]
  have fy : (flux (.adiabatic 2) 0 wl).my = -(v * k) := by simp [flux, wl]
  refine ⟨⟨rfl, rfl, by simp [totalP, gasP, wl, wr]⟩, my, fy, ?_⟩
  intro h
  rw [h, fy] at my
  have : v * k ≠ 0 := mul_ne_zero hv0.ne' hk
  exact this (by linarith)

/-- The fall-back for negative densities leaves the magnetic flux alone: here the gas gets the LLF flux, the field the
central flux without any diffusion. -/
theorem roe_fallback_field :
    let wl : W := ⟨1, -4, 0, 0, 3/8, -1/2, 0⟩
    let wr : W := ⟨1, 4, 0, 0, 3/8, 1/2, 0⟩
    let f := roe (.adiabatic 2) 0 wl wr
    let l := llf (.adiabatic 2) 0 wl wr
    f.d = l.d ∧ f.mx = l.mx ∧ f.my = l.my ∧ f.mz = l.mz ∧ f.e = l.e ∧ f.bY = 2 ∧ l.bY < 0 := by
  intro wl wr f l
  have hm := roe_mean_one wl wr rfl rfl
  have hD := (hm 0 0).2.2.1
  have hY := (hm 0 0).2.2.2
  have hq : roeQ (.adiabatic 2) 0 wl wr = 9 := by
    rw [roeQ_eq 2 0 wl wr ⟨by norm_num [wl], by norm_num [wl], by norm_num⟩ ⟨by norm_num [wr], by norm_num [wr], by norm_num⟩]
    simp only [wl, wr, Real.sqrt_one, roeX]; norm_num
  have ht : roeStar (.adiabatic 2) 0 wl wr = (0, 9) := by
    simp only [roeStar, hq, (hm _ _).2.1]; norm_num [wl, wr]
  set E := eig (.adiabatic 2) 0 wl wr with hE
  have h9 : Real.sqrt 9 = 3 := by
    rw [show (9 : ℝ) = 3 ^ 2 by norm_num]; exact Real.sqrt_sq (by norm_num)
  have h81 : Real.sqrt 81 = 9 := by
    rw [show (81 : ℝ) = 9 ^ 2 by norm_num]; exact Real.sqrt_sq (by norm_num)
  have v1 : E.v1 = 0 := by simp only [hE, eig, (hm _ _).1, wl, wr]; norm_num
  have v2 : E.v2 = 0 := by simp only [hE, eig, (hm _ _).1, wl, wr]; norm_num
  have v3 : E.v3 = 0 := by simp only [hE, eig, (hm _ _).1, wl, wr]; norm_num
  have be2 : E.bet2 = 0 := by simp only [hE, eig, (hm _ _).2.1]; norm_num [wl, wr]
  have be3 : E.bet3 = 0 := by simp only [hE, eig, (hm _ _).2.1]; norm_num [wl, wr]
  have bs2 : E.bet2_star = 0 := by simp only [hE, eig, (hm _ _).2.1]; norm_num [wl, wr]
  have b2 : E.b2 = 0 := by simp only [hE, eig, (hm _ _).2.1]; norm_num [wl, wr]
  have q2 : E.q2_star = 0 := by simp only [hE, eig, (hm _ _).2.1]; norm_num [wl, wr]
  have tw : E.twid_csq = 9 := by simp only [hE, eig, ht]
  have cf : E.cf = 3 := by
    simp only [hE, eig, ht, hD]; norm_num [h9, h81]
  have af : E.alpha_f = 1 := by
    simp only [hE, eig, ht, hD, roeAlpha]; norm_num [h81]
  have du : jump (.adiabatic 2) 0 wl wr = ⟨0, 8, 0, 0, 0, 1, 0⟩ := by
    ext <;> norm_num [jump, Gas.ifEnergy, energy, pb, wl, wr]
  have hfl : roeFlag (.adiabatic 2) 0 wl wr := by
    unfold roeFlag
    left
    simp only [roeA, du, ← hE, Eig.proj, v1, q2, b2, af, Eig.cff, Eig.norm, tw, cf]
    norm_num [wl]
  have hsum : ((eig (.adiabatic 2) 0 wl wr).sum (.adiabatic 2) (roeCoeff (.adiabatic 2) 0 wl wr)).bY = 0 := by
    simp [← hE, Eig.sum, bs2, be3]
  have e0 : ¬ 0 ≤ (eig (.adiabatic 2) 0 wl wr).ev.f0 := by
    rw [← hE]; simp only [Eig.ev, v1, cf]; linarith
  have e6 : ¬ (eig (.adiabatic 2) 0 wl wr).ev.f6 ≤ 0 := by
    rw [← hE]; simp only [Eig.ev, v1, cf]; linarith
  refine ⟨?_, ?_, ?_, ?_, ?_, ?_, ?_⟩
  · simp only [f, l, roe, if_pos hfl, llf, F.map2]
  · simp only [f, l, roe, if_pos hfl, llf, F.map2]
  · simp only [f, l, roe, if_pos hfl, llf, F.map2]
  · simp only [f, l, roe, if_pos hfl, llf, F.map2]
  · simp only [f, l, roe, if_pos hfl, llf, F.map2]
  · simp only [f, roe, if_pos hfl, if_neg e0, if_neg e6, F.map2, hsum]
    norm_num [sideFlux, wl, wr]
  · have h0 : 0 < fast (.adiabatic 2) 0 wl :=
      (fast_bounds 0 (g := .adiabatic 2) ⟨by norm_num [wl], by norm_num [wl], by norm_num⟩).1
    have h1 : |wl.vx| + fast (.adiabatic 2) 0 wl
        ≤ max (|wl.vx| + fast (.adiabatic 2) 0 wl) (|wr.vx| + fast (.adiabatic 2) 0 wr) := le_max_left _ _
    have h3 : |wl.vx| = 4 := by norm_num [wl]
    simp only [l, llf_formula]
    have e1 : (flux (.adiabatic 2) 0 wl).bY = 2 := by norm_num [flux, wl]
    have e2 : (flux (.adiabatic 2) 0 wr).bY = 2 := by norm_num [flux, wr]
    have e3 : (cons (.adiabatic 2) 0 wr).bY - (cons (.adiabatic 2) 0 wl).bY = 1 := by norm_num [cons, wl, wr]
    simp only [sub_bY, add_bY, smul_bY, e1, e2, e3]
    rw [h3] at h1 ⊢
    have key : ∀ M : ℝ, 4 + fast (.adiabatic 2) 0 wl ≤ M → 1 / 2 * (2 + 2) - M / 2 * 1 < 0 := by
      intro M h; linarith
    exact key _ h1

/-- A supersonic flow. -/
example : roe (.adiabatic 2) 0 ⟨1, 5, 0, 0, 2, 0, 0⟩ ⟨1, 5, 0, 0, 2, 0, 0⟩
    = flux (.adiabatic 2) 0 ⟨1, 5, 0, 0, 2, 0, 0⟩ := by
  set w : W := ⟨1, 5, 0, 0, 2, 0, 0⟩ with hw
  have ok : Ok (.adiabatic 2) w := ⟨by norm_num [hw], by norm_num [hw], by norm_num⟩
  have hm := roe_mean_one w w rfl rfl
  have hD := (hm 0 0).2.2.1
  have h4 : Real.sqrt 4 = 2 := by
    rw [show (4 : ℝ) = 2 ^ 2 by norm_num]; exact Real.sqrt_sq (by norm_num)
  have h16 : Real.sqrt 16 = 4 := by
    rw [show (16 : ℝ) = 4 ^ 2 by norm_num]; exact Real.sqrt_sq (by norm_num)
  have hq : roeQ (.adiabatic 2) 0 w w = 4 := by
    rw [roeQ_eq 2 0 w w ok ok]
    simp only [hw, Real.sqrt_one, roeX]; norm_num
  have ht : roeStar (.adiabatic 2) 0 w w = (0, 4) := by
    simp only [roeStar, hq, (hm _ _).2.1]; norm_num [hw]
  have cf : (eig (.adiabatic 2) 0 w w).cf = 2 := by
    simp only [eig, ht, hD]; norm_num [h4, h16]
  have v1 : (eig (.adiabatic 2) 0 w w).v1 = 5 := by simp only [eig, (hm _ _).1]; norm_num [hw]
  refine (roe_upwind (.adiabatic 2) 0 w w ?_ (by rw [cf]; norm_num)).1 (by rw [cf, v1]; norm_num)
  simp only [roeFlag, roeA_same]; norm_num [hw]

end Verif.Mhd
