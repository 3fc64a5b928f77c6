import Verif.Lemmas.Riemann

/-!
# C46: the Roe solver
-/
namespace Verif.Riemann
open Verif.TimeStep

/-! ## Specification: the waves of the linearised equations -/

/-- The right eigenvectors of the adiabatic Euler equations at velocity `v`, enthalpy `h`, sound speed `c`: the two
sound waves, two shear waves, the entropy wave. -/
noncomputable def waveAd (v1 v2 v3 h c : ℝ) : Fin 5 → F
  | 0 => ⟨1, v1 - c, v2, v3, h - v1 * c⟩
  | 1 => ⟨0, 0, 1, 0, v2⟩
  | 2 => ⟨0, 0, 0, 1, v3⟩
  | 3 => ⟨1, v1, v2, v3, (v1 ^ 2 + v2 ^ 2 + v3 ^ 2) / 2⟩
  | 4 => ⟨1, v1 + c, v2, v3, h + v1 * c⟩

/-- Their speeds. -/
noncomputable def speedAd (v1 c : ℝ) : Fin 5 → ℝ
  | 0 => v1 - c
  | 1 => v1
  | 2 => v1
  | 3 => v1
  | 4 => v1 + c

/-- The sum of the five waves with strengths `a`. -/
def sum5 (a : Fin 5 → ℝ) (r : Fin 5 → F) : F := a 0 • r 0 + a 1 • r 1 + a 2 • r 2 + a 3 • r 3 + a 4 • r 4

/-- The eigenvectors of the isothermal equations. -/
noncomputable def waveIso (v1 v2 v3 c : ℝ) : Fin 4 → F
  | 0 => ⟨1, v1 - c, v2, v3, 0⟩
  | 1 => ⟨0, 0, 1, 0, 0⟩
  | 2 => ⟨0, 0, 0, 1, 0⟩
  | 3 => ⟨1, v1 + c, v2, v3, 0⟩

/-- Their speeds. -/
noncomputable def speedIso (v1 c : ℝ) : Fin 4 → ℝ
  | 0 => v1 - c
  | 1 => v1
  | 2 => v1
  | 3 => v1 + c

/-- The sum of the four waves. -/
def sum4 (a : Fin 4 → ℝ) (r : Fin 4 → F) : F := a 0 • r 0 + a 1 • r 1 + a 2 • r 2 + a 3 • r 3

/-! ## The decomposition -/

/-- The projections `a[]` of roe.cpp:229-256 for `cs_sq = c*c`. -/
noncomputable def strengthAd (gamma v1 v2 v3 c : ℝ) (du : F) : Fin 5 → ℝ
  | 0 => (du.d * (1/2 * (gamma - 1) * (v1 * v1 + v2 * v2 + v3 * v3) + v1 * c) - du.mx * ((gamma - 1) * v1 + c)
      - du.my * (gamma - 1) * v2 - du.mz * (gamma - 1) * v3 + du.e * (gamma - 1)) * ((1/2) / (c * c))
  | 1 => du.d * (-v2) + du.my
  | 2 => du.d * (-v3) + du.mz
  | 3 => du.d * (1 - (1/2) / (c * c) * (gamma - 1) * (v1 * v1 + v2 * v2 + v3 * v3))
      + du.mx * ((gamma - 1) / (c * c)) * v1 + du.my * ((gamma - 1) / (c * c)) * v2
      + du.mz * ((gamma - 1) / (c * c)) * v3 - du.e * ((gamma - 1) / (c * c))
  | 4 => (du.d * (1/2 * (gamma - 1) * (v1 * v1 + v2 * v2 + v3 * v3) - v1 * c) - du.mx * ((gamma - 1) * v1 - c)
      - du.my * (gamma - 1) * v2 - du.mz * (gamma - 1) * v3 + du.e * (gamma - 1)) * ((1/2) / (c * c))

/-- `RoeFlux` in terms of the waves. -/
theorem roeFluxAd_eq (gamma tiny v1 v2 v3 h c : ℝ) (du : F) (dl : ℝ) (hc : 0 < c)
    (hq : c * c = (gamma - 1) * (h - 1/2 * (v1 * v1 + v2 * v2 + v3 * v3)))
    (hpos : 0 ≤ h - 1/2 * (v1 * v1 + v2 * v2 + v3 * v3)) :
    let a := strengthAd gamma v1 v2 v3 c du
    let o := roeFluxAd gamma tiny v1 v2 v3 h du dl
    o.evFirst = v1 - c ∧ o.evLast = v1 + c ∧
      o.add = (-(1/2) : ℝ) • sum5 (fun i => |speedAd v1 c i| * a i) (waveAd v1 v2 v3 h c) ∧
      (o.llfFlag = true ↔ dl + a 0 < 0 ∨ dl + a 0 + a 3 < 0) := by
  have hs : Real.sqrt (c * c) = c := Real.sqrt_mul_self hc.le
  unfold roeFluxAd
  simp only [if_neg (not_lt.2 hpos), ← hq, hs]
  refine ⟨trivial, trivial, ?_, ?_⟩
  · ext <;> simp only [sum5, speedAd, strengthAd, waveAd, add_d, add_mx, add_my, add_mz, add_e, smul_d, smul_mx,
      smul_my, smul_mz, smul_e] <;> ring
  · simp only [strengthAd, Bool.or_eq_true, decide_eq_true_eq]

theorem strengthAd_sum (gamma v1 v2 v3 h c : ℝ) (du : F) (hc : 0 < c) (hg : gamma - 1 ≠ 0)
    (hq : c * c = (gamma - 1) * (h - 1/2 * (v1 * v1 + v2 * v2 + v3 * v3))) :
    sum5 (strengthAd gamma v1 v2 v3 c du) (waveAd v1 v2 v3 h c) = du := by
  have hc' : c ≠ 0 := hc.ne'
  have hh : h = c * c / (gamma - 1) + 1/2 * (v1 * v1 + v2 * v2 + v3 * v3) := by
    rw [hq]; field_simp; ring
  subst hh
  ext <;> simp only [sum5, strengthAd, waveAd, add_d, add_mx, add_my, add_mz, add_e, smul_d, smul_mx,
      smul_my, smul_mz, smul_e] <;> field_simp <;> ring

/-- The product of the Jacobian of the flux at `v`, `h` with a vector. -/
noncomputable def jacAd (gamma v1 v2 v3 h : ℝ) (u : F) : F :=
  ⟨u.mx,
    ((gamma - 1) / 2 * (v1 ^ 2 + v2 ^ 2 + v3 ^ 2) - v1 ^ 2) * u.d + (3 - gamma) * v1 * u.mx - (gamma - 1) * v2 * u.my
      - (gamma - 1) * v3 * u.mz + (gamma - 1) * u.e,
    -v1 * v2 * u.d + v2 * u.mx + v1 * u.my,
    -v1 * v3 * u.d + v3 * u.mx + v1 * u.mz,
    ((gamma - 1) / 2 * (v1 ^ 2 + v2 ^ 2 + v3 ^ 2) - h) * v1 * u.d + (h - (gamma - 1) * v1 ^ 2) * u.mx
      - (gamma - 1) * v1 * v2 * u.my - (gamma - 1) * v1 * v3 * u.mz + gamma * v1 * u.e⟩

theorem strengthAd_jac (gamma v1 v2 v3 h c : ℝ) (du : F) (hc : 0 < c) (hg : gamma - 1 ≠ 0)
    (hq : c * c = (gamma - 1) * (h - 1/2 * (v1 * v1 + v2 * v2 + v3 * v3))) :
    sum5 (fun i => speedAd v1 c i * strengthAd gamma v1 v2 v3 c du i) (waveAd v1 v2 v3 h c)
      = jacAd gamma v1 v2 v3 h du := by
  have hc' : c ≠ 0 := hc.ne'
  have hh : h = c * c / (gamma - 1) + 1/2 * (v1 * v1 + v2 * v2 + v3 * v3) := by
    rw [hq]; field_simp; ring
  subst hh
  ext <;> simp only [sum5, strengthAd, waveAd, speedAd, jacAd, add_d, add_mx, add_my, add_mz, add_e, smul_d, smul_mx,
      smul_my, smul_mz, smul_e] <;> field_simp <;> ring

/-- Roe's condition: with the averages of the code the Jacobian maps the jump of the states to the jump of the
fluxes. -/
theorem jacAd_roe (gamma : ℝ) (wl wr : W) (hl : Ok (.adiabatic gamma) wl) (hr : Ok (.adiabatic gamma) wr) :
    jacAd gamma (roeMean wl wr wl.vx wr.vx) (roeMean wl wr wl.vy wr.vy) (roeMean wl wr wl.vz wr.vz)
        (roeEnthalpy (.adiabatic gamma) wl wr) (cons (.adiabatic gamma) wr - cons (.adiabatic gamma) wl)
      = flux (.adiabatic gamma) wr - flux (.adiabatic gamma) wl := by
  obtain ⟨hdl, hpl, hg⟩ := hl
  obtain ⟨hdr, hpr, _⟩ := hr
  have hg1 : gamma - 1 ≠ 0 := by linarith
  obtain ⟨dl, vxl, vyl, vzl, pl⟩ := wl
  obtain ⟨dr, vxr, vyr, vzr, pr⟩ := wr
  simp only at *
  have hs := Real.sqrt_pos.2 hdl
  have ht := Real.sqrt_pos.2 hdr
  have es : dl = Real.sqrt dl * Real.sqrt dl := (Real.mul_self_sqrt hdl.le).symm
  have et : dr = Real.sqrt dr * Real.sqrt dr := (Real.mul_self_sqrt hdr.le).symm
  simp only [roeEnthalpy, roeMean, Gas.energy, jacAd]
  generalize Real.sqrt dl = s at *
  generalize Real.sqrt dr = t at *
  subst es et
  ext <;> simp only [flux, cons, sub_d, sub_mx, sub_my, sub_mz, sub_e] <;> field_simp <;> ring

theorem roe_c (gamma : ℝ) (wl wr : W) (hl : Ok (.adiabatic gamma) wl) (hr : Ok (.adiabatic gamma) wr) :
    hlleA (.adiabatic gamma) wl wr * hlleA (.adiabatic gamma) wl wr
      = (gamma - 1) * (roeEnthalpy (.adiabatic gamma) wl wr - 1/2 * (roeMean wl wr wl.vx wr.vx *
        roeMean wl wr wl.vx wr.vx + roeMean wl wr wl.vy wr.vy * roeMean wl wr wl.vy wr.vy
        + roeMean wl wr wl.vz wr.vz * roeMean wl wr wl.vz wr.vz)) := by
  have hq := roeQ_pos gamma wl wr hl hr
  have hg1 : 0 < gamma - 1 := by linarith [hl.2.2]
  simp only [hlleA]
  rw [if_neg (not_lt.2 hq.le), Real.mul_self_sqrt (by positivity)]
  unfold roeQ
  ring

/-- The Roe solver, adiabatic. With the averages `v`, `h` and the sound speed `c` of the average, the jump of the
states is a sum of the waves of the linearised equations, the same waves times their speeds make the jump of the
fluxes, and the flux is the central one less half the waves times the moduli of their speeds. Steps 5 of the solver
(overwriting with the upwind flux) never changes this. If a density between the waves is negative, the flux is that of
LLF. -/
theorem roe_waves (gamma tiny : ℝ) (wl wr : W) (hl : Ok (.adiabatic gamma) wl) (hr : Ok (.adiabatic gamma) wr) :
    let g := Gas.adiabatic gamma
    let v := roeMean wl wr wl.vx wr.vx
    let c := hlleA g wl wr
    let r := waveAd v (roeMean wl wr wl.vy wr.vy) (roeMean wl wr wl.vz wr.vz) (roeEnthalpy g wl wr) c
    0 < c ∧ ∃ a : Fin 5 → ℝ,
      sum5 a r = cons g wr - cons g wl ∧
      sum5 (fun i => speedAd v c i * a i) r = flux g wr - flux g wl ∧
      roe g tiny wl wr = if wl.d + a 0 < 0 ∨ wl.d + a 0 + a 3 < 0 then llf g wl wr else
        (1/2 : ℝ) • (flux g wl + flux g wr) - (1/2 : ℝ) • sum5 (fun i => |speedAd v c i| * a i) r := by
  intro g v c r
  have hc : 0 < c := hlleA_pos g wl wr hl hr
  have hg1 : gamma - 1 ≠ 0 := by linarith [hl.2.2]
  have hcc := roe_c gamma wl wr hl hr
  have hqp := roeQ_pos gamma wl wr hl hr
  have hqp' : 0 ≤ roeEnthalpy (.adiabatic gamma) wl wr - 1/2 * (roeMean wl wr wl.vx wr.vx *
        roeMean wl wr wl.vx wr.vx + roeMean wl wr wl.vy wr.vy * roeMean wl wr wl.vy wr.vy
        + roeMean wl wr wl.vz wr.vz * roeMean wl wr wl.vz wr.vz) := by
    unfold roeQ at hqp
    refine hqp.le.trans_eq ?_
    ring
  obtain ⟨h1, h2, h3, h4⟩ := roeFluxAd_eq gamma tiny _ _ _ (roeEnthalpy (.adiabatic gamma) wl wr) c
    (jump (.adiabatic gamma) wl wr) wl.d hc hcc hqp'
  have s1 := strengthAd_sum gamma _ _ _ (roeEnthalpy (.adiabatic gamma) wl wr) c (jump (.adiabatic gamma) wl wr) hc hg1 hcc
  have s2 := strengthAd_jac gamma _ _ _ (roeEnthalpy (.adiabatic gamma) wl wr) c (jump (.adiabatic gamma) wl wr) hc hg1 hcc
  set a := strengthAd gamma (roeMean wl wr wl.vx wr.vx) (roeMean wl wr wl.vy wr.vy) (roeMean wl wr wl.vz wr.vz) c
    (jump (.adiabatic gamma) wl wr) with ha
  rw [jump_eq, jacAd_roe gamma wl wr hl hr] at s2
  refine ⟨hc, a, ?_, s2, ?_⟩
  · rw [s1, jump_eq]
  · unfold roe
    have ho : roeOut (.adiabatic gamma) tiny wl wr = roeFluxAd gamma tiny (roeMean wl wr wl.vx wr.vx)
      (roeMean wl wr wl.vy wr.vy) (roeMean wl wr wl.vz wr.vz) (roeEnthalpy (.adiabatic gamma) wl wr)
      (jump (.adiabatic gamma) wl wr) wl.d := rfl
    simp only [g, ho, h1, h2, h3, sideFlux_eq _ _ hl, sideFlux_eq _ _ hr]
    by_cases hf : wl.d + a 0 < 0 ∨ wl.d + a 0 + a 3 < 0
    · rw [if_pos (h4.2 hf), if_pos hf]
      unfold llf
      simp only [sideFlux_eq _ _ hl, sideFlux_eq _ _ hr]
    · have hff : ¬ (roeFluxAd gamma tiny (roeMean wl wr wl.vx wr.vx)
        (roeMean wl wr wl.vy wr.vy) (roeMean wl wr wl.vz wr.vz) (roeEnthalpy (.adiabatic gamma) wl wr)
        (jump (.adiabatic gamma) wl wr) wl.d).llfFlag = true := fun h => hf (h4.1 h)
      rw [if_neg hff, if_neg hf]
      by_cases hR : v + c ≤ 0
      · rw [if_pos hR]
        have e : (fun i => |speedAd v c i| * a i) = fun i => -(speedAd v c i * a i) := by
          funext i
          have : speedAd v c i ≤ 0 := by fin_cases i <;> simp only [speedAd] <;> linarith
          rw [abs_of_nonpos this]; ring
        rw [e]
        have e2 : sum5 (fun i => -(speedAd v c i * a i)) r = (-1 : ℝ) • (flux g wr - flux g wl) := by
          rw [← s2]
          ext <;> simp only [sum5, add_d, add_mx, add_my, add_mz, add_e, smul_d, smul_mx,
            smul_my, smul_mz, smul_e] <;> ring
        rw [e2]
        ext <;> simp [g] <;> ring
      · rw [if_neg hR]
        by_cases hL : 0 ≤ v - c
        · rw [if_pos hL]
          have e : (fun i => |speedAd v c i| * a i) = fun i => (speedAd v c i * a i) := by
            funext i
            have : 0 ≤ speedAd v c i := by fin_cases i <;> simp only [speedAd] <;> linarith
            rw [abs_of_nonneg this]
          rw [e, s2]
          ext <;> simp [g] <;> ring
        · rw [if_neg hL]
          ext <;> simp [g, Gas.ifEnergy, v, r] <;> ring

/-- The waves are linearly independent. -/
theorem sum5_zero (v1 v2 v3 h c : ℝ) (b : Fin 5 → ℝ) (hc : 0 < c) (hq : 0 < h - (v1 ^ 2 + v2 ^ 2 + v3 ^ 2) / 2)
    (hz : sum5 b (waveAd v1 v2 v3 h c) = ⟨0, 0, 0, 0, 0⟩) : ∀ i, b i = 0 := by
  have hd := congrArg F.d hz
  have hx := congrArg F.mx hz
  have hy := congrArg F.my hz
  have hw := congrArg F.mz hz
  have he := congrArg F.e hz
  simp only [sum5, waveAd, add_d, add_mx, add_my, add_mz, add_e, smul_d, smul_mx, smul_my, smul_mz, smul_e] at *
  have h04 : b 0 = b 4 := by
    have : (b 4 - b 0) * c = 0 := by linear_combination hx - v1 * hd
    rcases mul_eq_zero.1 this with h | h
    · linarith
    · exact absurd h hc.ne'
  have h3 : b 3 = -2 * b 0 := by linarith
  have h1 : b 1 = 0 := by linear_combination hy - v2 * hd
  have h2 : b 2 = 0 := by linear_combination hw - v3 * hd
  have h0 : b 0 = 0 := by
    have : b 0 * (2 * (h - (v1 ^ 2 + v2 ^ 2 + v3 ^ 2) / 2)) = 0 := by
      rw [h3, ← h04, h1, h2] at he
      linear_combination he
    rcases mul_eq_zero.1 this with h | h
    · exact h
    · linarith
  intro i
  fin_cases i <;> simp only [Fin.zero_eta, Fin.mk_one, Fin.reduceFinMk] <;> linarith

/-- The Roe solver is exact for an isolated discontinuity: if the two states satisfy the jump conditions with some
speed `s` (a shock, a contact, a shear layer), the flux is that of the left state for `0 ≤ s` and of the right state
for `s ≤ 0`, and the LLF fall-back is not taken. -/
theorem roe_isolated (gamma tiny s : ℝ) (wl wr : W) (hl : Ok (.adiabatic gamma) wl) (hr : Ok (.adiabatic gamma) wr)
    (hs : JumpOk (.adiabatic gamma) s wl wr) :
    roe (.adiabatic gamma) tiny wl wr = if 0 ≤ s then flux (.adiabatic gamma) wl else flux (.adiabatic gamma) wr := by
  obtain ⟨hc, a, s1, s2, h⟩ := roe_waves gamma tiny wl wr hl hr
  set v := roeMean wl wr wl.vx wr.vx
  set c := hlleA (.adiabatic gamma) wl wr
  have hqp := roeQ_pos gamma wl wr hl hr
  have hz : ∀ i, (speedAd v c i - s) * a i = 0 := by
    apply sum5_zero v (roeMean wl wr wl.vy wr.vy) (roeMean wl wr wl.vz wr.vz) (roeEnthalpy (.adiabatic gamma) wl wr) c _
      hc
    · unfold roeQ at hqp
      refine hqp.trans_eq ?_
      ring
    · unfold JumpOk at hs
      rw [← s1, ← s2] at hs
      have e : ∀ r : Fin 5 → F, sum5 (fun i => (speedAd v c i - s) * a i) r =
          sum5 (fun i => speedAd v c i * a i) r - s • sum5 a r := by
        intro r
        ext <;> simp only [sum5, add_d, add_mx, add_my, add_mz, add_e, smul_d, smul_mx,
            smul_my, smul_mz, smul_e, sub_d, sub_mx, sub_my, sub_mz, sub_e] <;> ring
      rw [e, hs]
      ext <;> simp
  have hd := congrArg F.d s1
  have cd : ∀ u, (cons (.adiabatic gamma) u).d = u.d := fun u => rfl
  simp only [sum5, waveAd, add_d, smul_d, sub_d, cd] at hd
  have hdl := hl.1
  have hdr := hr.1
  have hno : ¬ (wl.d + a 0 < 0 ∨ wl.d + a 0 + a 3 < 0) := by
    have z0 := hz 0; have z3 := hz 3; have z4 := hz 4
    simp only [speedAd, mul_eq_zero] at z0 z3 z4
    rintro (hn | hn)
    · rcases z0 with z0 | z0
      · have a3 : a 3 = 0 := z3.resolve_left (by intro h; linarith)
        have a4 : a 4 = 0 := z4.resolve_left (by intro h; linarith)
        rw [a3, a4] at hd
        linarith
      · rw [z0] at hn; linarith
    · rcases z4 with z4 | z4
      · have a3 : a 3 = 0 := z3.resolve_left (by intro h; linarith)
        have a0 : a 0 = 0 := z0.resolve_left (by intro h; linarith)
        rw [a3, a0] at hn
        linarith
      · rw [z4] at hd; linarith
  rw [if_neg hno] at h
  rw [h]
  split
  · rename_i hs0
    have e : (fun i => |speedAd v c i| * a i) = fun i => speedAd v c i * a i := by
      funext i
      rcases mul_eq_zero.1 (hz i) with hi | hi
      · rw [abs_of_nonneg (by linarith)]
      · rw [hi, mul_zero, mul_zero]
    rw [e, s2]
    ext <;> simp <;> ring
  · rename_i hs0
    have e : (fun i => |speedAd v c i| * a i) = fun i => -(speedAd v c i * a i) := by
      funext i
      rcases mul_eq_zero.1 (hz i) with hi | hi
      · rw [abs_of_nonpos (by linarith)]; ring
      · rw [hi, mul_zero, mul_zero, neg_zero]
    rw [e]
    have e2 : ∀ r : Fin 5 → F, sum5 (fun i => -(speedAd v c i * a i)) r
        = (-1 : ℝ) • sum5 (fun i => speedAd v c i * a i) r := by
      intro r
      ext <;> simp only [sum5, add_d, add_mx, add_my, add_mz, add_e, smul_d, smul_mx,
        smul_my, smul_mz, smul_e] <;> ring
    rw [e2, s2]
    ext <;> simp <;> ring

/-! ## Isothermal -/

/-- The projections of roe.cpp:308-319. -/
noncomputable def strengthIso (v1 v2 v3 c : ℝ) (du : F) : Fin 4 → ℝ
  | 0 => du.d * (1/2 + 1/2 * v1 / c) - du.mx * (1/2) / c
  | 1 => du.d * (-v2) + du.my
  | 2 => du.d * (-v3) + du.mz
  | 3 => du.d * (1/2 - 1/2 * v1 / c) + du.mx * (1/2) / c

/-- The Roe solver, isothermal: as `roe_waves`. -/
theorem roe_waves_iso (cs tiny : ℝ) (wl wr : W) (hl : Ok (.isothermal cs) wl) (hr : Ok (.isothermal cs) wr) :
    let g := Gas.isothermal cs
    let v := roeMean wl wr wl.vx wr.vx
    let r := waveIso v (roeMean wl wr wl.vy wr.vy) (roeMean wl wr wl.vz wr.vz) cs
    ∃ a : Fin 4 → ℝ,
      sum4 a r = cons g wr - cons g wl ∧
      sum4 (fun i => speedIso v cs i * a i) r = flux g wr - flux g wl ∧
      roe g tiny wl wr = if wl.d + a 0 < 0 ∨ wl.d + a 0 + a 3 < 0 then llf g wl wr else
        (1/2 : ℝ) • (flux g wl + flux g wr) - (1/2 : ℝ) • sum4 (fun i => |speedIso v cs i| * a i) r := by
  intro g v r
  have hc : 0 < cs := hl.2
  have hc' : cs ≠ 0 := hc.ne'
  set a := strengthIso (roeMean wl wr wl.vx wr.vx) (roeMean wl wr wl.vy wr.vy) (roeMean wl wr wl.vz wr.vz) cs
    (jump (.isothermal cs) wl wr) with ha
  have s2 : sum4 (fun i => speedIso v cs i * a i) r = flux g wr - flux g wl := by
    have hdl := hl.1
    have hdr := hr.1
    rw [ha]
    simp only [v, r, g]
    clear_value a
    clear ha
    obtain ⟨dl, vxl, vyl, vzl, pl⟩ := wl
    obtain ⟨dr, vxr, vyr, vzr, pr⟩ := wr
    simp only at *
    have hs := Real.sqrt_pos.2 hdl
    have ht := Real.sqrt_pos.2 hdr
    have es : dl = Real.sqrt dl * Real.sqrt dl := (Real.mul_self_sqrt hdl.le).symm
    have et : dr = Real.sqrt dr * Real.sqrt dr := (Real.mul_self_sqrt hdr.le).symm
    simp only [roeMean, jump, Gas.ifEnergy]
    generalize Real.sqrt dl = s at *
    generalize Real.sqrt dr = t at *
    subst es et
    ext <;> simp only [flux, sum4, speedIso, waveIso, strengthIso, add_d, add_mx, add_my, add_mz, add_e, smul_d,
      smul_mx, smul_my, smul_mz, smul_e, sub_d, sub_mx, sub_my, sub_mz, sub_e] <;> field_simp <;> ring
  refine ⟨a, ?_, s2, ?_⟩
  · rw [ha, jump_eq]
    ext <;> simp only [cons, sum4, waveIso, r, g, strengthIso, add_d, add_mx, add_my, add_mz, add_e, smul_d,
      smul_mx, smul_my, smul_mz, smul_e, sub_d, sub_mx, sub_my, sub_mz, sub_e, v] <;> field_simp <;> ring
  · unfold roe
    have ho : roeOut (.isothermal cs) tiny wl wr = roeFluxIso cs (roeMean wl wr wl.vx wr.vx)
      (roeMean wl wr wl.vy wr.vy) (roeMean wl wr wl.vz wr.vz)
      (jump (.isothermal cs) wl wr) wl.d := rfl
    have h3 : (roeOut (.isothermal cs) tiny wl wr).add
        = (-(1/2) : ℝ) • sum4 (fun i => |speedIso v cs i| * a i) r := by
      rw [ho, ha]
      ext <;> simp only [roeFluxIso, sum4, speedIso, strengthIso, waveIso, r, v, add_d, add_mx, add_my, add_mz, add_e,
        smul_d, smul_mx, smul_my, smul_mz, smul_e] <;> ring
    have h4 : (roeOut (.isothermal cs) tiny wl wr).llfFlag = true ↔ wl.d + a 0 < 0 ∨ wl.d + a 0 + a 3 < 0 := by
      rw [ho, ha]
      simp only [roeFluxIso, strengthIso, Bool.or_eq_true, decide_eq_true_eq]
    have h1 : (roeOut (.isothermal cs) tiny wl wr).evFirst = v - cs := rfl
    have h2 : (roeOut (.isothermal cs) tiny wl wr).evLast = v + cs := rfl
    simp only [g, h1, h2, h3, sideFlux_eq _ _ hl, sideFlux_eq _ _ hr]
    by_cases hf : wl.d + a 0 < 0 ∨ wl.d + a 0 + a 3 < 0
    · rw [if_pos (h4.2 hf), if_pos hf]
      unfold llf
      simp only [sideFlux_eq _ _ hl, sideFlux_eq _ _ hr]
    · rw [if_neg (fun h => hf (h4.1 h)), if_neg hf]
      by_cases hR : v + cs ≤ 0
      · rw [if_pos hR]
        have e : (fun i => |speedIso v cs i| * a i) = fun i => -(speedIso v cs i * a i) := by
          funext i
          have : speedIso v cs i ≤ 0 := by fin_cases i <;> simp only [speedIso] <;> linarith
          rw [abs_of_nonpos this]; ring
        rw [e]
        have e2 : sum4 (fun i => -(speedIso v cs i * a i)) r = (-1 : ℝ) • (flux g wr - flux g wl) := by
          rw [← s2]
          ext <;> simp only [sum4, add_d, add_mx, add_my, add_mz, add_e, smul_d, smul_mx,
            smul_my, smul_mz, smul_e] <;> ring
        rw [e2]
        ext <;> simp [g] <;> ring
      · rw [if_neg hR]
        by_cases hL : 0 ≤ v - cs
        · rw [if_pos hL]
          have e : (fun i => |speedIso v cs i| * a i) = fun i => (speedIso v cs i * a i) := by
            funext i
            have : 0 ≤ speedIso v cs i := by fin_cases i <;> simp only [speedIso] <;> linarith
            rw [abs_of_nonneg this]
          rw [e, s2]
          ext <;> simp [g] <;> ring
        · rw [if_neg hL]
          ext <;> simp [g, Gas.ifEnergy, r, sum4, waveIso, flux] <;> ring

/-- Exactness for an isolated discontinuity, isothermal. -/
theorem roe_isolated_iso (cs tiny s : ℝ) (wl wr : W) (hl : Ok (.isothermal cs) wl) (hr : Ok (.isothermal cs) wr)
    (hs : JumpOk (.isothermal cs) s wl wr) :
    roe (.isothermal cs) tiny wl wr = if 0 ≤ s then flux (.isothermal cs) wl else flux (.isothermal cs) wr := by
  obtain ⟨a, s1, s2, h⟩ := roe_waves_iso cs tiny wl wr hl hr
  set v := roeMean wl wr wl.vx wr.vx
  have hc : 0 < cs := hl.2
  have hz : ∀ i, (speedIso v cs i - s) * a i = 0 := by
    unfold JumpOk at hs
    rw [← s1, ← s2] at hs
    have hd := congrArg F.d hs
    have hx := congrArg F.mx hs
    have hy := congrArg F.my hs
    have hw := congrArg F.mz hs
    simp only [sum4, waveIso, speedIso, add_d, add_mx, add_my, add_mz, smul_d, smul_mx, smul_my, smul_mz] at *
    have key : ((v + cs - s) * a 3 - (v - cs - s) * a 0) * cs = 0 := by linear_combination hx - v * hd
    have k2 : (v + cs - s) * a 3 = (v - cs - s) * a 0 := by
      rcases mul_eq_zero.1 key with h | h
      · linarith
      · exact absurd h hc.ne'
    have k0 : (v - cs - s) * a 0 = 0 := by linarith
    have k1 : (v - s) * a 1 = 0 := by linear_combination hy - roeMean wl wr wl.vy wr.vy * hd
    have k3 : (v - s) * a 2 = 0 := by linear_combination hw - roeMean wl wr wl.vz wr.vz * hd
    intro i
    fin_cases i <;> simp only [Fin.zero_eta, Fin.mk_one, Fin.reduceFinMk] <;> linarith
  have hd := congrArg F.d s1
  have cd : ∀ u, (cons (.isothermal cs) u).d = u.d := fun u => rfl
  simp only [sum4, waveIso, add_d, smul_d, sub_d, cd] at hd
  have hdl := hl.1
  have hdr := hr.1
  have hno : ¬ (wl.d + a 0 < 0 ∨ wl.d + a 0 + a 3 < 0) := by
    have z0 := hz 0; have z3 := hz 3
    simp only [speedIso, mul_eq_zero] at z0 z3
    rintro (hn | hn)
    · rcases z0 with z0 | z0
      · have a3 : a 3 = 0 := z3.resolve_left (by intro h; linarith)
        rw [a3] at hd
        linarith
      · rw [z0] at hn; linarith
    · linarith
  rw [if_neg hno] at h
  rw [h]
  split
  · have e : (fun i => |speedIso v cs i| * a i) = fun i => speedIso v cs i * a i := by
      funext i
      rcases mul_eq_zero.1 (hz i) with hi | hi
      · rw [abs_of_nonneg (by linarith)]
      · rw [hi, mul_zero, mul_zero]
    rw [e, s2]
    ext <;> simp <;> ring
  · have e : (fun i => |speedIso v cs i| * a i) = fun i => -(speedIso v cs i * a i) := by
      funext i
      rcases mul_eq_zero.1 (hz i) with hi | hi
      · rw [abs_of_nonpos (by linarith)]; ring
      · rw [hi, mul_zero, mul_zero, neg_zero]
    rw [e]
    have e2 : ∀ r : Fin 4 → F, sum4 (fun i => -(speedIso v cs i * a i)) r
        = (-1 : ℝ) • sum4 (fun i => speedIso v cs i * a i) r := by
      intro r
      ext <;> simp only [sum4, add_d, add_mx, add_my, add_mz, add_e, smul_d, smul_mx,
        smul_my, smul_mz, smul_e] <;> ring
    rw [e2, s2]
    ext <;> simp <;> ring

/-- The Roe solver is consistent. -/
theorem roe_consistent (g : Gas) (tiny : ℝ) : Consistent g (roe g tiny) := by
  refine consistent_of fun w hw => ?_
  have hj : JumpOk g 0 w w := by
    unfold JumpOk
    ext <;> simp
  cases g with
  | adiabatic gamma => rw [roe_isolated gamma tiny 0 w w hw hw hj, ite_self]
  | isothermal cs => rw [roe_isolated_iso cs tiny 0 w w hw hw hj, ite_self]

/-- A shock at rest in a gas with `gamma = 5/3` and Mach number 2 on the left: the mass flux is that of the left
state. -/
example : JumpOk (.adiabatic (5/3)) 0 ⟨1, 2, 0, 0, 3/5⟩ ⟨16/7, 7/8, 0, 0, 57/20⟩ ∧
    roe (.adiabatic (5/3)) 0 ⟨1, 2, 0, 0, 3/5⟩ ⟨16/7, 7/8, 0, 0, 57/20⟩ = ⟨2, 23/5, 0, 0, 7⟩ := by
  have hj : JumpOk (.adiabatic (5/3)) 0 ⟨1, 2, 0, 0, 3/5⟩ ⟨16/7, 7/8, 0, 0, 57/20⟩ := by
    unfold JumpOk
    ext <;> simp [flux] <;> norm_num
  refine ⟨hj, ?_⟩
  rw [roe_isolated (5/3) 0 0 ⟨1, 2, 0, 0, 3/5⟩ ⟨16/7, 7/8, 0, 0, 57/20⟩ ⟨by norm_num, by norm_num, by norm_num⟩
    ⟨by norm_num, by norm_num, by norm_num⟩ hj, if_pos le_rfl]
  ext <;> simp [flux] <;> norm_num

end Verif.Riemann
