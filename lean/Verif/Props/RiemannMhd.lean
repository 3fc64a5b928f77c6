import Verif.Lemmas.RiemannMhd

/-!
# C46: LLF and HLLE with a magnetic field
-/
namespace Verif.Mhd
open Verif.TimeStep
open Verif.Riemann (Gas Gas.ifEnergy)

/-! ## LLF -/

/-- LLF is the central flux less the jump times half the greater signal speed. -/
theorem llf_formula (g : Gas) (bx : ℝ) (wl wr : W) :
    llf g bx wl wr = (1/2 : ℝ) • (flux g bx wl + flux g bx wr)
      - (max (|wl.vx| + fast g bx wl) (|wr.vx| + fast g bx wr) / 2) • (cons g bx wr - cons g bx wl) := by
  unfold llf
  simp only [sideFlux_eq, jump_eq]
  cases g <;> ext <;> simp only [F.map2, Gas.ifEnergy, flux, cons, totalE, add_d, add_mx, add_my, add_mz, add_e, add_bY,
    add_bZ, sub_d, sub_mx, sub_my, sub_mz, sub_e, sub_bY, sub_bZ, smul_d, smul_mx, smul_my, smul_mz, smul_e, smul_bY,
    smul_bZ] <;> ring

/-- LLF is consistent. -/
theorem llf_consistent (g : Gas) : Consistent g (llf g) := by
  refine consistent_of fun bx w _ => ?_
  rw [llf_formula]
  ext <;> simp <;> ring

/-! ## HLLE -/

/-- The averaged enthalpy less the energy of the averaged motion and field, in terms of the two sides. -/
theorem roeQ_eq (gamma bx : ℝ) (wl wr : W) (hl : Ok (.adiabatic gamma) wl) (hr : Ok (.adiabatic gamma) wr) :
    let S := Real.sqrt wl.d + Real.sqrt wr.d
    roeQ (.adiabatic gamma) bx wl wr =
      gamma / (gamma - 1) * (wl.p / Real.sqrt wl.d + wr.p / Real.sqrt wr.d) / S
      + 1/2 * (Real.sqrt wl.d * Real.sqrt wr.d) / S ^ 2
        * ((wl.vx - wr.vx) ^ 2 + (wl.vy - wr.vy) ^ 2 + (wl.vz - wr.vz) ^ 2)
      + 2 * roeX wl wr := by
  obtain ⟨hdl, hpl, hg⟩ := hl
  obtain ⟨hdr, hpr, _⟩ := hr
  have hg1 : gamma - 1 ≠ 0 := by linarith
  have h1 : 0 < Real.sqrt wl.d := Real.sqrt_pos.2 hdl
  have h2 : 0 < Real.sqrt wr.d := Real.sqrt_pos.2 hdr
  have e1 : wl.d = Real.sqrt wl.d ^ 2 := (Real.sq_sqrt hdl.le).symm
  have e2 : wr.d = Real.sqrt wr.d ^ 2 := (Real.sq_sqrt hdr.le).symm
  simp only [roeQ, roeEnthalpy, roeMean, roeMeanB, roeX, roeD, energy, pb]
  generalize Real.sqrt wl.d = sl at *
  generalize Real.sqrt wr.d = sr at *
  rw [e1, e2]
  have hS : sl + sr ≠ 0 := by positivity
  field_simp
  ring

/-- The averaged sound speed `twid_asq` is positive. -/
theorem twid_pos (g : Gas) (bx : ℝ) (wl wr : W) (hl : Ok g wl) (hr : Ok g wr) : 0 < (hlleStar g bx wl wr).2 := by
  have hx : 0 ≤ roeX wl wr := by unfold roeX; positivity
  cases g with
  | isothermal cs =>
    have := mul_pos hl.2 hl.2
    simp only [hlleStar]; linarith
  | adiabatic gamma =>
    have hq := roeQ_eq gamma bx wl wr hl hr
    obtain ⟨hdl, hpl, hg⟩ := hl
    obtain ⟨hdr, hpr, _⟩ := hr
    have hg1 : 0 < gamma - 1 := by linarith
    have hg0 : 0 < gamma := by linarith
    have h1 : 0 < Real.sqrt wl.d := Real.sqrt_pos.2 hdl
    have h2 : 0 < Real.sqrt wr.d := Real.sqrt_pos.2 hdr
    simp only [hlleStar]
    apply lt_max_of_lt_left
    simp only at hq
    have t1 : 0 < gamma / (gamma - 1) * (wl.p / Real.sqrt wl.d + wr.p / Real.sqrt wr.d)
        / (Real.sqrt wl.d + Real.sqrt wr.d) := by positivity
    have t2 : 0 ≤ 1/2 * (Real.sqrt wl.d * Real.sqrt wr.d) / (Real.sqrt wl.d + Real.sqrt wr.d) ^ 2
        * ((wl.vx - wr.vx) ^ 2 + (wl.vy - wr.vy) ^ 2 + (wl.vz - wr.vz) ^ 2) := by positivity
    have t3 : 2 * roeX wl wr < roeQ (.adiabatic gamma) bx wl wr := by rw [hq]; linarith
    have t4 : (gamma - 1) * (2 * roeX wl wr) < (gamma - 1) * roeQ (.adiabatic gamma) bx wl wr :=
      mul_lt_mul_of_pos_left t3 hg1
    nlinarith [mul_nonneg hg0.le hx]

theorem roeY_ge_one (wl wr : W) (h1 : 0 < wl.d) (h2 : 0 < wr.d) : 1 ≤ roeY wl wr := by
  have a1 : 0 < Real.sqrt wl.d := Real.sqrt_pos.2 h1
  have a2 : 0 < Real.sqrt wr.d := Real.sqrt_pos.2 h2
  have e1 : Real.sqrt wl.d ^ 2 = wl.d := Real.sq_sqrt h1.le
  have e2 : Real.sqrt wr.d ^ 2 = wr.d := Real.sq_sqrt h2.le
  unfold roeY roeD
  rw [le_div_iff₀ (mul_pos a1 a2)]
  nlinarith [sq_nonneg (Real.sqrt wl.d - Real.sqrt wr.d)]

/-- The gas for which the averaged transverse field is real for any two states: isothermal, or `gamma ≤ 2`. -/
def SoftGas : Gas → Prop
  | .adiabatic gamma => gamma ≤ 2
  | .isothermal _ => True

/-- Both radicands of the averaged fast speed are not negative, and the speed is positive. -/
theorem hlleA_pos (g : Gas) (bx : ℝ) (wl wr : W) (hl : Ok g wl) (hr : Ok g wr) (hs : SoftGas g ∨ roeY wl wr = 1) :
    0 ≤ (hlleStar g bx wl wr).1 ∧ 0 ≤ (hlleRad g bx wl wr).1 ∧ 0 < (hlleRad g bx wl wr).2 ∧ 0 < hlleA g bx wl wr := by
  have ht := twid_pos g bx wl wr hl hr
  have hy := roeY_ge_one wl wr hl.d_pos hr.d_pos
  have hD : 0 < roeD wl wr := mul_pos (Real.sqrt_pos.2 hl.d_pos) (Real.sqrt_pos.2 hr.d_pos)
  have hb : 0 ≤ (hlleStar g bx wl wr).1 := by
    cases g with
    | isothermal cs =>
      simp only [hlleStar]
      exact mul_nonneg (by positivity) (by linarith)
    | adiabatic gamma =>
      simp only [hlleStar]
      refine mul_nonneg ?_ (by positivity)
      have hg1 : 0 < gamma - 1 := by linarith [hl.2.2]
      rcases hs with hs | hs
      · have : gamma ≤ 2 := hs
        nlinarith
      · rw [hs]; linarith
  have hc : 0 ≤ (hlleStar g bx wl wr).1 / roeD wl wr := div_nonneg hb hD.le
  have hv : 0 ≤ bx * bx / roeD wl wr := div_nonneg (mul_self_nonneg _) hD.le
  have r1 : 0 ≤ (hlleRad g bx wl wr).1 :=
    add_nonneg (mul_self_nonneg _) (mul_nonneg (mul_nonneg (by norm_num) ht.le) hc)
  have r2 : 0 < (hlleRad g bx wl wr).2 := by
    have : 0 ≤ Real.sqrt (hlleRad g bx wl wr).1 := Real.sqrt_nonneg _
    show 0 < 1/2 * (bx * bx / roeD wl wr + (hlleStar g bx wl wr).1 / roeD wl wr + (hlleStar g bx wl wr).2
      + Real.sqrt (hlleRad g bx wl wr).1)
    linarith
  exact ⟨hb, r1, r2, Real.sqrt_pos.2 r2⟩

/-- HLLE is the two-wave formula with speeds that enclose the face. -/
theorem hlle_formula (g : Gas) (bx : ℝ) (wl wr : W) (hl : Ok g wl) (hr : Ok g wr)
    (hs : SoftGas g ∨ roeY wl wr = 1) :
    ∃ bm bp : ℝ, bm = min 0 (min (roeMean wl wr wl.vx wr.vx - hlleA g bx wl wr) (wl.vx - fast g bx wl)) ∧
      bp = max 0 (max (roeMean wl wr wl.vx wr.vx + hlleA g bx wl wr) (wr.vx + fast g bx wr)) ∧ bm < bp ∧
      hlle g bx wl wr = (1 / (bp - bm)) • (bp • flux g bx wl - bm • flux g bx wr
        + (bp * bm) • (cons g bx wr - cons g bx wl)) := by
  have ha := (hlleA_pos g bx wl wr hl hr hs).2.2.2
  set v := roeMean wl wr wl.vx wr.vx with hv
  set a := hlleA g bx wl wr with hadef
  set bm := min 0 (min (v - a) (wl.vx - fast g bx wl)) with hbm
  set bp := max 0 (max (v + a) (wr.vx + fast g bx wr)) with hbp
  have hlt : bm < bp := by
    have h1 : bm ≤ min 0 (v - a) := le_min (min_le_left _ _) ((min_le_right _ _).trans (min_le_left _ _))
    have h2 : max 0 (v + a) ≤ bp := max_le (le_max_left _ _) ((le_max_left _ _).trans (le_max_right _ _))
    refine h1.trans_lt (lt_of_lt_of_le ?_ h2)
    rcases le_or_gt 0 v with hv | hv
    · exact (min_le_left _ _).trans_lt (lt_of_lt_of_le (by linarith) (le_max_right _ _))
    · exact (min_le_right _ _).trans_lt (lt_of_lt_of_le (by linarith) (le_max_left _ _))
  refine ⟨bm, bp, rfl, rfl, hlt, ?_⟩
  have e1 : (if 0 < max (v + a) (wr.vx + fast g bx wr) then max (v + a) (wr.vx + fast g bx wr) else 0) = bp :=
    Verif.Riemann.ite_pos_eq _
  have e2 : (if min (v - a) (wl.vx - fast g bx wl) < 0 then min (v - a) (wl.vx - fast g bx wl) else 0) = bm :=
    Verif.Riemann.ite_neg_eq _
  unfold hlle
  simp only [← hv, ← hadef, e1, e2, if_pos hlt.ne', lineFlux_eq]
  have key : ∀ x y z w : ℝ, 1/2 * ((x - bm * z) + (y - bp * w)) +
      ((x - bm * z) - (y - bp * w)) * (1/2 * (bp + bm) / (bp - bm))
      = 1 / (bp - bm) * (bp * x - bm * y + bp * bm * (w - z)) := by
    intro x y z w
    rw [Verif.Riemann.hll_comb hlt.ne']; ring
  have hen : ∀ x y z w : ℝ, (∀ cs, g = .isothermal cs → x = 0 ∧ y = 0 ∧ z = 0 ∧ w = 0) →
      g.ifEnergy (1/2 * ((x - bm * z) + (y - bp * w)) +
      ((x - bm * z) - (y - bp * w)) * (1/2 * (bp + bm) / (bp - bm)))
      = 1 / (bp - bm) * (bp * x - bm * y + bp * bm * (w - z)) := by
    intro x y z w h0
    cases g with
    | adiabatic _ => exact key x y z w
    | isothermal cs =>
      obtain ⟨rfl, rfl, rfl, rfl⟩ := h0 cs rfl
      simp [Gas.ifEnergy]
  ext <;> simp only [F.map2, add_d, add_mx, add_my, add_mz, add_e, add_bY, add_bZ, sub_d, sub_mx, sub_my, sub_mz, sub_e,
    sub_bY, sub_bZ, smul_d, smul_mx, smul_my, smul_mz, smul_e, smul_bY, smul_bZ]
  case e =>
    apply hen
    rintro cs rfl
    simp [flux, cons, totalE]
  all_goals exact key _ _ _ _

/-- HLLE is consistent, for every ratio of heat capacities. -/
theorem hlle_consistent (g : Gas) : Consistent g (hlle g) := by
  refine consistent_of fun bx w hw => ?_
  have hy : roeY w w = 1 := by
    have h : Real.sqrt w.d * Real.sqrt w.d = w.d := Real.mul_self_sqrt hw.d_pos.le
    have := hw.d_pos
    unfold roeY roeD
    rw [h]; field_simp; norm_num
  obtain ⟨bm, bp, _, _, hlt, h⟩ := hlle_formula g bx w w hw hw (Or.inr hy)
  have hne : bp - bm ≠ 0 := by linarith
  rw [h]
  ext <;> simp <;> field_simp

/-- If all the signal speeds point to the right, the flux is that of the left state. -/
theorem hlle_upwind_left (g : Gas) (bx : ℝ) (wl wr : W) (hl : Ok g wl) (hr : Ok g wr)
    (hs : SoftGas g ∨ roeY wl wr = 1) (h1 : fast g bx wl ≤ wl.vx)
    (h2 : hlleA g bx wl wr ≤ roeMean wl wr wl.vx wr.vx) : hlle g bx wl wr = flux g bx wl := by
  obtain ⟨bm, bp, hm, _, hlt, h⟩ := hlle_formula g bx wl wr hl hr hs
  have : bm = 0 := by
    rw [hm, min_eq_left]; exact le_min (by linarith) (by linarith)
  subst this
  have hne : bp ≠ 0 := hlt.ne'
  rw [h]
  ext <;> simp <;> field_simp

/-- If all point to the left, it is that of the right state. -/
theorem hlle_upwind_right (g : Gas) (bx : ℝ) (wl wr : W) (hl : Ok g wl) (hr : Ok g wr)
    (hs : SoftGas g ∨ roeY wl wr = 1) (h1 : wr.vx ≤ -fast g bx wr)
    (h2 : roeMean wl wr wl.vx wr.vx ≤ -hlleA g bx wl wr) : hlle g bx wl wr = flux g bx wr := by
  obtain ⟨bm, bp, _, hp, hlt, h⟩ := hlle_formula g bx wl wr hl hr hs
  have : bp = 0 := by
    rw [hp, max_eq_left]; exact max_le (by linarith) (by linarith)
  subst this
  have hne : bm ≠ 0 := hlt.ne
  rw [h]
  ext <;> simp <;> field_simp

/-! ## The weight for constrained transport -/

/-- The weight lies between 0 and 1, is one half without a mass flux, grows with the mass flux, and reflection of the
flux exchanges the sides. -/
theorem weight_spec (dflx rhol rhor dx dt : ℝ) :
    0 ≤ weightForCT dflx rhol rhor dx dt ∧ weightForCT dflx rhol rhor dx dt ≤ 1 ∧
      weightForCT 0 rhol rhor dx dt = 1/2 ∧
      weightForCT (-dflx) rhor rhol dx dt = 1 - weightForCT dflx rhol rhor dx dt := by
  have hneg : 1024 * dt * -dflx / (dx * (rhor + rhol)) = -(1024 * dt * dflx / (dx * (rhol + rhor))) := by
    rw [add_comm rhor rhol]; ring
  unfold weightForCT
  simp only [hneg]
  generalize 1024 * dt * dflx / (dx * (rhol + rhor)) = v
  refine ⟨?_, ?_, ?_, ?_⟩
  · have := le_max_left (-(1/2 : ℝ)) (min (1/2) v); linarith
  · have : max (-(1/2 : ℝ)) (min (1/2) v) ≤ 1/2 := max_le (by norm_num) (min_le_left _ _)
    linarith
  · norm_num
  · have hm : max (-(1/2 : ℝ)) (min (1/2) (-v)) = -max (-(1/2)) (min (1/2) v) := by
      rcases le_total v (-(1/2)) with h | h
      · rw [min_eq_left (by linarith), max_eq_right (by norm_num), min_eq_right (by linarith), max_eq_left h]; norm_num
      · rcases le_total v (1/2) with h' | h'
        · rw [min_eq_right (by linarith), max_eq_right (by linarith), min_eq_right h', max_eq_right h]
        · rw [min_eq_right (by linarith), max_eq_left (by linarith), min_eq_left h', max_eq_right (by norm_num)]
    rw [hm]; ring

/-- For positive densities, cell size and step the weight is full upwinding as soon as the mass flux through the face
in one step is `1/2048` of the mass of the two cells. -/
theorem weight_upwind (dflx rhol rhor dx dt : ℝ) (hl : 0 < rhol) (hr : 0 < rhor) (hx : 0 < dx)
    (h : dx * (rhol + rhor) ≤ 2048 * (dt * dflx)) : weightForCT dflx rhol rhor dx dt = 1 := by
  unfold weightForCT
  have hpos : 0 < dx * (rhol + rhor) := by positivity
  have : (1/2 : ℝ) ≤ 1024 * dt * dflx / (dx * (rhol + rhor)) := by
    rw [le_div_iff₀ hpos]; linarith
  simp only [min_eq_left this]
  norm_num

/-! ## The hypotheses are met -/

/-- A supersonic isothermal stream with a rotating field. -/
example : hlle (.isothermal 1) 0 ⟨1, 4, 0, 5, 0, 1, 0⟩ ⟨1, 5, 1, 0, 0, 0, 1⟩
    = flux (.isothermal 1) 0 ⟨1, 4, 0, 5, 0, 1, 0⟩ := by
  apply hlle_upwind_left
  · exact ⟨by norm_num, by norm_num⟩
  · exact ⟨by norm_num, by norm_num⟩
  · exact Or.inl trivial
  · have h4 : Real.sqrt 4 = 2 := by
      rw [show (4 : ℝ) = 2 ^ 2 by norm_num]; exact Real.sqrt_sq (by norm_num)
    simp only [fast, fastSpeed, asq]
    norm_num [h4]
    rw [Real.sqrt_le_left (by norm_num)]
    norm_num
  · simp only [hlleA, hlleRad, hlleStar, roeD, roeX, roeY, roeMean, roeMeanB, Real.sqrt_one]
    have h49 : Real.sqrt 49 = 7 := by
      rw [show (49 : ℝ) = 7 ^ 2 by norm_num]; exact Real.sqrt_sq (by norm_num)
    have h16 : Real.sqrt 16 = 4 := by
      rw [show (16 : ℝ) = 4 ^ 2 by norm_num]; exact Real.sqrt_sq (by norm_num)
    norm_num [h49, h16]
    have h4 : Real.sqrt 4 = 2 := by
      rw [show (4 : ℝ) = 2 ^ 2 by norm_num]; exact Real.sqrt_sq (by norm_num)
    have h7 : Real.sqrt 7 ≤ 9 := by
      rw [Real.sqrt_le_left (by norm_num)]; norm_num
    rw [h4]
    linarith

/-- Equal states, third direction: the electric field. -/
example (oldE : Nat → ℝ) (b w : Nat → ℝ) (h0 : 0 < w 0) :
    storeE 3 (llf (.isothermal 1) (b 3) (load (.isothermal 1) 3 (stateArr (.isothermal 1) 3 w b))
      (load (.isothermal 1) 3 (stateArr (.isothermal 1) 3 w b))) oldE 1 = w 3 * b 2 - w 2 * b 3 := by
  rw [(llf_consistent (.isothermal 1) w b (fun _ => 0) oldE 3 (by norm_num)
    ⟨by simpa [load, stateArr, iby] using h0, by norm_num⟩).2 1]
  norm_num [electric]

end Verif.Mhd
