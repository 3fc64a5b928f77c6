import Verif.Lemmas.GrFrames
import Verif.Lemmas.GrUserFrame
import Verif.Props.GrMetric

/-!
# C80: fluxes of the general relativistic Riemann solvers

`interfaceFlux` is the chain `PrimToLocal`, `HLLETransforming`, `FluxToGlobal` at one interface, for any speeds
`lamL < lamR` of the outermost waves. The statements compare it with the flux of HLLE in the coordinates of the
grid (`hlleFlux`), computed from the currents `ρ u^μ`, `T^μ_ν`, `b^μ u^ν - b^ν u^μ` of the two sides (`current`), with
the speeds at which the two waves cross the coordinates (`coordSpeed`). Nothing of the frame is left in this
specification.
-/
namespace Verif.Gr

/-! ## The specification -/

/-- C80: the speeds of the specification are those of the characteristics of the metric for light: they are the roots of
`g^{00} λ² - 2 g^{0n} λ + g^{nn} = 0`. -/
theorem light_speeds {gi : M4} {n : Fin 4} (h0 : gi 0 0 < 0) (hd : 0 ≤ gi 0 n^2 - gi 0 0 * gi n n) (l : ℝ) :
    gi 0 0 * l^2 - 2 * gi 0 n * l + gi n n = 0 ↔ l = coordSpeed gi n 1 ∨ l = coordSpeed gi n (-1) := by
  have hz := h0.ne
  have hs := Real.sq_sqrt hd
  simp only [coordSpeed]
  generalize Real.sqrt (gi 0 n^2 - gi 0 0 * gi n n) = q at *
  have e : gi 0 0 * (gi 0 0 * l^2 - 2 * gi 0 n * l + gi n n)
      = (gi 0 0 * l - (gi 0 n - 1*q)) * (gi 0 0 * l - (gi 0 n - (-1)*q)) := by linear_combination hs
  rw [eq_div_iff hz, eq_div_iff hz, mul_comm l]
  constructor
  · intro h
    rw [h, mul_zero] at e
    exact (mul_eq_zero.mp e.symm).imp sub_eq_zero.mp sub_eq_zero.mp
  · intro h
    have : gi 0 0 * (gi 0 0 * l^2 - 2 * gi 0 n * l + gi n n) = 0 := by
      rw [e, mul_eq_zero]; exact h.imp sub_eq_zero.mpr sub_eq_zero.mpr
    exact (mul_eq_zero.mp this).resolve_left hz

/-- The flux of HLLE between equal states is their flux. -/
theorem hlle_consistent {sl sr : ℝ} (h : sl < sr) (f u : GlobalFlux) : hlleFlux sl sr f f u u = f := by
  have e : ∀ x y, hlleScalar sl sr x x y y = x := by
    intro x y
    rw [hlleScalar, div_eq_iff (sub_ne_zero.mpr h.ne')]; ring
  rw [hlleFlux]
  by_cases a : 0 ≤ sl
  · rw [if_pos a]
  · rw [if_neg a]
    by_cases b : sr ≤ 0
    · rw [if_pos b]
    · rw [if_neg b]; simp only [e]

/-! ## Schwarzschild -/

/-- C80: in Schwarzschild's coordinates, through the surfaces of constant `r` and of constant `φ`. The surfaces of constant
`θ` are left out (only `r = 1` is covered): see `theta_mass_flux`. -/
theorem interface_schwarzschild_partial {m r θ : ℝ} (h : 2*m/r < 1) (hr : 0 < r) (hs : Real.sin θ ≠ 0) {d : Fin 3}
    (hd : d ≠ 1 ∨ r = 1) (gam bbn : ℝ) {lamL lamR : ℝ} (hlam : lamL < lamR) (wl wr : FacePrim) {ul bl ur br : V4}
    (hul : FourVel (schwarzschild m r θ) (schwarzschild m r θ)⁻¹ (slotVec wl.v) ul)
    (hbl : FourField (schwarzschild m r θ) ul (slotVec (cyc d bbn wl.bby wl.bbz)) bl)
    (hur : FourVel (schwarzschild m r θ) (schwarzschild m r θ)⁻¹ (slotVec wr.v) ur)
    (hbr : FourField (schwarzschild m r θ) ur (slotVec (cyc d bbn wr.bby wr.bbz)) br) {Tl Tr : M4}
    (hTl : Tl = stress (schwarzschild m r θ) (schwarzschild m r θ)⁻¹ (wl.rho + gam/(gam-1)*wl.p) wl.p ul bl)
    (hTr : Tr = stress (schwarzschild m r θ) (schwarzschild m r θ)⁻¹ (wr.rho + gam/(gam-1)*wr.p) wr.p ur br) :
    interfaceFlux d (schM d (Real.sqrt (1 - 2*m/r)) r |Real.sin θ|) (schE d (Real.sqrt (1 - 2*m/r)) r |Real.sin θ|)
      (schMetric m r (Real.sin θ ^ 2)) (schInverse m r (Real.sin θ ^ 2)) (cycRead d) gam lamL lamR bbn wl wr
    = hlleFlux (coordSpeed (schwarzschild m r θ)⁻¹ d.succ lamL) (coordSpeed (schwarzschild m r θ)⁻¹ d.succ lamR)
        (current d (schwarzschild m r θ) Tl wl.rho ul bl d.succ) (current d (schwarzschild m r θ) Tr wr.rho ur br d.succ)
        (current d (schwarzschild m r θ) Tl wl.rho ul bl 0) (current d (schwarzschild m r θ) Tr wr.rho ur br 0) := by
  have F := sch_frame h hr (abs_pos.mpr hs) hd
  rw [sq_abs, metric_schwarzschild h] at F
  rw [metric_schwarzschild h, inverse_schwarzschild h hr.ne' hs]
  exact interface_exact F (schwarzschild_isMetric h hr.ne' hs) gam bbn hlam wl wr hul hbl hur hbr hTl hTr _ (Or.inl rfl)

/-- C80 does not hold for the surfaces of constant `θ`: `PrimToLocal2` multiplies `u^2` by `1/r` where the metric asks
for `r` (schwarzschild.cpp:928), so the mass flux between equal states is the flux `ρ u^2` divided by `r²`. -/
theorem theta_mass_flux {m r θ : ℝ} (h : 2*m/r < 1) (hr : 0 < r) (hs : Real.sin θ ≠ 0) (gam bbn : ℝ)
    {lamL lamR : ℝ} (hlam : lamL < lamR) (w : FacePrim) {u : V4}
    (hu : FourVel (schwarzschild m r θ) (schwarzschild m r θ)⁻¹ (slotVec w.v) u) :
    (interfaceFlux 1 (schM 1 (Real.sqrt (1 - 2*m/r)) r |Real.sin θ|) (schE 1 (Real.sqrt (1 - 2*m/r)) r |Real.sin θ|)
      (schMetric m r (Real.sin θ ^ 2)) (schInverse m r (Real.sin θ ^ 2)) (cycRead 1) gam lamL lamR bbn w w).dn
    = w.rho * u 2 / r^2 := by
  have hp := hu.proj 2 (by decide)
  rw [← inverse_schwarzschild h hr.ne' hs] at hp
  have e0 : schInverse m r (Real.sin θ ^ 2) 0 2 = 0 := rfl
  have e1 : slotVec w.v 2 = w.v 1 := rfl
  rw [e0, e1] at hp
  have hz : lamR - lamL ≠ 0 := sub_ne_zero.mpr hlam.ne'
  have hu2 : u 2 = w.v 1 := by rw [hp]; ring
  rw [hu2]
  have hux : ∀ bb : ℝ, (solverSide 1 gam bb (primToLocal 1 (schM 1 (Real.sqrt (1 - 2*m/r)) r |Real.sin θ|)
      (schMetric m r (Real.sin θ ^ 2)) (schInverse m r (Real.sin θ ^ 2)) bbn w).1).2.dn = w.rho * (w.v 1 / r) := by
    intro bb
    change w.rho * (0 * _ + 1/r * w.v 1 + 0 * _) = _
    ring
  have fin : ∀ (cons flux : Wave) (bbx : ℝ), (fluxToGlobal 1 (schE 1 (Real.sqrt (1 - 2*m/r)) r |Real.sin θ|)
      (schMetric m r (Real.sin θ ^ 2)) (cycRead 1) cons bbx flux).dn = flux.dn / r := by
    intro cons flux bbx
    change 0 * cons.dn + 1/r * flux.dn = _
    ring
  rw [interfaceFlux, fin, hlleLocal]
  have done : ∀ x : ℝ, x = w.rho * (w.v 1 / r) → x / r = w.rho * w.v 1 / r^2 := by
    intro x hx; rw [hx]; field_simp
  refine done _ ?_
  by_cases a : lamL ≥ vInterface 1 (schInverse m r (Real.sin θ ^ 2))
  · rw [if_pos a, hux]
  · rw [if_neg a]
    by_cases b : lamR ≤ vInterface 1 (schInverse m r (Real.sin θ ^ 2))
    · rw [if_pos b, hux]
    · rw [if_neg b]
      simp only [Wave.lin]
      rw [hux]
      field_simp
      ring

/-- So no mass flux through these surfaces is right unless `r = 1` or the fluid does not cross them. -/
theorem theta_mass_flux_wrong {m r θ : ℝ} (h : 2*m/r < 1) (hr : 0 < r) (hr1 : r ≠ 1) (hs : Real.sin θ ≠ 0)
    (gam bbn : ℝ) {lamL lamR : ℝ} (hlam : lamL < lamR) (w : FacePrim) (hrho : w.rho ≠ 0) {u : V4}
    (hu : FourVel (schwarzschild m r θ) (schwarzschild m r θ)⁻¹ (slotVec w.v) u) (hu2 : u 2 ≠ 0) :
    (interfaceFlux 1 (schM 1 (Real.sqrt (1 - 2*m/r)) r |Real.sin θ|) (schE 1 (Real.sqrt (1 - 2*m/r)) r |Real.sin θ|)
      (schMetric m r (Real.sin θ ^ 2)) (schInverse m r (Real.sin θ ^ 2)) (cycRead 1) gam lamL lamR bbn w w).dn
    ≠ w.rho * u 2 := by
  rw [theta_mass_flux h hr hs gam bbn hlam w hu]
  intro e
  rw [div_eq_iff (by positivity)] at e
  have : w.rho * u 2 * (r^2 - 1) = 0 := by linarith
  rcases mul_eq_zero.mp this with h' | h'
  · exact mul_ne_zero hrho hu2 h'
  · have : (r - 1) * (r + 1) = 0 := by linarith
    rcases mul_eq_zero.mp this with h' | h'
    · exact hr1 (by linarith)
    · linarith

/-- A case of the three statements: `m = 1`, `r = 6`, the equatorial plane, a fluid that crosses it. -/
example : ∃ (w : FacePrim) (u b : V4), w.rho = 1 ∧ u 2 ≠ 0
    ∧ FourVel (schwarzschild 1 6 (Real.pi/2)) (schwarzschild 1 6 (Real.pi/2))⁻¹ (slotVec w.v) u
    ∧ FourField (schwarzschild 1 6 (Real.pi/2)) u (slotVec (cyc 0 3 w.bby w.bbz)) b := by
  have h : 2*(1:ℝ)/6 < 1 := by norm_num
  have hs : Real.sin (Real.pi/2) ≠ 0 := by rw [Real.sin_pi_div_two]; norm_num
  have hsl := schwarzschild_slices h (by norm_num) hs
  obtain ⟨u, b, hu, hb, -⟩ := state_determined (schwarzschild_isMetric h (by norm_num) hs) hsl.1 hsl.2 true
    ⟨1, 1, 1/2, 1/4, 1/3, 3, 0, 2⟩
  refine ⟨⟨1, 1, ![1/2, 1/4, 1/3], 0, 2⟩, u, b, rfl, ?_, hu, hb⟩
  have hp := hu.proj 2 (by decide)
  rw [← inverse_schwarzschild h (by norm_num) hs] at hp
  have e0 : schInverse 1 6 (Real.sin (Real.pi/2) ^ 2) 0 2 = 0 := rfl
  have e1 : State.vel ⟨1, 1, 1/2, 1/4, 1/3, 3, 0, 2⟩ 2 = 1/4 := rfl
  rw [e0, e1] at hp
  rw [hp]; norm_num

/-! ## Kerr-Schild -/

/-- C80: in the coordinates of Kerr and Schild, in all directions. -/
theorem interface_kerr {m a r θ : ℝ} (hm : 0 ≤ m) (hr : 0 < r) (hs : Real.sin θ ≠ 0) (d : Fin 3)
    (gam bbn : ℝ) {lamL lamR : ℝ} (hlam : lamL < lamR) (wl wr : FacePrim) {ul bl ur br : V4}
    (hul : FourVel (kerr m a r θ) (kerr m a r θ)⁻¹ (slotVec wl.v) ul)
    (hbl : FourField (kerr m a r θ) ul (slotVec (cyc d bbn wl.bby wl.bbz)) bl)
    (hur : FourVel (kerr m a r θ) (kerr m a r θ)⁻¹ (slotVec wr.v) ur)
    (hbr : FourField (kerr m a r θ) ur (slotVec (cyc d bbn wr.bby wr.bbz)) br) {Tl Tr : M4}
    (hTl : Tl = stress (kerr m a r θ) (kerr m a r θ)⁻¹ (wl.rho + gam/(gam-1)*wl.p) wl.p ul bl)
    (hTr : Tr = stress (kerr m a r θ) (kerr m a r θ)⁻¹ (wr.rho + gam/(gam-1)*wr.p) wr.p ur br) :
    interfaceFlux d (ksM d m a r (Real.sin θ) (Real.cos θ)) (ksE d (ksM d m a r (Real.sin θ) (Real.cos θ)))
      (ksMetric m a r (Real.sin θ ^ 2) (Real.cos θ ^ 2)) (ksInverse m a r (Real.sin θ ^ 2) (Real.cos θ ^ 2))
      (cycRead d) gam lamL lamR bbn wl wr
    = hlleFlux (coordSpeed (kerr m a r θ)⁻¹ d.succ lamL) (coordSpeed (kerr m a r θ)⁻¹ d.succ lamR)
        (current d (kerr m a r θ) Tl wl.rho ul bl d.succ) (current d (kerr m a r θ) Tr wr.rho ur br d.succ)
        (current d (kerr m a r θ) Tl wl.rho ul bl 0) (current d (kerr m a r θ) Tr wr.rho ur br 0) := by
  have F := ks_frame (a := a) hm hr hs (Real.sin_sq_add_cos_sq θ) d
  rw [metric_kerr] at F
  rw [metric_kerr, inverse_kerr hr.ne' hs]
  exact interface_exact F (kerr_isMetric hr.ne' hs) gam bbn hlam wl wr hul hbl hur hbr hTl hTr _ (Or.inl rfl)

/-- A case of the statement: a black hole with `a = 1/2`, the equatorial plane, inside the horizon (`r = 1`), where the
interfaces of constant `r` move outwards faster than light. -/
example : ∃ (wl wr : FacePrim) (ul bl ur br : V4), wl.rho ≠ wr.rho
    ∧ FourVel (kerr 1 (1/2) 1 (Real.pi/2)) (kerr 1 (1/2) 1 (Real.pi/2))⁻¹ (slotVec wl.v) ul
    ∧ FourField (kerr 1 (1/2) 1 (Real.pi/2)) ul (slotVec (cyc 0 3 wl.bby wl.bbz)) bl
    ∧ FourVel (kerr 1 (1/2) 1 (Real.pi/2)) (kerr 1 (1/2) 1 (Real.pi/2))⁻¹ (slotVec wr.v) ur
    ∧ FourField (kerr 1 (1/2) 1 (Real.pi/2)) ur (slotVec (cyc 0 3 wr.bby wr.bbz)) br := by
  have hs : Real.sin (Real.pi/2) ≠ 0 := by rw [Real.sin_pi_div_two]; norm_num
  have hsl := kerr_slices (m := 1) (a := 1/2) (r := 1) (by norm_num) (by norm_num) hs
  have hm := kerr_isMetric (m := 1) (a := 1/2) (r := 1) (by norm_num) hs
  obtain ⟨u, b, hu, hb, -⟩ := state_determined hm hsl.1 hsl.2 true ⟨1, 1, 1/2, 0, 1/3, 3, 0, 2⟩
  obtain ⟨u', b', hu', hb', -⟩ := state_determined hm hsl.1 hsl.2 true ⟨2, 1, 0, 1/5, 1/3, 3, 1, 1⟩
  exact ⟨⟨1, 1, ![1/2, 0, 1/3], 0, 2⟩, ⟨2, 1, ![0, 1/5, 1/3], 1, 1⟩, u, b, u', b', by norm_num, hu, hb, hu', hb'⟩

/-! ## User-defined metrics -/

/-- C80: with a metric of the user, through the surfaces of constant `x^1`; through the others only where the shift has
no component across them (`g^{0n} = 0`): see `user_momentum_flux_wrong`. -/
theorem interface_user_partial {g gi : M4} (h : IsMetric g gi) (hp : Spacelike g gi) {d : Fin 3}
    (hd : d = 0 ∨ gi 0 d.succ = 0)
    (gam bbn : ℝ) {lamL lamR : ℝ} (hlam : lamL < lamR) (wl wr : FacePrim) {ul bl ur br : V4}
    (hul : FourVel g gi (slotVec wl.v) ul) (hbl : FourField g ul (slotVec (cyc d bbn wl.bby wl.bbz)) bl)
    (hur : FourVel g gi (slotVec wr.v) ur) (hbr : FourField g ur (slotVec (cyc d bbn wr.bby wr.bbz)) br) {Tl Tr : M4}
    (hTl : Tl = stress g gi (wl.rho + gam/(gam-1)*wl.p) wl.p ul bl)
    (hTr : Tr = stress g gi (wr.rho + gam/(gam-1)*wr.p) wr.p ur br) :
    interfaceFlux d (userM d g gi) (userE d g gi) g gi userRead gam lamL lamR bbn wl wr
    = hlleFlux (coordSpeed gi d.succ lamL) (coordSpeed gi d.succ lamR)
        (current d g Tl wl.rho ul bl d.succ) (current d g Tr wr.rho ur br d.succ)
        (current d g Tl wl.rho ul bl 0) (current d g Tr wr.rho ur br 0) := by
  refine interface_exact (user_frame h hp d) h gam bbn hlam wl wr hul hbl hur hbr hTl hTr _ ?_
  rcases hd with hd | hd
  · left
    rw [hd]
    funext k
    simp only [userRead, cycRead, zero_add]
  · right
    have e : axis d 1 = d.succ := rfl
    change userT0 _ _ (axisOf d d.succ) 0 = 0
    rw [axisOf_succ]
    change _ * gi (axis d 0) (axis d 1) = 0
    rw [e]
    change _ * gi 0 d.succ = 0
    rw [hd, mul_zero]

/-- Were the momenta read from the slots in which the solver leaves them, there would be no exception. -/
theorem interface_user_read {g gi : M4} (h : IsMetric g gi) (hp : Spacelike g gi) (d : Fin 3)
    (gam bbn : ℝ) {lamL lamR : ℝ} (hlam : lamL < lamR) (wl wr : FacePrim) {ul bl ur br : V4}
    (hul : FourVel g gi (slotVec wl.v) ul) (hbl : FourField g ul (slotVec (cyc d bbn wl.bby wl.bbz)) bl)
    (hur : FourVel g gi (slotVec wr.v) ur) (hbr : FourField g ur (slotVec (cyc d bbn wr.bby wr.bbz)) br) {Tl Tr : M4}
    (hTl : Tl = stress g gi (wl.rho + gam/(gam-1)*wl.p) wl.p ul bl)
    (hTr : Tr = stress g gi (wr.rho + gam/(gam-1)*wr.p) wr.p ur br) :
    interfaceFlux d (userM d g gi) (userE d g gi) g gi (cycRead d) gam lamL lamR bbn wl wr
    = hlleFlux (coordSpeed gi d.succ lamL) (coordSpeed gi d.succ lamR)
        (current d g Tl wl.rho ul bl d.succ) (current d g Tr wr.rho ur br d.succ)
        (current d g Tl wl.rho ul bl 0) (current d g Tr wr.rho ur br 0) :=
  interface_exact (user_frame h hp d) h gam bbn hlam wl wr hul hbl hur hbr hTl hTr _ (Or.inl rfl)

/-- Flat space-time in coordinates that drift along `x^2`: `-dt² + dx² + (dy + β dt)² + dz²`. -/
def drift (β : ℝ) : M4 := fun μ ν =>
  -(![1, 0, 0, 0] μ * ![1, 0, 0, 0] ν) + ![0, 1, 0, 0] μ * ![0, 1, 0, 0] ν + ![β, 0, 1, 0] μ * ![β, 0, 1, 0] ν
  + ![0, 0, 0, 1] μ * ![0, 0, 0, 1] ν

def driftInv (β : ℝ) : M4 := fun μ ν =>
  -(![1, 0, -β, 0] μ * ![1, 0, -β, 0] ν) + ![0, 1, 0, 0] μ * ![0, 1, 0, 0] ν + ![0, 0, 1, 0] μ * ![0, 0, 1, 0] ν
  + ![0, 0, 0, 1] μ * ![0, 0, 0, 1] ν

theorem drift_metric (β : ℝ) : IsMetric (drift β) (driftInv β) ∧ Spacelike (drift β) (driftInv β) := by
  refine ⟨⟨fun μ ν => by simp only [drift]; ring, symMul_one fun i j => ?_⟩, by simp [driftInv], fun v h0 hv => ?_⟩
  · fin_cases i <;> fin_cases j <;> simp [drift, driftInv]
    ring
  · have e : dot (drift β) v v = v 1^2 + v 2^2 + v 3^2 := by
      simp [dot, sum4, drift, h0]; ring
    rw [e]
    by_contra hc
    refine hv (funext fun i => ?_)
    have a1 : v 1 = 0 := by nlinarith [sq_nonneg (v 1), sq_nonneg (v 2), sq_nonneg (v 3)]
    have a2 : v 2 = 0 := by nlinarith [sq_nonneg (v 1), sq_nonneg (v 2), sq_nonneg (v 3)]
    have a3 : v 3 = 0 := by nlinarith [sq_nonneg (v 1), sq_nonneg (v 2), sq_nonneg (v 3)]
    fin_cases i
    · exact h0
    · exact a1
    · exact a2
    · exact a3

/-- C80 does not hold through the other surfaces if the shift crosses them: `FluxToGlobal2`, `FluxToGlobal3` of
gr_user.cpp read the momenta from `IM1`, `IM2`, `IM3`, whereas the solver leaves `M_x`, `M_y`, `M_z` in `IM2`, `IM3`,
`IM1` (`IM3`, `IM1`, `IM2`). In coordinates that drift along `x^2`, a uniform fluid that moves along `x^1` should carry
its momentum `m_1` through the surfaces of constant `x^2`; the code finds none. -/
theorem user_momentum_flux_wrong {β v : ℝ} (hβ : β ≠ 0) (hv : v ≠ 0) {gam rho p : ℝ}
    (hw : rho + gam/(gam-1)*p ≠ 0) (lamL lamR : ℝ) {w : FacePrim}
    (hwd : w = ⟨rho, p, ![v, 0, 0], 0, 0⟩) {u b : V4} (hu : FourVel (drift β) (driftInv β) (slotVec w.v) u)
    (hb : FourField (drift β) u (slotVec (cyc 1 0 w.bby w.bbz)) b) {T : M4}
    (hT : T = stress (drift β) (driftInv β) (rho + gam/(gam-1)*p) p u b) :
    (interfaceFlux 1 (userM 1 (drift β) (driftInv β)) (userE 1 (drift β) (driftInv β)) (drift β) (driftInv β) userRead gam
      lamL lamR 0 w w).mom 0 = 0
    ∧ (current 1 (drift β) T rho u b 2).mom 0 ≠ 0 := by
  have hm := drift_metric β
  have hg := hm.1
  constructor
  · have hp : ∃ z, primToLocal 1 (userM 1 (drift β) (driftInv β)) (drift β) (driftInv β) 0 w
        = (⟨rho, p, cyc 1 0 0 z, 0, 0⟩, 0) := by
      have s1 : slotVec w.v 1 = v := by rw [hwd]; rfl
      have s2 : slotVec w.v 2 = 0 := by rw [hwd]; rfl
      have s3 : slotVec w.v 3 = 0 := by rw [hwd]; rfl
      have z : ∀ i, slotVec (cyc 1 0 w.bby w.bbz) i = 0 := by
        intro i; rw [hwd]; fin_cases i <;> rfl
      have m1 : userM 1 (drift β) (driftInv β) 1 1 = 0 := rfl
      have m2 : userM 1 (drift β) (driftInv β) 2 1 = 0 := rfl
      have hr : w.rho = rho := by rw [hwd]
      have hp : w.p = p := by rw [hwd]
      refine ⟨userM 1 (drift β) (driftInv β) 3 1 * v, ?_⟩
      unfold primToLocal
      simp only [z, s1, s2, s3, m1, m2, hr, hp, mul_zero, zero_mul, add_zero, zero_div, sub_zero]
    obtain ⟨z, hz⟩ := hp
    have hs : (solverSide 1 gam 0 ⟨rho, p, cyc 1 0 0 z, 0, 0⟩).1.mom 2 = 0
        ∧ (solverSide 1 gam 0 ⟨rho, p, cyc 1 0 0 z, 0, 0⟩).2.mom 0 = 0 := by
      constructor <;> simp [solverSide, cyc]
    have row : ∀ j, j ≠ 3 → userE 1 (drift β) (driftInv β) 1 j = 0 := by
      intro j hj
      have e0 : permute 1 (driftInv β) 0 3 = 0 := by simp [permute, axis, driftInv]
      have e1 : permute 1 (driftInv β) 1 3 = 0 := by simp [permute, axis, driftInv]
      have e2 : permute 1 (drift β) 2 3 = 0 := by simp [permute, axis, drift]
      change userT0 _ _ 3 j = 0
      simp only [userT0, e0, e1, e2]
      fin_cases j
      · simp
      · simp
      · simp
      · exact absurd rfl hj
    have d0 : drift β 0 1 = 0 := by simp [drift]
    have d1 : drift β 1 2 = 0 := by simp [drift]
    have d2 : drift β 1 3 = 0 := by simp [drift]
    have fin : ∀ (cons flux : Wave) (bbx : ℝ), cons.mom 2 = 0 → flux.mom 0 = 0 →
        (fluxToGlobal 1 (userE 1 (drift β) (driftInv β)) (drift β) userRead cons bbx flux).mom 0 = 0 := by
      intro cons flux bbx hc hf
      have e : (1 : Fin 3) + 2 = 0 := rfl
      simp only [fluxToGlobal, userRead, e, Matrix.cons_val_zero, d0, d1, d2, hc, hf, row 0 (by decide),
        row 1 (by decide), row 2 (by decide), zero_mul, mul_zero, add_zero]
    rw [interfaceFlux, hz]
    rw [show (1:ℝ)/2 * ((0:ℝ) + 0) = 0 by norm_num, hlleLocal]
    by_cases a : lamL ≥ vInterface 1 (driftInv β)
    · rw [if_pos a]; exact fin _ _ _ hs.1 hs.2
    · rw [if_neg a]
      by_cases c : lamR ≤ vInterface 1 (driftInv β)
      · rw [if_pos c]; exact fin _ _ _ hs.1 hs.2
      · rw [if_neg c]
        refine fin _ _ _ ?_ ?_
        · simp only [Wave.lin, hs.1]; ring
        · simp only [Wave.lin, hs.2]; ring
  · have hb0 : b = 0 := by
      refine fourField_unique hu ?_ hb ⟨?_, fun i _ => ?_⟩
      · rfl
      · simp [dot]
      · rw [hwd]; fin_cases i <;> simp [slotVec, cyc]
    have h1 := hu.proj 1 (by decide)
    have h2 := hu.proj 2 (by decide)
    have s1 : slotVec w.v 1 = v := by rw [hwd]; rfl
    have s2 : slotVec w.v 2 = 0 := by rw [hwd]; rfl
    have g00 : driftInv β 0 0 = -1 := by simp [driftInv]
    have g01 : driftInv β 0 1 = 0 := by simp [driftInv]
    have g02 : driftInv β 0 2 = β := by simp [driftInv]
    have g21 : driftInv β 2 1 = 0 := by simp [driftInv]
    rw [s1, g00, g01] at h1
    rw [s2, g00, g02] at h2
    have e : (current 1 (drift β) T rho u b 2).mom 0 = -((rho + gam/(gam-1)*p) * (β * u 0 * v)) := by
      change lowerSecond (drift β) T 2 1 = _
      simp only [lowerSecond, sum4, hT, stress]
      rw [g21, hb0]
      have d0 : drift β 1 0 = 0 := by simp [drift]
      have d1 : drift β 1 1 = 1 := by simp [drift]
      have d2 : drift β 1 2 = 0 := by simp [drift]
      have d3 : drift β 1 3 = 0 := by simp [drift]
      have dd : dot (drift β) 0 0 = 0 := by simp [dot]
      rw [d0, d1, d2, d3, dd, h1, h2]
      simp only [Pi.zero_apply]
      ring
    rw [e, neg_ne_zero]
    exact mul_ne_zero hw (mul_ne_zero (mul_ne_zero hβ hu.future.ne') hv)

/-- There is such a fluid. -/
example : ∃ u b, FourVel (drift (1/2)) (driftInv (1/2)) (slotVec ![1/3, 0, 0]) u
    ∧ FourField (drift (1/2)) u (slotVec (cyc 1 0 0 0)) b := by
  obtain ⟨hm, hp⟩ := drift_metric (1/2)
  have hp' : ∀ v : V4, v 0 = 0 → 0 ≤ dot (drift (1/2)) v v := by
    intro v hv
    by_cases h : v = 0
    · rw [h]; simp [dot]
    · exact (hp.pos v hv h).le
  obtain ⟨u, b, hu, hb, -⟩ := state_determined hm hp.time hp' true ⟨1, 1, 1/3, 0, 0, 0, 0, 0⟩
  exact ⟨u, b, hu, hb⟩

end Verif.Gr
