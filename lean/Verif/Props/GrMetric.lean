import Verif.Lemmas.GrDeriv
import Mathlib.Analysis.SpecialFunctions.Trigonometric.Basic

/-!
# C79: metrics of the general relativistic coordinates and their geometric source terms

The statements use `schwarzschild`, `kerr`, `IsMetric`, `FourVel`, `FourField`, `stress`, `force` of Spec/GrTensor and
nothing else of the model than the functions about which they speak.
-/
namespace Verif.Gr

/-! ## Metrics -/

/-- C79: `CellMetric` and `Face*Metric` of schwarzschild.cpp are Schwarzschild's metric outside the horizon. -/
theorem metric_schwarzschild {m r : ℝ} (h : 2*m/r < 1) (θ : ℝ) :
    schMetric m r (Real.sin θ ^ 2) = schwarzschild m r θ := by
  rw [schMetric, sch_alpha h, schwarzschild]
  funext i j
  fin_cases i <;> fin_cases j <;> rfl

example : (2 * (1 : ℝ) / 6 < 1) := by norm_num

/-- C79: `CellMetric` and `Face*Metric` of kerr-schild.cpp are Kerr's metric in the form of Kerr and Schild. -/
theorem metric_kerr (m a r θ : ℝ) :
    ksMetric m a r (Real.sin θ ^ 2) (Real.cos θ ^ 2) = kerr m a r θ := by
  have h := Real.sin_sq_add_cos_sq θ
  have e : r^2 + a^2 = (r^2 + a^2 * Real.cos θ ^ 2) + a^2 * Real.sin θ ^ 2 := by linear_combination -a^2 * h
  have p : ∀ μ ν : Fin 4, ksMetric m a r (Real.sin θ ^ 2) (Real.cos θ ^ 2) μ ν
      = sym (-(1 - 2*m*r/(r^2 + a^2 * Real.cos θ ^ 2))) (2*m*r/(r^2 + a^2 * Real.cos θ ^ 2)) 0
        (-2*m*a*r/(r^2 + a^2 * Real.cos θ ^ 2) * Real.sin θ ^ 2) (1 + 2*m*r/(r^2 + a^2 * Real.cos θ ^ 2)) 0
        (-(1 + 2*m*r/(r^2 + a^2 * Real.cos θ ^ 2)) * a * Real.sin θ ^ 2) (r^2 + a^2 * Real.cos θ ^ 2) 0
        (((r^2 + a^2 * Real.cos θ ^ 2) + a^2 * Real.sin θ ^ 2
          + 2*m*a^2*r/(r^2 + a^2 * Real.cos θ ^ 2) * Real.sin θ ^ 2) * Real.sin θ ^ 2) μ ν := by
    intro μ ν
    rw [← e]; rfl
  funext i j
  rw [p i j]
  simp only [kerr, spheroidal]
  generalize r^2 + a^2 * Real.cos θ ^ 2 = S
  fin_cases i <;> fin_cases j <;>
    simp [sym, Matrix.cons_val_zero, Matrix.cons_val_one] <;> ring

/-- C79: the contravariant components stored next to the metric are its inverse. -/
theorem inverse_schwarzschild {m r θ : ℝ} (h : 2*m/r < 1) (hr : r ≠ 0) (hs : Real.sin θ ≠ 0) :
    schInverse m r (Real.sin θ ^ 2) = (schwarzschild m r θ)⁻¹ := by
  rw [← metric_schwarzschild h]
  exact (Matrix.inv_eq_right_inv (sch_isMetric h hr (pow_ne_zero 2 hs)).inv).symm

/-- C79: the same for the metric of Kerr and Schild, away from the ring `r = 0`. -/
theorem inverse_kerr {m a r θ : ℝ} (hr : r ≠ 0) (hs : Real.sin θ ≠ 0) :
    ksInverse m a r (Real.sin θ ^ 2) (Real.cos θ ^ 2) = (kerr m a r θ)⁻¹ := by
  have hS : r^2 + a^2 * Real.cos θ ^ 2 ≠ 0 := by positivity
  rw [← metric_kerr]
  exact (Matrix.inv_eq_right_inv
    (ks_isMetric (Real.sin_sq_add_cos_sq θ) hS (pow_ne_zero 2 hs)).inv).symm

example : ∃ θ : ℝ, Real.sin θ ≠ 0 := ⟨Real.pi/2, by rw [Real.sin_pi_div_two]; norm_num⟩

/-- Both metrics are metrics: symmetric, with the inverse used in the statements below. -/
theorem schwarzschild_isMetric {m r θ : ℝ} (h : 2*m/r < 1) (hr : r ≠ 0) (hs : Real.sin θ ≠ 0) :
    IsMetric (schwarzschild m r θ) (schwarzschild m r θ)⁻¹ := by
  rw [← inverse_schwarzschild h hr hs, ← metric_schwarzschild h]
  exact sch_isMetric h hr (pow_ne_zero 2 hs)

theorem kerr_isMetric {m a r θ : ℝ} (hr : r ≠ 0) (hs : Real.sin θ ≠ 0) :
    IsMetric (kerr m a r θ) (kerr m a r θ)⁻¹ := by
  have hS : r^2 + a^2 * Real.cos θ ^ 2 ≠ 0 := by positivity
  rw [← inverse_kerr hr hs, ← metric_kerr]
  exact ks_isMetric (Real.sin_sq_add_cos_sq θ) hS (pow_ne_zero 2 hs)

/-! ## Raising and lowering indices -/

/-- C79: `LowerVectorCell` multiplies by the metric and `RaiseVectorCell` by its inverse, so each undoes the other. -/
theorem lower_raise_schwarzschild {m r θ : ℝ} (h : 2*m/r < 1) (hr : r ≠ 0) (hs : Real.sin θ ≠ 0) (v : V4) :
    schLower m r (Real.sin θ ^ 2) v = (schwarzschild m r θ).mulVec v
    ∧ schRaise m r (Real.sin θ ^ 2) (schLower m r (Real.sin θ ^ 2) v) = v
    ∧ schLower m r (Real.sin θ ^ 2) (schRaise m r (Real.sin θ ^ 2) v) = v := by
  have ha : schAlphaSq m r ≠ 0 := by rw [sch_alpha h]; linarith
  have e : schLower m r (Real.sin θ ^ 2) = (schwarzschild m r θ).mulVec := by
    funext v i
    rw [← metric_schwarzschild h]
    simp only [Matrix.mulVec, dotProduct, sum4, schMetric, schLower]
    fin_cases i <;> simp [sym]
  refine ⟨by rw [e], ?_, ?_⟩
  · funext i
    simp only [schRaise, schLower]
    generalize schAlphaSq m r = A at ha
    fin_cases i <;> simp <;> field_simp
  · funext i
    simp only [schRaise, schLower]
    generalize schAlphaSq m r = A at ha
    fin_cases i <;> simp <;> field_simp

/-- C79: the same for kerr-schild.cpp. -/
theorem lower_raise_kerr {m a r θ : ℝ} (hr : r ≠ 0) (hs : Real.sin θ ≠ 0) (v : V4) :
    ksLower m a r (Real.sin θ ^ 2) (Real.cos θ ^ 2) v = (kerr m a r θ).mulVec v
    ∧ ksRaise m a r (Real.sin θ ^ 2) (Real.cos θ ^ 2) (ksLower m a r (Real.sin θ ^ 2) (Real.cos θ ^ 2) v) = v
    ∧ ksLower m a r (Real.sin θ ^ 2) (Real.cos θ ^ 2) (ksRaise m a r (Real.sin θ ^ 2) (Real.cos θ ^ 2) v) = v := by
  have hm := kerr_isMetric (m := m) (a := a) hr hs
  have e1 : ∀ v, ksLower m a r (Real.sin θ ^ 2) (Real.cos θ ^ 2) v = (kerr m a r θ).mulVec v := by
    intro v; funext i
    rw [← metric_kerr]
    simp only [Matrix.mulVec, dotProduct, sum4]
    fin_cases i <;> rfl
  have e2 : ∀ v, ksRaise m a r (Real.sin θ ^ 2) (Real.cos θ ^ 2) v = (kerr m a r θ)⁻¹.mulVec v := by
    intro v; funext i
    rw [← inverse_kerr hr hs]
    simp only [Matrix.mulVec, dotProduct, sum4]
    fin_cases i <;> rfl
  refine ⟨e1 v, ?_, ?_⟩
  · rw [e2, e1, Matrix.mulVec_mulVec, mul_eq_one_comm.mp hm.inv, Matrix.one_mulVec]
  · rw [e1, e2, Matrix.mulVec_mulVec, hm.inv, Matrix.one_mulVec]

/-- C79: with a user-defined metric the two functions undo each other exactly when the arrays written by the user's
function are inverse to each other. -/
theorem lower_raise_user {g gi : M4} (hg : ∀ μ ν, g μ ν = g ν μ) (hgi : ∀ μ ν, gi μ ν = gi ν μ) :
    (∀ v, userApply gi (userApply g v) = v ∧ userApply g (userApply gi v) = v) ↔ IsMetric g gi := by
  have e : ∀ {g : M4}, (∀ μ ν, g μ ν = g ν μ) → ∀ v, userApply g v = g.mulVec v := by
    intro g hg v; funext i
    simp only [Matrix.mulVec, dotProduct, sum4]
    fin_cases i
    · rfl
    · change g 0 1*v 0 + g 1 1*v 1 + g 1 2*v 2 + g 1 3*v 3 = g 1 0*v 0 + g 1 1*v 1 + g 1 2*v 2 + g 1 3*v 3
      rw [hg 1 0]
    · change g 0 2*v 0 + g 1 2*v 1 + g 2 2*v 2 + g 2 3*v 3 = g 2 0*v 0 + g 2 1*v 1 + g 2 2*v 2 + g 2 3*v 3
      rw [hg 2 0, hg 2 1]
    · change g 0 3*v 0 + g 1 3*v 1 + g 2 3*v 2 + g 3 3*v 3 = g 3 0*v 0 + g 3 1*v 1 + g 3 2*v 2 + g 3 3*v 3
      rw [hg 3 0, hg 3 1, hg 3 2]
  constructor
  · intro h
    refine ⟨hg, ?_⟩
    apply Matrix.ext_of_mulVec_single
    intro i
    have := (h (Pi.single i 1)).2
    rw [e hg, e hgi, Matrix.mulVec_mulVec] at this
    rw [this, Matrix.one_mulVec]
  · intro h v
    rw [e hg, e hgi, e hgi, e hg, Matrix.mulVec_mulVec, Matrix.mulVec_mulVec, h.inv, mul_eq_one_comm.mp h.inv,
      Matrix.one_mulVec]
    exact ⟨rfl, rfl⟩

/-! ## Velocity and field of a state -/

/-- The primitive variables determine the four-velocity and the field in the frame of the fluid: both exist and are
unique, for every metric whose surfaces of constant time are spacelike. -/
theorem state_determined {g gi : M4} (h : IsMetric g gi) (h0 : gi 0 0 < 0)
    (hp : ∀ v : V4, v 0 = 0 → 0 ≤ dot g v v) (mhd : Bool) (w : State) :
    ∃ u b, FourVel g gi w.vel u ∧ FourField g u (w.fld mhd) b
      ∧ ∀ u' b', FourVel g gi w.vel u' → FourField g u' (w.fld mhd) b' → u' = u ∧ b' = b := by
  have z := vel_fld_zero mhd w
  have hu := velOf_fourVel h h0 _ z.1 (hp _ z.1)
  have hb := fieldOf_fourField h hu _ z.2
  refine ⟨_, _, hu, hb, fun u' b' hu' hb' => ?_⟩
  have e := fourVel_unique h h0 z.1 hu' hu
  subst e
  exact ⟨rfl, fourField_unique hu z.2 hb' hb⟩

/-- Its hypotheses hold for Schwarzschild's metric outside the horizon … -/
theorem schwarzschild_slices {m r θ : ℝ} (h : 2*m/r < 1) (hr : r ≠ 0) (hs : Real.sin θ ≠ 0) :
    (schwarzschild m r θ)⁻¹ 0 0 < 0 ∧ ∀ v : V4, v 0 = 0 → 0 ≤ dot (schwarzschild m r θ) v v := by
  constructor
  · rw [← inverse_schwarzschild h hr hs]
    change -1 / schAlphaSq m r < 0
    have ha : 0 < schAlphaSq m r := by rw [sch_alpha h]; linarith
    rw [neg_div, neg_lt_zero]; positivity
  · intro v hv
    rw [← metric_schwarzschild h]
    exact sch_spacelike h _ (sq_nonneg _) v hv

/-- … and for the metric of Kerr and Schild everywhere, inside the horizon too. -/
theorem kerr_slices {m a r θ : ℝ} (hm : 0 ≤ m) (hr : 0 < r) (hs : Real.sin θ ≠ 0) :
    (kerr m a r θ)⁻¹ 0 0 < 0 ∧ ∀ v : V4, v 0 = 0 → 0 ≤ dot (kerr m a r θ) v v := by
  constructor
  · rw [← inverse_kerr hr.ne' hs]
    change -(1 + 2*m*r/(r^2 + a^2 * Real.cos θ ^ 2)) < 0
    have : 0 ≤ 2*m*r/(r^2 + a^2 * Real.cos θ ^ 2) := by positivity
    linarith
  · exact fun v hv => ks_spacelike hm hr v hv

/-! ## Source terms -/

/-- C79: `AddCoordTermsDivergence` of schwarzschild.cpp adds `dt ∂_r g_{μν} T^{μν} / 2` and `dt ∂_θ g_{μν} T^{μν} / 2` to
the momenta and nothing to the energy and to the angular momentum. `T` is the stress-energy tensor of the state, and
`d1`, `d2` are the derivatives of Schwarzschild's metric. -/
theorem sources_schwarzschild {m r θ : ℝ} (h : 2*m/r < 1) (hr : r ≠ 0) (hs : Real.sin θ ≠ 0)
    {d1 d2 : M4} (h1 : ∀ μ ν, HasDerivAt (fun r => schwarzschild m r θ μ ν) (d1 μ ν) r)
    (h2 : ∀ μ ν, HasDerivAt (fun θ => schwarzschild m r θ μ ν) (d2 μ ν) θ)
    (mhd : Bool) (gam dt : ℝ) (w : State) {u b : V4}
    (hu : FourVel (schwarzschild m r θ) (schwarzschild m r θ)⁻¹ w.vel u)
    (hb : FourField (schwarzschild m r θ) u (w.fld mhd) b) {T : M4}
    (hT : T = stress (schwarzschild m r θ) (schwarzschild m r θ)⁻¹ (w.rho + gam/(gam-1)*w.p) w.p u b) :
    schSrc mhd gam m r (Real.sin θ) (Real.cos θ) dt w = ⟨0, dt * force d1 T, dt * force d2 T, 0⟩ := by
  have hsl := schwarzschild_slices h hr hs
  have hm := schwarzschild_isMetric h hr hs
  have e1 : d1 = schD1 m r (Real.sin θ) := by
    funext μ ν; exact (h1 μ ν).unique (sch_d1 h hr θ μ ν)
  have e2 : d2 = schD2 r (Real.sin θ) (Real.cos θ) := by
    funext μ ν; exact (h2 μ ν).unique (sch_d2 m r θ μ ν)
  rw [schSrc_eq, metric_schwarzschild h, inverse_schwarzschild h hr hs,
    userSrc_spec hm hsl.1 hsl.2 mhd gam (fun μ ν => sym_symm _ _ _ _ _ _ _ _ _ _ μ ν)
      (fun μ ν => sym_symm _ _ _ _ _ _ _ _ _ _ μ ν) (fun μ ν => sym_symm _ _ _ _ _ _ _ _ _ _ μ ν) dt w hu hb, ← hT]
  rw [e1, e2, schD1, schD2, metric_schwarzschild h]
  have z : force (sym 0 0 0 0 0 0 0 0 0 0) T = 0 := by
    simp only [force]
    rw [Finset.sum_eq_zero, zero_div]
    intro i _
    apply Finset.sum_eq_zero
    intro j _
    fin_cases i <;> fin_cases j <;> exact zero_mul _
  rw [z, mul_zero]

/-- C79: the same for kerr-schild.cpp. -/
theorem sources_kerr {m a r θ : ℝ} (hm : 0 ≤ m) (hr : 0 < r) (hs : Real.sin θ ≠ 0)
    {d1 d2 : M4} (h1 : ∀ μ ν, HasDerivAt (fun r => kerr m a r θ μ ν) (d1 μ ν) r)
    (h2 : ∀ μ ν, HasDerivAt (fun θ => kerr m a r θ μ ν) (d2 μ ν) θ)
    (mhd : Bool) (gam dt : ℝ) (w : State) {u b : V4}
    (hu : FourVel (kerr m a r θ) (kerr m a r θ)⁻¹ w.vel u) (hb : FourField (kerr m a r θ) u (w.fld mhd) b) {T : M4}
    (hT : T = stress (kerr m a r θ) (kerr m a r θ)⁻¹ (w.rho + gam/(gam-1)*w.p) w.p u b) :
    ksSrc mhd gam m a r (Real.sin θ) (Real.cos θ) dt w = ⟨0, dt * force d1 T, dt * force d2 T, 0⟩ := by
  have hS : r^2 + a^2 * Real.cos θ ^ 2 ≠ 0 := by positivity
  have hsl := kerr_slices (a := a) hm hr hs
  have e1 : d1 = ksD1 m a r (Real.sin θ) (Real.cos θ) := by
    funext μ ν; exact (h1 μ ν).unique (kerr_d1 m a θ hS μ ν)
  have e2 : d2 = ksD2 m a r (Real.sin θ) (Real.cos θ) := by
    funext μ ν; exact (h2 μ ν).unique (kerr_d2 m a r hS μ ν)
  rw [ksSrc_eq, metric_kerr, inverse_kerr hr.ne' hs,
    userSrc_spec (kerr_isMetric hr.ne' hs) hsl.1 hsl.2 mhd gam (d1 := ksD1 m a r (Real.sin θ) (Real.cos θ))
      (d2 := ksD2 m a r (Real.sin θ) (Real.cos θ)) (d3 := sym 0 0 0 0 0 0 0 0 0 0)
      (fun μ ν => sym_symm _ _ _ _ _ _ _ _ _ _ μ ν)
      (fun μ ν => sym_symm _ _ _ _ _ _ _ _ _ _ μ ν) (fun μ ν => sym_symm _ _ _ _ _ _ _ _ _ _ μ ν) dt w hu hb, ← hT,
    e1, e2]
  have z : force (sym 0 0 0 0 0 0 0 0 0 0) T = 0 := by
    simp only [force]
    rw [Finset.sum_eq_zero, zero_div]
    intro i _
    apply Finset.sum_eq_zero
    intro j _
    fin_cases i <;> fin_cases j <;> exact zero_mul _
  rw [z, mul_zero]

/-- C79: gr_user.cpp, for every metric whose surfaces of constant time are spacelike and all symmetric derivatives. -/
theorem sources_user {g gi : M4} (h : IsMetric g gi) (h0 : gi 0 0 < 0) (hp : ∀ v : V4, v 0 = 0 → 0 ≤ dot g v v)
    {d1 d2 d3 : M4} (h1 : ∀ μ ν, d1 μ ν = d1 ν μ) (h2 : ∀ μ ν, d2 μ ν = d2 ν μ) (h3 : ∀ μ ν, d3 μ ν = d3 ν μ)
    (mhd : Bool) (gam dt : ℝ) (w : State) {u b : V4} (hu : FourVel g gi w.vel u)
    (hb : FourField g u (w.fld mhd) b) {T : M4} (hT : T = stress g gi (w.rho + gam/(gam-1)*w.p) w.p u b) :
    userSrc mhd gam g gi d1 d2 d3 dt w = ⟨0, dt * force d1 T, dt * force d2 T, dt * force d3 T⟩ := by
  rw [userSrc_spec h h0 hp mhd gam h1 h2 h3 dt w hu hb, hT]

/-- The derivatives that the statements speak of exist. -/
theorem derivatives_exist {m a r θ : ℝ} (h : 2*m/r < 1) (hr : r ≠ 0) :
    (∃ d1 d2 : M4, (∀ μ ν, HasDerivAt (fun r => schwarzschild m r θ μ ν) (d1 μ ν) r)
      ∧ ∀ μ ν, HasDerivAt (fun θ => schwarzschild m r θ μ ν) (d2 μ ν) θ)
    ∧ ∃ d1 d2 : M4, (∀ μ ν, HasDerivAt (fun r => kerr m a r θ μ ν) (d1 μ ν) r)
      ∧ ∀ μ ν, HasDerivAt (fun θ => kerr m a r θ μ ν) (d2 μ ν) θ := by
  have hS : r^2 + a^2 * Real.cos θ ^ 2 ≠ 0 := by positivity
  exact ⟨⟨_, _, sch_d1 h hr θ, sch_d2 m r θ⟩, ⟨_, _, kerr_d1 m a θ hS, kerr_d2 m a r hS⟩⟩

/-- A concrete case of the three statements: a mass at rest at `r = 6 m` in the equatorial plane, with a field. -/
example : ∃ (w : State) (u b : V4), w.rho = 1
    ∧ FourVel (schwarzschild 1 6 (Real.pi/2)) (schwarzschild 1 6 (Real.pi/2))⁻¹ w.vel u
    ∧ FourField (schwarzschild 1 6 (Real.pi/2)) u (w.fld true) b := by
  have h : 2*(1:ℝ)/6 < 1 := by norm_num
  have hs : Real.sin (Real.pi/2) ≠ 0 := by rw [Real.sin_pi_div_two]; norm_num
  have hsl := schwarzschild_slices h (by norm_num) hs
  obtain ⟨u, b, hu, hb, -⟩ := state_determined (schwarzschild_isMetric h (by norm_num) hs) hsl.1 hsl.2 true
    ⟨1, 1, 1/2, 0, 1/3, 1, 0, 2⟩
  exact ⟨_, u, b, rfl, hu, hb⟩

end Verif.Gr
