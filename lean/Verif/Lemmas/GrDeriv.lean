import Verif.Lemmas.GrMetric

namespace Verif.Gr
open Real

/-- Derivatives of the Schwarzschild metric as the code writes them. -/
noncomputable def schD1 (m r sin : ℝ) : M4 :=
  sym (-2*m/r^2) 0 0 0 (-2*m/r^2 * (schMetric m r (sin^2) 1 1)^2) 0 0 (2*r) 0 (2*r*sin^2)
noncomputable def schD2 (r sin cos : ℝ) : M4 := sym 0 0 0 0 0 0 0 0 0 (2*r^2*(sin*cos))

theorem hd_alpha (m : ℝ) {r : ℝ} (hr : r ≠ 0) : HasDerivAt (fun r => 1 - 2*m/r) (2*m/r^2) r := by
  have h := ((hasDerivAt_inv hr).const_mul (2*m)).const_sub 1
  have e : (fun r : ℝ => 1 - 2*m/r) = fun r => 1 - 2*m*r⁻¹ := by funext x; rw [div_eq_mul_inv]
  rw [e]
  refine HasDerivAt.congr_deriv (h) ?_
  field_simp

theorem hd_const (c r : ℝ) : HasDerivAt (fun _ : ℝ => c) 0 r := hasDerivAt_const r c

theorem sch_d1 {m r : ℝ} (h : 2*m/r < 1) (hr : r ≠ 0) (θ : ℝ) (μ ν : Fin 4) :
    HasDerivAt (fun r => schwarzschild m r θ μ ν) (schD1 m r (sin θ) μ ν) r := by
  have hA := hd_alpha m hr
  have hz : 1 - 2*m/r ≠ 0 := by linarith
  have e11 : schMetric m r (sin θ ^ 2) 1 1 = 1 / (1 - 2*m/r) := by
    change 1 / schAlphaSq m r = _
    rw [sch_alpha h]
  rw [schD1, e11]
  by_cases hμ : μ = ν
  · subst hμ
    fin_cases μ
    · change HasDerivAt (fun r => -(1 - 2*m/r)) (-2*m/r^2) r
      refine HasDerivAt.congr_deriv (hA.neg) ?_
      ring
    · change HasDerivAt (fun r => 1 / (1 - 2*m/r)) (-2*m/r^2 * (1/(1 - 2*m/r))^2) r
      have := hA.inv hz
      simp only [one_div]
      refine HasDerivAt.congr_deriv (this) ?_
      rw [inv_pow]
      ring
    · change HasDerivAt (fun r => r^2) (2*r) r
      refine HasDerivAt.congr_deriv (hasDerivAt_pow 2 r) ?_
      norm_num
    · change HasDerivAt (fun r => r^2 * sin θ ^ 2) (2*r*sin θ^2) r
      refine HasDerivAt.congr_deriv ((hasDerivAt_pow 2 r).mul_const (sin θ ^ 2)) ?_
      norm_num
  · have : (fun r => schwarzschild m r θ μ ν) = fun _ => 0 := by
      funext x; exact Matrix.diagonal_apply_ne _ hμ
    rw [this]
    have e : sym (-2*m/r^2) 0 0 0 (-2*m/r^2 * (1 / (1 - 2*m/r))^2) 0 0 (2*r) 0 (2*r*sin θ^2) μ ν = 0 := by
      fin_cases μ <;> fin_cases ν <;> first | rfl | exact absurd rfl hμ
    rw [e]
    exact hd_const 0 r

theorem hd_sin2 (θ : ℝ) : HasDerivAt (fun θ => sin θ ^ 2) (2 * (sin θ * cos θ)) θ := by
  refine HasDerivAt.congr_deriv ((hasDerivAt_sin θ).pow 2) ?_
  norm_num; ring

theorem hd_cos2 (θ : ℝ) : HasDerivAt (fun θ => cos θ ^ 2) (-2 * (sin θ * cos θ)) θ := by
  refine HasDerivAt.congr_deriv ((hasDerivAt_cos θ).pow 2) ?_
  norm_num; ring

theorem sch_d2 (m r θ : ℝ) (μ ν : Fin 4) :
    HasDerivAt (fun θ => schwarzschild m r θ μ ν) (schD2 r (sin θ) (cos θ) μ ν) θ := by
  by_cases hμ : μ = ν
  · subst hμ
    fin_cases μ
    · exact hd_const _ _
    · exact hd_const _ _
    · exact hd_const _ _
    · change HasDerivAt (fun θ => r^2 * sin θ ^ 2) (2*r^2*(sin θ * cos θ)) θ
      refine HasDerivAt.congr_deriv ((hd_sin2 θ).const_mul (r^2)) ?_
      ring
  · have : (fun θ => schwarzschild m r θ μ ν) = fun _ => 0 := by
      funext x; exact Matrix.diagonal_apply_ne _ hμ
    rw [this]
    have e : schD2 r (sin θ) (cos θ) μ ν = 0 := by
      fin_cases μ <;> fin_cases ν <;> first | rfl | exact absurd rfl hμ
    rw [e]
    exact hd_const 0 θ

/-- The quotient `2 m r / Σ`. -/
theorem hd_h1 (m a r c2 : ℝ) (hS : r^2 + a^2*c2 ≠ 0) :
    HasDerivAt (fun r => 2*m*r/(r^2 + a^2*c2)) (-2*m*(r^2 - a^2*c2)/(r^2 + a^2*c2)^2) r := by
  have h1 : HasDerivAt (fun r : ℝ => 2*m*r) (2*m) r := by
    simpa using (hasDerivAt_id r).const_mul (2*m)
  have h2 : HasDerivAt (fun r : ℝ => r^2 + a^2*c2) (2*r) r := by
    simpa using (hasDerivAt_pow 2 r).add_const (a^2*c2)
  refine HasDerivAt.congr_deriv (h1.div h2 hS) ?_
  congr 1
  ring

theorem hd_s2 (a r θ : ℝ) :
    HasDerivAt (fun θ => r^2 + a^2*cos θ ^ 2) (-2*a^2*(sin θ * cos θ)) θ := by
  refine HasDerivAt.congr_deriv (((hd_cos2 θ).const_mul (a^2)).const_add (r^2)) ?_
  ring

theorem hd_h2 (m a r θ : ℝ) (hS : r^2 + a^2*cos θ^2 ≠ 0) :
    HasDerivAt (fun θ => 2*m*r/(r^2 + a^2*cos θ ^ 2)) (4*m*a^2*r/(r^2 + a^2*cos θ ^ 2)^2 * (sin θ * cos θ)) θ := by
  refine HasDerivAt.congr_deriv ((hasDerivAt_const θ (2*m*r)).div (hd_s2 a r θ) hS) ?_
  ring

theorem kerr_symm (m a r θ : ℝ) (μ ν : Fin 4) : kerr m a r θ μ ν = kerr m a r θ ν μ := by
  simp only [kerr, spheroidal]; ring

theorem kerr_entries (m a r θ : ℝ) :
    kerr m a r θ 0 0 = -1 + 2*m*r/(r^2 + a^2 * cos θ ^ 2)
    ∧ kerr m a r θ 0 1 = 2*m*r/(r^2 + a^2 * cos θ ^ 2)
    ∧ kerr m a r θ 0 2 = 0
    ∧ kerr m a r θ 0 3 = -(2*m*r/(r^2 + a^2 * cos θ ^ 2) * (a * sin θ ^ 2))
    ∧ kerr m a r θ 1 1 = 1 + 2*m*r/(r^2 + a^2 * cos θ ^ 2)
    ∧ kerr m a r θ 1 2 = 0
    ∧ kerr m a r θ 1 3 = -((1 + 2*m*r/(r^2 + a^2 * cos θ ^ 2)) * (a * sin θ ^ 2))
    ∧ kerr m a r θ 2 2 = r^2 + a^2 * cos θ ^ 2
    ∧ kerr m a r θ 2 3 = 0
    ∧ kerr m a r θ 3 3 = (r^2 + a^2 * cos θ ^ 2) * sin θ ^ 2
        + (1 + 2*m*r/(r^2 + a^2 * cos θ ^ 2)) * (a * sin θ ^ 2)^2 := by
  simp only [kerr, spheroidal]
  generalize r^2 + a^2 * cos θ ^ 2 = S
  generalize 2*m*r/S = H
  refine ⟨?_, ?_, ?_, ?_, ?_, ?_, ?_, ?_, ?_, ?_⟩ <;> simp <;> ring

theorem tensor_sym {F : ℝ → M4} {D : M4} (x : ℝ) (hF : ∀ y μ ν, F y μ ν = F y ν μ) (hD : ∀ μ ν, D μ ν = D ν μ)
    (h : ∀ μ ν : Fin 4, μ ≤ ν → HasDerivAt (fun y => F y μ ν) (D μ ν) x) (μ ν : Fin 4) :
    HasDerivAt (fun y => F y μ ν) (D μ ν) x := by
  rcases le_total μ ν with hl | hl
  · exact h μ ν hl
  · have e : (fun y => F y μ ν) = fun y => F y ν μ := by funext y; exact hF y μ ν
    rw [e, hD μ ν]
    exact h ν μ hl

theorem kerr_d1 (m a : ℝ) {r : ℝ} (θ : ℝ) (hS : r^2 + a^2*cos θ^2 ≠ 0) (μ ν : Fin 4) :
    HasDerivAt (fun r => kerr m a r θ μ ν) (ksD1 m a r (sin θ) (cos θ) μ ν) r := by
  have hH := hd_h1 m a r (cos θ^2) hS
  have hS' : HasDerivAt (fun r : ℝ => r^2 + a^2*cos θ^2) (2*r) r := by
    simpa using (hasDerivAt_pow 2 r).add_const (a^2*cos θ^2)
  refine tensor_sym (F := fun r => kerr m a r θ) r (fun y => kerr_symm m a y θ)
    (fun μ ν => sym_symm _ _ _ _ _ _ _ _ _ _ μ ν) ?_ μ ν
  intro μ ν hl
  have e := fun r => kerr_entries m a r θ
  fin_cases μ <;> fin_cases ν <;> first | exact absurd hl (by decide) | skip
  · refine HasDerivAt.congr_deriv (f := fun r => kerr m a r θ 0 0) ?_ (show _ = -2*m*(r^2 - a^2*cos θ^2)/(r^2 + a^2*cos θ^2)^2 from rfl)
    simp only [(e _).1]
    exact hH.const_add (-1)
  · change HasDerivAt (fun r => kerr m a r θ 0 1) (-2*m*(r^2 - a^2*cos θ^2)/(r^2 + a^2*cos θ^2)^2) r
    simp only [(e _).2.1]
    exact hH
  · change HasDerivAt (fun r => kerr m a r θ 0 2) 0 r
    simp only [(e _).2.2.1]
    exact hd_const 0 r
  · change HasDerivAt (fun r => kerr m a r θ 0 3) (2*m*(r^2 - a^2*cos θ^2)/(r^2 + a^2*cos θ^2)^2*a*sin θ^2) r
    simp only [(e _).2.2.2.1]
    refine HasDerivAt.congr_deriv ((hH.mul_const (a * sin θ^2)).neg) ?_
    ring
  · change HasDerivAt (fun r => kerr m a r θ 1 1) (-2*m*(r^2 - a^2*cos θ^2)/(r^2 + a^2*cos θ^2)^2) r
    simp only [(e _).2.2.2.2.1]
    exact hH.const_add 1
  · change HasDerivAt (fun r => kerr m a r θ 1 2) 0 r
    simp only [(e _).2.2.2.2.2.1]
    exact hd_const 0 r
  · change HasDerivAt (fun r => kerr m a r θ 1 3) (2*m*(r^2 - a^2*cos θ^2)/(r^2 + a^2*cos θ^2)^2*a*sin θ^2) r
    simp only [(e _).2.2.2.2.2.2.1]
    refine HasDerivAt.congr_deriv (((hH.const_add 1).mul_const (a * sin θ^2)).neg) ?_
    ring
  · change HasDerivAt (fun r => kerr m a r θ 2 2) (2*r) r
    simp only [(e _).2.2.2.2.2.2.2.1]
    exact hS'
  · change HasDerivAt (fun r => kerr m a r θ 2 3) 0 r
    simp only [(e _).2.2.2.2.2.2.2.2.1]
    exact hd_const 0 r
  · change HasDerivAt (fun r => kerr m a r θ 3 3)
      (2*(r - m*(r^2 - a^2*cos θ^2)/(r^2 + a^2*cos θ^2)^2*a^2*sin θ^2)*sin θ^2) r
    simp only [(e _).2.2.2.2.2.2.2.2.2]
    refine HasDerivAt.congr_deriv ((hS'.mul_const (sin θ^2)).add ((hH.const_add 1).mul_const ((a * sin θ^2)^2))) ?_
    ring

theorem kerr_d2 (m a r : ℝ) {θ : ℝ} (hS : r^2 + a^2*cos θ^2 ≠ 0) (μ ν : Fin 4) :
    HasDerivAt (fun θ => kerr m a r θ μ ν) (ksD2 m a r (sin θ) (cos θ) μ ν) θ := by
  have hH := hd_h2 m a r θ hS
  have hS' := hd_s2 a r θ
  have hs := (hd_sin2 θ).const_mul a
  have h1 := Real.sin_sq_add_cos_sq θ
  have e2 : r^2 + a^2 = (r^2 + a^2*cos θ^2) + a^2 * sin θ^2 := by linear_combination -a^2 * h1
  refine tensor_sym (F := fun θ => kerr m a r θ) θ (fun y => kerr_symm m a r y)
    (fun μ ν => sym_symm _ _ _ _ _ _ _ _ _ _ μ ν) ?_ μ ν
  intro μ ν hl
  have e := fun θ => kerr_entries m a r θ
  fin_cases μ <;> fin_cases ν <;> first | exact absurd hl (by decide) | skip
  · change HasDerivAt (fun θ => kerr m a r θ 0 0) (4*m*a^2*r/(r^2 + a^2*cos θ^2)^2*(sin θ * cos θ)) θ
    simp only [(e _).1]
    exact hH.const_add (-1)
  · change HasDerivAt (fun θ => kerr m a r θ 0 1) (4*m*a^2*r/(r^2 + a^2*cos θ^2)^2*(sin θ * cos θ)) θ
    simp only [(e _).2.1]
    exact hH
  · change HasDerivAt (fun θ => kerr m a r θ 0 2) 0 θ
    simp only [(e _).2.2.1]
    exact hd_const 0 θ
  · change HasDerivAt (fun θ => kerr m a r θ 0 3) (-4*m*a*r*(r^2 + a^2)/(r^2 + a^2*cos θ^2)^2*(sin θ * cos θ)) θ
    simp only [(e _).2.2.2.1]
    rw [e2]
    refine HasDerivAt.congr_deriv ((hH.mul hs).neg) ?_
    generalize r^2 + a^2*cos θ^2 = S at hS
    field_simp
    ring
  · change HasDerivAt (fun θ => kerr m a r θ 1 1) (4*m*a^2*r/(r^2 + a^2*cos θ^2)^2*(sin θ * cos θ)) θ
    simp only [(e _).2.2.2.2.1]
    exact hH.const_add 1
  · change HasDerivAt (fun θ => kerr m a r θ 1 2) 0 θ
    simp only [(e _).2.2.2.2.2.1]
    exact hd_const 0 θ
  · change HasDerivAt (fun θ => kerr m a r θ 1 3)
      (-2*(1 + 2*m*r*(r^2 + a^2)/(r^2 + a^2*cos θ^2)^2)*a*(sin θ * cos θ)) θ
    simp only [(e _).2.2.2.2.2.2.1]
    rw [e2]
    refine HasDerivAt.congr_deriv (((hH.const_add 1).mul hs).neg) ?_
    generalize r^2 + a^2*cos θ^2 = S at hS
    field_simp
    ring
  · change HasDerivAt (fun θ => kerr m a r θ 2 2) (-2*a^2*(sin θ * cos θ)) θ
    simp only [(e _).2.2.2.2.2.2.2.1]
    exact hS'
  · change HasDerivAt (fun θ => kerr m a r θ 2 3) 0 θ
    simp only [(e _).2.2.2.2.2.2.2.2.1]
    exact hd_const 0 θ
  · change HasDerivAt (fun θ => kerr m a r θ 3 3)
      (2*(r^2 + a^2 - 2*m*r + 2*m*r*(r^2 + a^2)^2/(r^2 + a^2*cos θ^2)^2)*(sin θ * cos θ)) θ
    simp only [(e _).2.2.2.2.2.2.2.2.2]
    rw [e2]
    refine HasDerivAt.congr_deriv ((hS'.mul (hd_sin2 θ)).add ((hH.const_add 1).mul (hs.pow 2))) ?_
    simp only [Nat.cast_ofNat, Nat.add_one_sub_one, pow_one]
    generalize r^2 + a^2*cos θ^2 = S at hS
    field_simp
    ring

/-- Positive spatial parts. -/
theorem sch_spacelike {m r : ℝ} (h : 2*m/r < 1) (s2 : ℝ) (hs : 0 ≤ s2) (v : V4) (hv : v 0 = 0) :
    0 ≤ dot (schMetric m r s2) v v := by
  have ha : 0 < schAlphaSq m r := by rw [sch_alpha h]; linarith
  have e : dot (schMetric m r s2) v v = 1 / schAlphaSq m r * (v 1)^2 + r^2 * (v 2)^2 + r^2 * s2 * (v 3)^2 := by
    simp only [dot, sum4, schMetric, hv]
    simp [sym]; ring
  rw [e]; positivity

theorem ks_spacelike {m a r θ : ℝ} (hm : 0 ≤ m) (hr : 0 < r) (v : V4) (hv : v 0 = 0) :
    0 ≤ dot (kerr m a r θ) v v := by
  have hS : 0 < r^2 + a^2 * cos θ^2 := by positivity
  obtain ⟨e00, e01, e02, e03, e11, e12, e13, e22, e23, e33⟩ := kerr_entries m a r θ
  have s := kerr_symm m a r θ
  have e : dot (kerr m a r θ) v v = (1 + 2*m*r/(r^2 + a^2 * cos θ ^ 2)) * (v 1 - a * sin θ^2 * v 3)^2
      + (r^2 + a^2 * cos θ^2) * (v 2)^2 + (r^2 + a^2 * cos θ^2) * sin θ^2 * (v 3)^2 := by
    simp only [dot, sum4, hv]
    rw [s 2 1, s 3 1, s 3 2, e11, e12, e13, e22, e23, e33]
    ring
  rw [e]; positivity

end Verif.Gr
