import Verif.Lemmas.CosmicRay
import Mathlib.Tactic.NormNum.Pow
import Mathlib.Tactic.FinCases

/-!
# Cosmic rays: fluxes, diffusion speeds and streaming (C82)
-/
namespace Verif.Cr

/-- The signal speeds at a face enclose 0 and stay within `vmax/√3`, which is less than the speed `vmax` used for the
time step. -/
theorem signal_speeds (vmax : ℝ) (hv : 0 < vmax) (l r : Side) (dl dr : ℝ) :
    -vmax < bm vmax l r dl dr ∧ bm vmax l r dl dr ≤ 0 ∧ 0 ≤ bp vmax l r dl dr ∧ bp vmax l r dl dr < vmax
      ∧ 3 * bm vmax l r dl dr ^ 2 ≤ vmax ^ 2 ∧ 3 * bp vmax l r dl dr ^ 2 ≤ vmax ^ 2 := by
  obtain ⟨a, b⟩ := bm_bounds vmax hv.le l r dl dr
  obtain ⟨c, d⟩ := bp_bounds vmax hv.le l r dl dr
  have s0 := Real.sqrt_nonneg (1 / 3 : ℝ)
  have s2 : √(1 / 3 : ℝ) ^ 2 = 1 / 3 := Real.sq_sqrt (by norm_num)
  have s1 : √(1 / 3 : ℝ) < 1 := by nlinarith
  have hm : vmax * √(1 / 3) < vmax := by nlinarith
  have hq : (vmax * √(1 / 3)) ^ 2 = vmax ^ 2 / 3 := by rw [mul_pow, s2]; ring
  refine ⟨by linarith, b, c, by linarith, ?_, ?_⟩ <;> nlinarith

/-- They enclose the speeds at which each side and their mean diffuse, cut at `vmax/√3`. -/
theorem signal_speeds_cover (vmax : ℝ) (l r : Side) (dl dr : ℝ) :
    bm vmax l r dl dr ≤ max (l.v - dl) (-(vmax / √3)) ∧ bm vmax l r dl dr ≤ max ((l.v + r.v - (dl + dr)) / 2) (-(vmax / √3))
      ∧ min (r.v + dr) (vmax / √3) ≤ bp vmax l r dl dr ∧ min ((l.v + r.v + (dl + dr)) / 2) (vmax / √3) ≤ bp vmax l r dl dr := by
  have e3 : vmax * √(1 / 3) = vmax / √3 := by rw [Real.sqrt_div (by norm_num), Real.sqrt_one]; ring
  have e4 : -vmax * √(1 / 3) = -(vmax / √3) := by rw [← e3]; ring
  have ea : 1 / 2 * (l.v + r.v) - 1 / 2 * (dl + dr) = (l.v + r.v - (dl + dr)) / 2 := by ring
  have eb : 1 / 2 * (l.v + r.v) + 1 / 2 * (dl + dr) = (l.v + r.v + (dl + dr)) / 2 := by ring
  simp only [bm, bp, e3, e4, ea, eb]
  refine ⟨?_, ?_, ?_, ?_⟩
  · have h : max (min ((l.v + r.v - (dl + dr)) / 2) (l.v - dl)) (-(vmax / √3)) ≤ max (l.v - dl) (-(vmax / √3)) :=
      max_le_max (min_le_right _ _) le_rfl
    split <;> linarith
  · have h : max (min ((l.v + r.v - (dl + dr)) / 2) (l.v - dl)) (-(vmax / √3))
        ≤ max ((l.v + r.v - (dl + dr)) / 2) (-(vmax / √3)) := max_le_max (min_le_left _ _) le_rfl
    split <;> linarith
  · have h : min (r.v + dr) (vmax / √3) ≤ min (max ((l.v + r.v + (dl + dr)) / 2) (r.v + dr)) (vmax / √3) :=
      min_le_min (le_max_right _ _) le_rfl
    split <;> linarith
  · have h : min ((l.v + r.v + (dl + dr)) / 2) (vmax / √3)
        ≤ min (max ((l.v + r.v + (dl + dr)) / 2) (r.v + dr)) (vmax / √3) := min_le_min (le_max_left _ _) le_rfl
    split <;> linarith

/-- Where the two signal speeds differ, the flux of every variable is the HLL mean of the fluxes of the transport
equations of the two sides. -/
theorem flux_hll (vmax : ℝ) (d : Fin 3) (l r : Side) (dl dr : ℝ)
    (h : tiny < |bm vmax l r dl dr - bp vmax l r dl dr|) :
    let m := bm vmax l r dl dr
    let p := bp vmax l r dl dr
    let F := crFlux vmax d l r dl dr
    let A := physFlux vmax d l.c
    let B := physFlux vmax d r.c
    F.e = hll m p A.e B.e l.c.e r.c.e ∧ F.f.x = hll m p A.f.x B.f.x l.c.f.x r.c.f.x
      ∧ F.f.y = hll m p A.f.y B.f.y l.c.f.y r.c.f.y ∧ F.f.z = hll m p A.f.z B.f.z l.c.f.z r.c.f.z := by
  intro m p F A B
  have t0 : 0 < tiny := by unfold tiny; norm_num
  have hne : p - m ≠ 0 := by
    intro e
    have : m - p = 0 := by linarith
    rw [show bm vmax l r dl dr - bp vmax l r dl dr = m - p from rfl, this, abs_zero] at h
    linarith
  have ht : F = _ := rfl
  have hh : tiny < |m - p| := h
  have g (a a' b b' u w : ℝ) (ha : a = a') (hb : b = b') :
      1 / 2 * ((a - m * u) + (b - p * w)) + ((a - m * u) - (b - p * w)) * (1 / 2 * (p + m) / (p - m))
        = hll m p a' b' u w := by rw [ha, hb]; exact comb_hll hne
  have e0 : ∀ i : Fin 3, vmax * (if i = d then 1 / 3 else 0) * l.c.e = if d = i then vmax * (l.c.e / 3) else 0 := by
    intro i
    by_cases hi : i = d
    · rw [if_pos hi, if_pos hi.symm]; ring
    · rw [if_neg hi, if_neg (Ne.symm hi)]; ring
  have e1 : ∀ i : Fin 3, vmax * (if i = d then 1 / 3 else 0) * r.c.e = if d = i then vmax * (r.c.e / 3) else 0 := by
    intro i
    by_cases hi : i = d
    · rw [if_pos hi, if_pos hi.symm]; ring
    · rw [if_neg hi, if_neg (Ne.symm hi)]; ring
  simp only [F, crFlux]
  rw [if_pos h]
  exact ⟨g _ _ _ _ _ _ rfl rfl, g _ _ _ _ _ _ (e0 0) (e1 0), g _ _ _ _ _ _ (e0 1) (e1 1), g _ _ _ _ _ _ (e0 2) (e1 2)⟩

/-- The flux between two equal sides is the flux of the transport equations, for all speeds with which the branch that
divides is taken. -/
theorem flux_consistent (vmax : ℝ) (d : Fin 3) (c : CRay) (vl vr dl dr : ℝ)
    (h : tiny < |bm vmax ⟨c, vl⟩ ⟨c, vr⟩ dl dr - bp vmax ⟨c, vl⟩ ⟨c, vr⟩ dl dr|) :
    crFlux vmax d ⟨c, vl⟩ ⟨c, vr⟩ dl dr = physFlux vmax d c := by
  obtain ⟨h1, h2, h3, h4⟩ := flux_hll vmax d ⟨c, vl⟩ ⟨c, vr⟩ dl dr h
  have t0 : 0 < tiny := by unfold tiny; norm_num
  set m := bm vmax ⟨c, vl⟩ ⟨c, vr⟩ dl dr
  set p := bp vmax ⟨c, vl⟩ ⟨c, vr⟩ dl dr
  have hne : p - m ≠ 0 := by
    intro e
    have : m - p = 0 := by linarith
    rw [this, abs_zero] at h
    linarith
  have k (f u : ℝ) : hll m p f f u u = f := by unfold hll; field_simp; ring
  simp only [k] at h1 h2 h3 h4
  ext
  · exact h1
  · exact h2
  · exact h3
  · exact h4

/-- The factor by which the signal speed is reduced lies between 0 and 1 and is at most `1/√τ`. -/
theorem reduction (τ : ℝ) (h : 0 < τ) : 0 < diffv τ ∧ diffv τ ≤ 1 ∧ diffv τ ≤ 1 / √τ := by
  obtain ⟨a, b, c⟩ := diffv_sq_bounds h
  refine ⟨a, b, ?_⟩
  rw [le_div_iff₀ (Real.sqrt_pos.mpr h)]
  have : (diffv τ * √τ) ^ 2 ≤ 1 := by rw [mul_pow, Real.sq_sqrt h.le]; exact c
  nlinarith [mul_pos a (Real.sqrt_pos.mpr h)]

/-- The two branches of the reduction agree to one part in `10⁶` where the code changes from one to the other, for the
squares: `(1-exp(-τ))/τ` and `1-τ/2` differ by less than `τ²`. -/
theorem reduction_branches (τ : ℝ) (h : 0 < τ) (h1 : τ ≤ 1) : |(1 - Real.exp (-τ)) / τ - (1 - 1 / 2 * τ)| ≤ τ ^ 2 := by
  have hb := Real.exp_bound' (x := τ) h.le h1 (n := 3) (by norm_num)
  have hq := Real.abs_exp_sub_one_sub_id_le (x := -τ) (by rw [abs_neg, abs_of_pos h]; exact h1)
  have he := Real.exp_bound (x := -τ) (by rw [abs_neg, abs_of_pos h]; exact h1) (n := 3) (by norm_num)
  norm_num [Finset.sum_range_succ, Nat.factorial] at he
  rw [abs_of_pos h] at he
  have e : (1 - Real.exp (-τ)) / τ - (1 - 1 / 2 * τ) = -(Real.exp (-τ) - (1 + -τ + τ ^ 2 / 2)) / τ := by
    field_simp; ring
  rw [e, abs_div, abs_neg, abs_of_pos h, div_le_iff₀ h]
  refine le_trans he ?_
  have : 0 < τ ^ 3 := by positivity
  nlinarith

/-- Diffusion added by the fluxes, `v_diff dx`, is at most `√2/taucell` times the diffusion coefficient
`vmax/(3σ)` of the cosmic rays, for every opacity and every width of the cells; and the diffusion speed is at most
`vmax/√3`. -/
theorem diffusion_bounded (vmax tf σ dx : ℝ) (hv : 0 < vmax) (ht : 0 < tf) (hs : 0 < σ) (hd : 0 < dx) :
    0 < vDiff vmax tf σ dx ∧ 3 * vDiff vmax tf σ dx ^ 2 ≤ vmax ^ 2
      ∧ (vDiff vmax tf σ dx * dx) ^ 2 ≤ 2 / tf ^ 2 * (vmax / (3 * σ)) ^ 2 := by
  set t := tf * σ * dx with hT
  have t0 : 0 < t := by positivity
  have τ0 : 0 < t * t / (2 * (1 / 3)) := by positivity
  obtain ⟨a, b, c⟩ := diffv_sq_bounds τ0
  have s2 : √(1 / 3 : ℝ) ^ 2 = 1 / 3 := Real.sq_sqrt (by norm_num)
  have s0 : 0 < √(1 / 3 : ℝ) := Real.sqrt_pos.mpr (by norm_num)
  have e : vDiff vmax tf σ dx = vmax * √(1 / 3) * diffv (t * t / (2 * (1 / 3))) := rfl
  set k := diffv (t * t / (2 * (1 / 3)))
  have hsq : vDiff vmax tf σ dx ^ 2 = vmax ^ 2 / 3 * k ^ 2 := by rw [e, mul_pow, mul_pow, s2]; ring
  refine ⟨by rw [e]; positivity, ?_, ?_⟩
  · rw [hsq]
    have : k ^ 2 ≤ 1 := by nlinarith
    nlinarith [sq_nonneg vmax]
  · rw [mul_pow, hsq]
    have h1 : k ^ 2 * t ^ 2 ≤ 2 / 3 := by
      have e3 : k ^ 2 * (t * t / (2 * (1 / 3))) = k ^ 2 * t ^ 2 * (3 / 2) := by ring
      rw [e3] at c; linarith
    have h2 : vmax ^ 2 / 3 * k ^ 2 * dx ^ 2 = vmax ^ 2 / 3 / (tf * σ) ^ 2 * (k ^ 2 * t ^ 2) := by
      rw [hT]; field_simp
    have h3 : 2 / tf ^ 2 * (vmax / (3 * σ)) ^ 2 = vmax ^ 2 / 3 / (tf * σ) ^ 2 * (2 / 3) := by
      field_simp
    rw [h2, h3]
    exact mul_le_mul_of_nonneg_left h1 (by positivity)

/-- With a field along the diagonal of the first two axes and the same opacity in all directions, the rotated diffusion
speed along the first axis is zero, although the cosmic rays diffuse in every direction with the same speed. -/
theorem rotated_speed_zero (v : ℝ) :
    (vDiffRot ⟨1, 0, 1 / √2, 1 / √2⟩ ⟨v, v, v⟩).x = 0 ∧ (⟨1, 0, 1 / √2, 1 / √2⟩ : Angle).Ok := by
  refine ⟨?_, ⟨by norm_num, ?_⟩⟩
  · simp only [vDiffRot, invRotateVec]
    ring_nf
    simp
  · have : √(2 : ℝ) ^ 2 = 2 := Real.sq_sqrt (by norm_num)
    simp only [div_pow, this]; norm_num

/-- These are the angles that the code stores for this field. -/
theorem diagonal_field : bAngle ⟨1, 1, 0⟩ = ⟨1, 0, 1 / √2, 1 / √2⟩ := by
  have s : tiny < √(2 : ℝ) := by
    have h1 : (1 : ℝ) < √2 := by rw [Real.lt_sqrt] <;> norm_num
    refine lt_trans ?_ h1
    unfold tiny; norm_num
  have h2 : √(2 : ℝ) ≠ 0 := by positivity
  have e1 : (1 : ℝ) * 1 + 1 * 1 = 2 := by norm_num
  have e2 : bsq ⟨1, 1, 0⟩ = 2 := by norm_num [bsq]
  simp only [bAngle, e1, e2, if_pos s, zero_div, div_self h2]

/-- There the flux through a face of the first direction with gas at rest is the plain mean of the fluxes of the two
sides: no upwinding, whatever jump there is in the energy. -/
theorem central_flux (vmax : ℝ) (hv : 0 < vmax) (l r : CRay) :
    (crFlux vmax 0 ⟨l, 0⟩ ⟨r, 0⟩ 0 0).e = 1 / 2 * (vmax * l.f.x + vmax * r.f.x)
      ∧ (crFlux vmax 0 ⟨l, 0⟩ ⟨r, 0⟩ 0 0).f.x = 1 / 2 * (vmax * (l.e / 3) + vmax * (r.e / 3)) := by
  have s0 : 0 < √(1 / 3 : ℝ) := Real.sqrt_pos.mpr (by norm_num)
  have h0 : 0 < vmax * √(1 / 3) := mul_pos hv s0
  have t0 : 0 < tiny := by unfold tiny; norm_num
  have hm : bm vmax ⟨l, 0⟩ ⟨r, 0⟩ 0 0 = 0 := by
    simp only [bm]
    rw [if_neg]
    norm_num
  have hp : bp vmax ⟨l, 0⟩ ⟨r, 0⟩ 0 0 = 0 := by
    simp only [bp]
    rw [if_neg]
    norm_num
  simp only [crFlux, hm, hp, sub_zero, abs_zero, if_neg (not_lt.mpr t0.le)]
  constructor
  · simp [V3.get]
  · simp; ring

/-- Streaming: the waves move down the gradient of the pressure along the field, at the Alfvén speed. -/
theorem streaming_down (rho : ℝ) (hr : 0 < rho) (b gp : V3) :
    dot (vAdv rho b gp) gp ≤ 0 ∧ (tiny < |dot b gp| → dot (vAdv rho b gp) (vAdv rho b gp) = dot b b / rho
      ∧ vAdv rho b gp = ⟨-sgn (dot b gp) * (b.x / √rho), -sgn (dot b gp) * (b.y / √rho),
          -sgn (dot b gp) * (b.z / √rho)⟩) := by
  have t0 : 0 < tiny := by unfold tiny; norm_num
  have s0 : 0 < √rho := Real.sqrt_pos.mpr hr
  have s2 : √rho * √rho = rho := Real.mul_self_sqrt hr.le
  have e : bGrad b gp = dot b gp := rfl
  have hd : dot (vAdv rho b gp) gp = -(dpcSign (dot b gp) * dot b gp) * (1 / √rho) := by
    simp only [vAdv, e]; simp only [dot]; ring
  constructor
  · rw [hd]
    have : 0 ≤ dpcSign (dot b gp) * dot b gp := by
      unfold dpcSign
      split
      · linarith
      · split
        · linarith
        · linarith
    have : 0 ≤ 1 / √rho := by positivity
    nlinarith
  · intro h
    have hs : dpcSign (dot b gp) = sgn (dot b gp) ∧ sgn (dot b gp) ^ 2 = 1 := by
      unfold dpcSign sgn
      rcases lt_abs.mp h with h | h
      · rw [if_pos h, if_pos (by linarith)]; norm_num
      · rw [if_neg (by linarith), if_pos h, if_neg (by linarith), if_pos (by linarith)]; norm_num
    constructor
    · simp only [vAdv, e, hs.1]
      have : dot ⟨-(b.x * (1 / √rho)) * sgn (dot b gp), -(b.y * (1 / √rho)) * sgn (dot b gp),
          -(b.z * (1 / √rho)) * sgn (dot b gp)⟩ ⟨-(b.x * (1 / √rho)) * sgn (dot b gp),
          -(b.y * (1 / √rho)) * sgn (dot b gp), -(b.z * (1 / √rho)) * sgn (dot b gp)⟩
          = sgn (dot b gp) ^ 2 * dot b b * (1 / (√rho * √rho)) := by
        generalize sgn (dot b gp) = k
        simp only [dot]; field_simp
      rw [this, hs.2, s2]; ring
    · simp only [vAdv, e, hs.1]
      ext <;> simp only [] <;> ring

/-- The opacity of streaming is such that a steady flux along the field is the enthalpy carried by gas and waves
together, less the diffusion with `sigma_diff`: if the drag balances the gradient of the pressure,
`σ (F - v·4E/3/vmax) = -dPc/ds` with `1/σ = 1/sigma_diff + 1/sigma_adv`, then
`F = (v + vs)·4E/3/vmax - (dPc/ds)/sigma_diff`, where `v`, `vs` are the components along the field. -/
theorem streaming_flux (vmax rho ec sd old F σ : ℝ) (b gp v : V3) (hv : 0 < vmax) (hr : 0 < rho) (he : 0 < ec)
    (hs : 0 < sd) (hb : tiny < √(bsq b) * (1 / √rho)) (hg : tiny < |dot b gp|)
    (hσ : 1 / σ = 1 / sd + 1 / sigmaAdv vmax rho b gp ec old)
    (steady : σ * (F - dot b v / len b * (4 / 3 * ec / vmax))
      = -(dot b gp / len b)) :
    F = (dot b v / len b + dot b (vAdv rho b gp) / len b) * (4 / 3 * ec / vmax) - dot b gp / len b / sd := by
  have t0 : 0 < tiny := by unfold tiny; norm_num
  have s0 : 0 < √rho := Real.sqrt_pos.mpr hr
  have hl : √(bsq b) = len b := rfl
  have l0 : 0 < len b := by
    rw [← hl]
    by_contra hh
    have : √(bsq b) = 0 := le_antisymm (not_lt.mp hh) (Real.sqrt_nonneg _)
    rw [this] at hb; linarith
  have l2 : len b * len b = dot b b :=
    Real.mul_self_sqrt (by simp only [dot]; nlinarith [mul_self_nonneg b.x, mul_self_nonneg b.y, mul_self_nonneg b.z])
  have hsg : dot b gp = sgn (dot b gp) * |dot b gp| ∧ sgn (dot b gp) ^ 2 = 1 := by
    unfold sgn
    rcases lt_abs.mp hg with h | h
    · rw [if_pos (by linarith), abs_of_pos (by linarith)]; norm_num
    · rw [if_neg (by linarith), if_pos (by linarith), abs_of_neg (by linarith)]; norm_num
  have hva : dot b (vAdv rho b gp) = -(sgn (dot b gp)) * (len b * len b) / √rho := by
    rw [((streaming_down rho hr b gp).2 hg).2, l2]
    generalize sgn (dot b gp) = k
    simp only [dot]; field_simp; ring
  have hsa : sigmaAdv vmax rho b gp ec old = |dot b gp| / (len b * (len b * (1 / √rho)) * (4 / 3) * (1 / vmax) * ec) := by
    simp only [sigmaAdv]
    rw [if_pos hb, hl]; rfl
  have g0 : 0 < |dot b gp| := lt_trans t0 hg
  set G := |dot b gp| with hG
  set k := sgn (dot b gp) with hk
  have hsa0 : 0 < sigmaAdv vmax rho b gp ec old := by rw [hsa]; positivity
  rw [hva]
  rw [hsg.1] at steady ⊢
  have hh : σ ≠ 0 := by
    intro h
    rw [h, div_zero] at hσ
    have : 0 < 1 / sd + 1 / sigmaAdv vmax rho b gp ec old := by positivity
    linarith
  have hF : F - dot b v / len b * (4 / 3 * ec / vmax) = -(k * G / len b) / σ := by
    rw [eq_div_iff hh]; linarith
  have hF' : F = dot b v / len b * (4 / 3 * ec / vmax)
      - (k * G / len b) * (1 / sd + 1 / sigmaAdv vmax rho b gp ec old) := by
    rw [← hσ]; linear_combination hF
  rw [hF', hsa]
  field_simp
  ring

/-- In one dimension with a magnetic field and streaming, the default opacity function reads elements of `u_cr` in
front of the array, for every number of cells. -/
theorem opacity_reads_outside (nx1 : ℕ) (i : ℤ) (h1 : i < nx1) :
    ∃ p ∈ opacityReads 1 1 nx1 0 0 i, p < 0 := by
  refine ⟨index4 1 1 nx1 0 0 (0 - 1) i, by simp [opacityReads], ?_⟩
  simp only [index4]
  push_cast
  linarith

/-- In two dimensions too, in the third direction. -/
theorem opacity_reads_outside_2d (nx2 nx1 : ℕ) (j i : ℤ) (hj : j < nx2) (h1 : i < nx1) :
    ∃ p ∈ opacityReads 1 nx2 nx1 0 j i, p < 0 := by
  refine ⟨index4 1 nx2 nx1 0 (0 - 1) j i, by simp [opacityReads], ?_⟩
  simp only [index4]
  have : (nx1 : ℤ) * (j + nx2 * (0 - 1 + (1 : ℕ) * 0)) ≤ (nx1 : ℤ) * (-1) :=
    mul_le_mul_of_nonneg_left (by push_cast; linarith) (by positivity)
  linarith

/-- In three dimensions, with a layer of ghost cells around the cells, the reads are inside. -/
theorem opacity_reads_inside (nx3 nx2 nx1 : ℕ) (k j i : ℤ) (hk : 1 ≤ k) (hk' : k + 1 < nx3) (hj : 1 ≤ j)
    (hj' : j + 1 < nx2) (hi : 0 ≤ i) (hi' : i < nx1) :
    ∀ p ∈ opacityReads nx3 nx2 nx1 k j i, 0 ≤ p ∧ p < nx1 * nx2 * nx3 := by
  have key (k j : ℤ) (a : 0 ≤ k) (b : k < nx3) (c : 0 ≤ j) (d : j < nx2) :
      0 ≤ index4 nx3 nx2 nx1 0 k j i ∧ index4 nx3 nx2 nx1 0 k j i < nx1 * nx2 * nx3 := by
    simp only [index4, mul_zero, add_zero]
    have h1 : 0 ≤ j + nx2 * k := by positivity
    have h2 : j + nx2 * k + 1 ≤ nx2 * nx3 := by nlinarith
    constructor
    · positivity
    · nlinarith [mul_le_mul_of_nonneg_left h2 (show (0 : ℤ) ≤ nx1 by positivity)]
  intro p hp
  simp only [opacityReads, List.mem_cons, List.not_mem_nil, or_false] at hp
  rcases hp with rfl | rfl | rfl | rfl
  · exact key _ _ (by linarith) (by linarith) (by linarith) (by linarith)
  · exact key _ _ (by linarith) (by linarith) (by linarith) (by linarith)
  · exact key _ _ (by linarith) (by linarith) (by linarith) (by linarith)
  · exact key _ _ (by linarith) (by linarith) (by linarith) (by linarith)

/-- Examples. -/
example : tiny < |bm 1 ⟨⟨1, ⟨0, 0, 0⟩⟩, 0⟩ ⟨⟨2, ⟨0, 0, 0⟩⟩, 0⟩ (1 / 2) (1 / 2)
    - bp 1 ⟨⟨1, ⟨0, 0, 0⟩⟩, 0⟩ ⟨⟨2, ⟨0, 0, 0⟩⟩, 0⟩ (1 / 2) (1 / 2)| := by
  have s : (1 : ℝ) / 2 < √(1 / 3) := by rw [Real.lt_sqrt] <;> norm_num
  have hm : bm 1 ⟨⟨1, ⟨0, 0, 0⟩⟩, 0⟩ ⟨⟨2, ⟨0, 0, 0⟩⟩, 0⟩ (1 / 2) (1 / 2) = -(1 / 2) := by
    have e1 : min (1 / 2 * ((0 : ℝ) + 0) - 1 / 2 * (1 / 2 + 1 / 2)) (0 - 1 / 2) = -(1 / 2) := by norm_num
    have e2 : max (-(1 / 2 : ℝ)) (-1 * √(1 / 3)) = -(1 / 2) := max_eq_left (by linarith)
    simp only [bm, e1, e2]
    rw [if_pos (by norm_num)]
  have hp : bp 1 ⟨⟨1, ⟨0, 0, 0⟩⟩, 0⟩ ⟨⟨2, ⟨0, 0, 0⟩⟩, 0⟩ (1 / 2) (1 / 2) = 1 / 2 := by
    have e1 : max (1 / 2 * ((0 : ℝ) + 0) + 1 / 2 * (1 / 2 + 1 / 2)) (0 + 1 / 2) = 1 / 2 := by norm_num
    have e2 : min (1 / 2 : ℝ) (1 * √(1 / 3)) = 1 / 2 := min_eq_left (by linarith)
    simp only [bp, e1, e2]
    rw [if_pos (by norm_num)]
  rw [hm, hp]
  norm_num [tiny]

example : ∃ (b gp v : V3) (F σ : ℝ), dot b v ≠ 0 ∧ dot b gp ≠ 0 ∧ tiny < √(bsq b) * (1 / √1) ∧ tiny < |dot b gp|
    ∧ 1 / σ = 1 / 3 + 1 / sigmaAdv 10 1 b gp 2 0 ∧ σ * (F - dot b v / len b * (4 / 3 * 2 / 10)) = -(dot b gp / len b) := by
  have h5 : √(25 : ℝ) = 5 := by
    rw [show (25 : ℝ) = 5 ^ 2 by norm_num]; exact Real.sqrt_sq (by norm_num)
  have hb : bsq ⟨3, 4, 0⟩ = 25 := by norm_num [bsq]
  have hl : len ⟨3, 4, 0⟩ = 5 := by
    have : dot ⟨3, 4, 0⟩ ⟨3, 4, 0⟩ = 25 := by norm_num [dot]
    unfold len; rw [this, h5]
  have ht : tiny < √(bsq ⟨3, 4, 0⟩) * (1 / √1) := by rw [hb, h5]; norm_num [tiny]
  refine ⟨⟨3, 4, 0⟩, ⟨1, 0, 0⟩, ⟨1, 1, 0⟩, 28 / 75 - 23 / 15, 9 / 23, by norm_num [dot], by norm_num [dot], ht,
    by norm_num [dot, tiny], ?_⟩
  have hs : sigmaAdv 10 1 ⟨3, 4, 0⟩ ⟨1, 0, 0⟩ 2 0 = 9 / 20 := by
    simp only [sigmaAdv]
    rw [if_pos ht, hb, h5]
    norm_num [bGrad]
  rw [hs, hl]
  norm_num [dot]

end Verif.Cr
