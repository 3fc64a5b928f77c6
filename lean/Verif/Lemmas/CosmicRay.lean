import Verif.Spec.CosmicRay
import Mathlib.Tactic.FieldSimp
import Mathlib.Tactic.Ring
import Mathlib.Tactic.Linarith
import Mathlib.Tactic.LinearCombination
import Mathlib.Tactic.Positivity

/-!
# Lemmas about the cosmic-ray module
-/
namespace Verif.Cr

theorem inv_rot (a : Angle) (h : a.Ok) (v : V3) : invRotateVec a (rotateVec a v) = v := by
  obtain ⟨h1, h2⟩ := h
  ext
  · simp only [invRotateVec, rotateVec]
    linear_combination (a.cp ^ 2 * v.x + a.cp * a.sp * v.y) * h1 + v.x * h2
  · simp only [invRotateVec, rotateVec]
    linear_combination (a.sp * a.cp * v.x + a.sp ^ 2 * v.y) * h1 + v.y * h2
  · simp only [invRotateVec, rotateVec]
    linear_combination v.z * h1

theorem rot_inv (a : Angle) (h : a.Ok) (v : V3) : rotateVec a (invRotateVec a v) = v := by
  obtain ⟨h1, h2⟩ := h
  ext
  · simp only [invRotateVec, rotateVec]
    linear_combination v.x * h1 + (a.st * (a.st * v.x - a.ct * v.z)) * h2
  · simp only [invRotateVec, rotateVec]
    linear_combination v.y * h2
  · simp only [invRotateVec, rotateVec]
    linear_combination v.z * h1 - (a.ct * (a.st * v.x - a.ct * v.z)) * h2

theorem dot_dir_inv (a : Angle) (h : a.Ok) (w : V3) : dot a.dir (invRotateVec a w) = w.x := by
  obtain ⟨h1, h2⟩ := h
  simp only [dot, Angle.dir, invRotateVec]
  linear_combination w.x * h1 + (a.st * (a.st * w.x - a.ct * w.z)) * h2

theorem dot_dir (a : Angle) (w : V3) : dot a.dir w = (rotateVec a w).x := by
  simp only [dot, Angle.dir, rotateVec]; ring

theorem drag_inv (a : Angle) (h : a.Ok) (p t : ℝ) (w : V3) :
    drag p t a.dir (invRotateVec a w) = invRotateVec a ⟨p * w.x, t * w.y, t * w.z⟩ := by
  simp only [drag, dot_dir_inv a h]
  ext <;> simp only [Angle.dir, invRotateVec] <;> ring

/-- The equations that the implicit update solves, component by component. -/
theorem implicit_eqs {dt vmax : ℝ} {s v vt : V3} {c : CRay} (hv : vmax ≠ 0)
    (hx : 1 + dt * vmax * s.x ≠ 0) (hy : 1 + dt * vmax * s.y ≠ 0) (hz : 1 + dt * vmax * s.z ≠ 0)
    (he : eCoef dt vmax s v vt ≠ 0) :
    let r := implicit dt vmax s v vt c
    let q := slip vmax v r.e r.f
    r.f.x = c.f.x - dt * vmax * (s.x * q.x) ∧ r.f.y = c.f.y - dt * vmax * (s.y * q.y)
      ∧ r.f.z = c.f.z - dt * vmax * (s.z * q.z)
      ∧ r.e = c.e - dt * (vt.x * (s.x * q.x) + vt.y * (s.y * q.y) + vt.z * (s.z * q.z)) := by
  intro r q
  have fx : r.f.x * (1 + dt * vmax * s.x) = c.f.x - (-dt * v.x * s.x * 4 / 3) * r.e := div_mul_cancel₀ _ hx
  have fy : r.f.y * (1 + dt * vmax * s.y) = c.f.y - (-dt * v.y * s.y * 4 / 3) * r.e := div_mul_cancel₀ _ hy
  have fz : r.f.z * (1 + dt * vmax * s.z) = c.f.z - (-dt * v.z * s.z * 4 / 3) * r.e := div_mul_cancel₀ _ hz
  have fe : r.e * eCoef dt vmax s v vt = c.e - dt * s.x * vt.x * c.f.x / (1 + dt * vmax * s.x)
      - dt * s.y * vt.y * c.f.y / (1 + dt * vmax * s.y) - dt * s.z * vt.z * c.f.z / (1 + dt * vmax * s.z) :=
    div_mul_cancel₀ _ he
  have qx : q.x = r.f.x + -(4 / 3 * r.e / vmax) * v.x := rfl
  have qy : q.y = r.f.y + -(4 / 3 * r.e / vmax) * v.y := rfl
  have qz : q.z = r.f.z + -(4 / 3 * r.e / vmax) * v.z := rfl
  have cx : c.f.x = r.f.x * (1 + dt * vmax * s.x) + (-dt * v.x * s.x * 4 / 3) * r.e := by linarith
  have cy : c.f.y = r.f.y * (1 + dt * vmax * s.y) + (-dt * v.y * s.y * 4 / 3) * r.e := by linarith
  have cz : c.f.z = r.f.z * (1 + dt * vmax * s.z) + (-dt * v.z * s.z * 4 / 3) * r.e := by linarith
  refine ⟨?_, ?_, ?_, ?_⟩
  · rw [qx, cx]; field_simp; ring
  · rw [qy, cy]; field_simp; ring
  · rw [qz, cz]; field_simp; ring
  · rw [cx, cy, cz] at fe
    simp only [eCoef] at fe
    rw [qx, qy, qz]
    have : c.e = r.e * (1 - dt * s.x * vt.x * v.x * (1 / vmax) * 4 / 3 - dt * s.y * vt.y * v.y * (1 / vmax) * 4 / 3
        - dt * s.z * vt.z * v.z * (1 / vmax) * 4 / 3) + dt * s.x * vt.x * r.f.x + dt * s.y * vt.y * r.f.y
        + dt * s.z * vt.z * r.f.z := by
      generalize r.e = e at *
      generalize r.f.x = X at *
      generalize r.f.y = Y at *
      generalize r.f.z = Z at *
      have e0 (k X D z : ℝ) (hD : D ≠ 0) : k * (X * D + z * e) / D = k * X + e * (k * z / D) := by
        field_simp
      rw [e0 _ _ _ _ hx, e0 _ _ _ _ hy, e0 _ _ _ _ hz] at fe
      linear_combination -fe
    rw [this]; field_simp; ring

/-- The divisor of the energy, in a form that shows its sign. -/
theorem eCoef_eq {dt vmax : ℝ} {s v vt : V3} (hv : vmax ≠ 0)
    (hx : 1 + dt * vmax * s.x ≠ 0) (hy : 1 + dt * vmax * s.y ≠ 0) (hz : 1 + dt * vmax * s.z ≠ 0) :
    eCoef dt vmax s v vt = 1 - 4 / 3 / vmax * (dt * s.x / (1 + dt * vmax * s.x) * (vt.x * v.x)
      + dt * s.y / (1 + dt * vmax * s.y) * (vt.y * v.y) + dt * s.z / (1 + dt * vmax * s.z) * (vt.z * v.z)) := by
  simp only [eCoef]
  have e1 (σ w u : ℝ) (h : 1 + dt * vmax * σ ≠ 0) :
      dt * σ * w * u * (1 / vmax) * 4 / 3 + dt * σ * w * (-dt * u * σ * 4 / 3) / (1 + dt * vmax * σ)
        = 4 / 3 / vmax * (dt * σ / (1 + dt * vmax * σ) * (w * u)) := by
    rw [eq_comm]
    have k : dt * vmax * σ = (1 + dt * vmax * σ) - 1 := by ring
    generalize hD : 1 + dt * vmax * σ = D at *
    have : dt * σ = (D - 1) / vmax := by rw [eq_div_iff hv]; linarith
    have e : -dt * u * σ * 4 / 3 = -((D - 1) / vmax) * u * 4 / 3 := by rw [← this]; ring
    rw [e, this]; field_simp; ring
  have a1 := e1 s.x vt.x v.x hx
  have a2 := e1 s.y vt.y v.y hy
  have a3 := e1 s.z vt.z v.z hz
  linear_combination -a1 - a2 - a3

/-- `dt σ/(1 + dt vmax σ)` lies between 0 and `1/vmax`. -/
theorem frac_bounds {dt vmax σ : ℝ} (ht : 0 ≤ dt) (hv : 0 < vmax) (hs : 0 ≤ σ) :
    0 ≤ dt * σ / (1 + dt * vmax * σ) ∧ dt * σ / (1 + dt * vmax * σ) ≤ 1 / vmax := by
  have h : 0 < 1 + dt * vmax * σ := by positivity
  refine ⟨by positivity, ?_⟩
  rw [div_le_div_iff₀ h hv]
  nlinarith

theorem eCoef_pos {dt vmax : ℝ} {s v vt : V3} (ht : 0 ≤ dt) (hv : 0 < vmax) (hx : 0 ≤ s.x) (hy : 0 ≤ s.y)
    (hz : 0 ≤ s.z) (h : 4 / 3 * (|vt.x * v.x| + |vt.y * v.y| + |vt.z * v.z|) < vmax ^ 2) :
    0 < eCoef dt vmax s v vt := by
  have p (σ : ℝ) (hs : 0 ≤ σ) : 1 + dt * vmax * σ ≠ 0 := by positivity
  rw [eCoef_eq hv.ne' (p _ hx) (p _ hy) (p _ hz)]
  have q (σ y : ℝ) (hs : 0 ≤ σ) : dt * σ / (1 + dt * vmax * σ) * y ≤ 1 / vmax * |y| := by
    obtain ⟨h0, h1⟩ := frac_bounds (vmax := vmax) ht hv hs
    calc _ ≤ dt * σ / (1 + dt * vmax * σ) * |y| := mul_le_mul_of_nonneg_left (le_abs_self y) h0
      _ ≤ _ := mul_le_mul_of_nonneg_right h1 (abs_nonneg y)
  have q1 := q s.x (vt.x * v.x) hx
  have q2 := q s.y (vt.y * v.y) hy
  have q3 := q s.z (vt.z * v.z) hz
  have hk : 0 ≤ 4 / 3 / vmax := by positivity
  have := mul_le_mul_of_nonneg_left (add_le_add (add_le_add q1 q2) q3) hk
  have e : 4 / 3 / vmax * (1 / vmax * |vt.x * v.x| + 1 / vmax * |vt.y * v.y| + 1 / vmax * |vt.z * v.z|)
      = 4 / 3 * (|vt.x * v.x| + |vt.y * v.y| + |vt.z * v.z|) / vmax ^ 2 := by field_simp
  rw [e] at this
  have h2 : 4 / 3 * (|vt.x * v.x| + |vt.y * v.y| + |vt.z * v.z|) / vmax ^ 2 < 1 := by
    rw [div_lt_one (by positivity)]; exact h
  linarith

/-- The right side of the equation for the new energy is not negative if the flux is at most the energy. -/
theorem rhs_nonneg {dt vmax : ℝ} {s vt : V3} {c : CRay} (ht : 0 ≤ dt) (hv : 0 < vmax) (hx : 0 ≤ s.x)
    (hy : 0 ≤ s.y) (hz : 0 ≤ s.z) (h : |vt.x * c.f.x| + |vt.y * c.f.y| + |vt.z * c.f.z| ≤ vmax * c.e) :
    0 ≤ c.e - dt * s.x * vt.x * c.f.x / (1 + dt * vmax * s.x)
      - dt * s.y * vt.y * c.f.y / (1 + dt * vmax * s.y) - dt * s.z * vt.z * c.f.z / (1 + dt * vmax * s.z) := by
  have q (σ w y : ℝ) (hs : 0 ≤ σ) : dt * σ * w * y / (1 + dt * vmax * σ) ≤ 1 / vmax * |w * y| := by
    obtain ⟨h0, h1⟩ := frac_bounds (vmax := vmax) ht hv hs
    calc _ = dt * σ / (1 + dt * vmax * σ) * (w * y) := by ring
      _ ≤ dt * σ / (1 + dt * vmax * σ) * |w * y| := mul_le_mul_of_nonneg_left (le_abs_self _) h0
      _ ≤ _ := mul_le_mul_of_nonneg_right h1 (abs_nonneg _)
  have q1 := q s.x vt.x c.f.x hx
  have q2 := q s.y vt.y c.f.y hy
  have q3 := q s.z vt.z c.f.z hz
  have : 1 / vmax * (|vt.x * c.f.x| + |vt.y * c.f.y| + |vt.z * c.f.z|) ≤ c.e := by
    rw [one_div, inv_mul_le_iff₀ hv]; exact h
  linarith

theorem diffv_sq_bounds {τ : ℝ} (h : 0 < τ) : 0 < diffv τ ∧ diffv τ ≤ 1 ∧ diffv τ ^ 2 * τ ≤ 1 := by
  unfold diffv
  split
  · rename_i hl
    have h0 : 0 < 1 - 1 / 2 * τ := by linarith
    refine ⟨Real.sqrt_pos.mpr h0, ?_, ?_⟩
    · exact Real.sqrt_le_iff.mpr ⟨zero_le_one, by linarith⟩
    · rw [Real.sq_sqrt h0.le]; nlinarith
  · have he : Real.exp (-τ) < 1 := by
      rw [← Real.exp_zero]; exact Real.exp_lt_exp.mpr (by linarith)
    have h1 : 1 - τ ≤ Real.exp (-τ) := by have := Real.add_one_le_exp (-τ); linarith
    have h0 : 0 < (1 - Real.exp (-τ)) / τ := div_pos (by linarith) h
    refine ⟨Real.sqrt_pos.mpr h0, ?_, ?_⟩
    · refine Real.sqrt_le_iff.mpr ⟨zero_le_one, ?_⟩
      rw [div_le_iff₀ h]; linarith
    · rw [Real.sq_sqrt h0.le, div_mul_cancel₀ _ h.ne']
      have := Real.exp_pos (-τ); linarith

theorem bm_bounds (vmax : ℝ) (hv : 0 ≤ vmax) (l r : Side) (dl dr : ℝ) :
    -(vmax * √(1 / 3)) ≤ bm vmax l r dl dr ∧ bm vmax l r dl dr ≤ 0 := by
  have := Real.sqrt_nonneg (1 / 3 : ℝ)
  have h0 : 0 ≤ vmax * √(1 / 3) := mul_nonneg hv this
  simp only [bm]
  split
  · rename_i h
    exact ⟨le_trans (by linarith) (le_max_right _ _), h.le⟩
  · exact ⟨by linarith, le_refl _⟩

theorem bp_bounds (vmax : ℝ) (hv : 0 ≤ vmax) (l r : Side) (dl dr : ℝ) :
    0 ≤ bp vmax l r dl dr ∧ bp vmax l r dl dr ≤ vmax * √(1 / 3) := by
  have := Real.sqrt_nonneg (1 / 3 : ℝ)
  have h0 : 0 ≤ vmax * √(1 / 3) := mul_nonneg hv this
  simp only [bp]
  split
  · rename_i h
    exact ⟨h.le, min_le_right _ _⟩
  · exact ⟨le_refl _, h0⟩

/-- The combination of the two sides in `CRFlux` is the HLL mean. -/
theorem comb_hll {m p fl fr ul ur : ℝ} (h : p - m ≠ 0) :
    1 / 2 * ((fl - m * ul) + (fr - p * ur)) + ((fl - m * ul) - (fr - p * ur)) * (1 / 2 * (p + m) / (p - m))
      = hll m p fl fr ul ur := by
  unfold hll; field_simp; ring

/-- The coefficients of the specification are those of the model. -/
theorem Coeffs.eqs {C : Cfg} {q : CellData} {g : Gas} {s v vt : V3} (h : Coeffs C q g s v vt) :
    s = opacity C.stream q.sd q.sa ∧ v = gasVel C g ∧ vt = waveVel C q g ∧ 0 ≤ s.x ∧ 0 ≤ s.y ∧ 0 ≤ s.z := by
  obtain ⟨⟨d1, d2, d3⟩, ⟨a1, a2, a3⟩, hv, hw, hs⟩ := h
  have ev : v = gasVel C g := hv
  have es : s = opacity C.stream q.sd q.sa := by
    unfold opacity
    cases hst : C.stream
    · rw [hst] at hs; simpa using hs
    · rw [hst] at hs
      simp only [if_true] at hs ⊢
      ext <;> simp only [harm]
      · rw [eq_div_iff (by positivity)]; exact hs.1
      · rw [eq_div_iff (by positivity)]; exact hs.2.1
      · rw [eq_div_iff (by positivity)]; exact hs.2.2
  refine ⟨es, ev, ?_, ?_⟩
  · rw [hw]
    unfold waveVel
    rw [← ev]
    cases C.stream
    · rfl
    · simp only [if_true, V3.add]
      ext <;> simp only [] <;> ring
  · rw [es]
    unfold opacity
    cases C.stream
    · exact ⟨d1.le, d2.le, d3.le⟩
    · simp only [if_true, harm]
      exact ⟨by positivity, by positivity, by positivity⟩

end Verif.Cr
