import Verif.Lemmas.CosmicRay
import Mathlib.Tactic.NormNum.Pow
import Mathlib.Tactic.Ring.RingNF

/-!
# Cosmic rays: exchange of energy and momentum with the gas (C81)
-/
namespace Verif.Cr

/-! ## Rotation to the field -/

/-- `InvRotateVec` undoes `RotateVec` and the other way round, and scalar products are kept. -/
theorem rotation (a : Angle) (h : a.Ok) (v w : V3) :
    invRotateVec a (rotateVec a v) = v ∧ rotateVec a (invRotateVec a v) = v
      ∧ dot (rotateVec a v) (rotateVec a w) = dot v w := by
  refine ⟨inv_rot a h v, rot_inv a h v, ?_⟩
  obtain ⟨h1, h2⟩ := h
  simp only [dot, rotateVec]
  linear_combination ((a.cp * v.x + a.sp * v.y) * (a.cp * w.x + a.sp * w.y) + v.z * w.z) * h1
    + (v.x * w.x + v.y * w.y) * h2

/-- The angles stored for a field are the sine and cosine of angles, and unless the field is as small as
`TINY_NUMBER` the first axis of the rotated frame is the direction of the field: the field rotates to
`(|B|, 0, 0)`.  A field close to the axis is excluded, where the code takes azimuth 0. -/
theorem field_angles (b : V3) (h : tiny < √(b.x * b.x + b.y * b.y)) :
    (bAngle b).Ok ∧ rotateVec (bAngle b) b = ⟨len b, 0, 0⟩ := by
  have t0 : 0 < tiny := by unfold tiny; norm_num
  set q := √(b.x * b.x + b.y * b.y) with hq
  set n := √(bsq b) with hn
  have q0 : 0 < q := lt_trans t0 h
  have q2 : q * q = b.x * b.x + b.y * b.y := Real.mul_self_sqrt (by nlinarith)
  have n2 : n * n = b.x * b.x + b.y * b.y + b.z * b.z :=
    Real.mul_self_sqrt (by unfold bsq; nlinarith [mul_self_nonneg b.x, mul_self_nonneg b.y, mul_self_nonneg b.z])
  have hqn : q ≤ n := Real.sqrt_le_sqrt (by unfold bsq; nlinarith [mul_self_nonneg b.z])
  have n0 : 0 < n := lt_of_lt_of_le q0 hqn
  have hl : len b = n := rfl
  have e : bAngle b = ⟨q / n, b.z / n, b.y / q, b.x / q⟩ := by
    unfold bAngle
    simp only [← hq, ← hn, if_pos h, if_pos (lt_of_lt_of_le h hqn)]
  rw [e, hl]
  refine ⟨⟨?_, ?_⟩, ?_⟩
  · simp only []; field_simp; nlinarith
  · simp only []; field_simp; nlinarith
  · ext
    · simp only [rotateVec]; field_simp; nlinarith
    · simp only [rotateVec]; field_simp; ring
    · simp only [rotateVec]; field_simp; linear_combination b.z * q2

/-- The stored numbers are the sine and cosine of angles for every field. -/
theorem field_angles_ok (b : V3) : (bAngle b).Ok := by
  have t0 : 0 < tiny := by unfold tiny; norm_num
  set q := √(b.x * b.x + b.y * b.y) with hq
  set n := √(bsq b) with hn
  have q2 : q * q = b.x * b.x + b.y * b.y := Real.mul_self_sqrt (by nlinarith [mul_self_nonneg b.x, mul_self_nonneg b.y])
  have n2 : n * n = b.x * b.x + b.y * b.y + b.z * b.z :=
    Real.mul_self_sqrt (by unfold bsq; nlinarith [mul_self_nonneg b.x, mul_self_nonneg b.y, mul_self_nonneg b.z])
  constructor
  · simp only [bAngle, ← hq, ← hn]
    split
    · rename_i h
      have n0 : 0 < n := lt_trans t0 h
      field_simp; nlinarith
    · norm_num
  · simp only [bAngle, ← hq]
    split
    · rename_i h
      have q0 : 0 < q := lt_trans t0 h
      field_simp; nlinarith
    · norm_num

/-- A field along the third axis also rotates to `(|B|, 0, 0)`. -/
theorem field_angles_axis (b : V3) (h : b.x = 0) (h' : b.y = 0) (hz : tiny < |b.z|) :
    (bAngle b).Ok ∧ rotateVec (bAngle b) b = ⟨len b, 0, 0⟩ := by
  have t0 : 0 < tiny := by unfold tiny; norm_num
  have eq : √(b.x * b.x + b.y * b.y) = 0 := by rw [h, h']; simp
  have en : √(bsq b) = |b.z| := by unfold bsq; rw [h, h']; simp [Real.sqrt_mul_self_eq_abs]
  have z0 : b.z ≠ 0 := fun hh => by rw [hh, abs_zero] at hz; linarith
  have e : bAngle b = ⟨0, b.z / |b.z|, 0, 1⟩ := by
    unfold bAngle
    simp only [eq, en, if_pos hz, if_neg (not_lt.mpr t0.le), zero_div]
  have hl : len b = |b.z| := en
  have hs : |b.z| * |b.z| = b.z * b.z := abs_mul_abs_self _
  have ha : |b.z| ≠ 0 := abs_ne_zero.mpr z0
  rw [e, hl]
  refine ⟨⟨?_, ?_⟩, ?_⟩
  · simp only []; field_simp; nlinarith
  · norm_num
  · ext
    · simp only [rotateVec]; field_simp; nlinarith
    · simp only [rotateVec]; rw [h, h']; ring
    · simp only [rotateVec]; rw [h, h']; ring

/-! ## C81: exchange of energy and momentum with the gas -/

/-- Without magnetic fields: the new energy and flux solve the backward Euler step of the equations of scattering,
for every time step, if the gas and the waves are slow compared to `vmax`. -/
theorem source_hydro (C : Cfg) (q : CellData) (dt : ℝ) (g : Gas) (c : CRay) (hm : C.mhd = false) (ht : 0 ≤ dt)
    (hv : 0 < C.vmax) (s v vt : V3) (hc : Coeffs C q g s v vt)
    (hslow : 4 / 3 * (|vt.x * v.x| + |vt.y * v.y| + |vt.z * v.z|) < C.vmax ^ 2) :
    ∃ e f, newCr C q dt g c = ⟨e, f⟩
      ∧ f.x = c.f.x - dt * C.vmax * (s.x * (slip C.vmax v e f).x)
      ∧ f.y = c.f.y - dt * C.vmax * (s.y * (slip C.vmax v e f).y)
      ∧ f.z = c.f.z - dt * C.vmax * (s.z * (slip C.vmax v e f).z)
      ∧ e = c.e - dt * (vt.x * (s.x * (slip C.vmax v e f).x) + vt.y * (s.y * (slip C.vmax v e f).y)
          + vt.z * (s.z * (slip C.vmax v e f).z)) := by
  obtain ⟨es, ev, evt, hx, hy, hz⟩ := hc.eqs
  have hp (σ : ℝ) (h : 0 ≤ σ) : 1 + dt * C.vmax * σ ≠ 0 := by positivity
  have := implicit_eqs (c := c) hv.ne' (hp _ hx) (hp _ hy) (hp _ hz) (eCoef_pos ht hv hx hy hz hslow).ne'
  refine ⟨_, _, ?_, this⟩
  unfold newCr
  rw [hm, es, ev, evt]
  rfl

/-- With magnetic fields: in the frame of the field there is no work across the field (it is added as `ec_source_`),
and the new flux solves the backward Euler step with the drag `σ` along the field and `σ'` across it, written without
reference to the rotated frame. -/
theorem source_mhd (C : Cfg) (q : CellData) (dt : ℝ) (g : Gas) (c : CRay) (hm : C.mhd = true) (ht : 0 ≤ dt)
    (hv : 0 < C.vmax) (ha : q.ang.Ok) (s v vt : V3) (hc : Coeffs C q g s v vt) (hyz : s.y = s.z)
    (hslow : 4 / 3 * |dot q.ang.dir vt * dot q.ang.dir v| < C.vmax ^ 2) :
    ∃ e f, newCr C q dt g c = ⟨e + dt * q.ecs, f⟩
      ∧ f = c.f.add (-(dt * C.vmax)) (drag s.x s.y q.ang.dir (slip C.vmax v e f))
      ∧ e = c.e - dt * (dot q.ang.dir vt * (s.x * dot q.ang.dir (slip C.vmax v e f))) := by
  obtain ⟨es, ev, evt, hx, hy, hz⟩ := hc.eqs
  have hp (σ : ℝ) (h : 0 ≤ σ) : 1 + dt * C.vmax * σ ≠ 0 := by positivity
  set a := q.ang
  set V := rotateVec a v with hV
  set W : V3 := ⟨(rotateVec a vt).x, 0, 0⟩ with hW
  have hslow' : 4 / 3 * (|W.x * V.x| + |W.y * V.y| + |W.z * V.z|) < C.vmax ^ 2 := by
    have : W.x * V.x = dot a.dir vt * dot a.dir v := by rw [dot_dir, dot_dir]
    rw [this]; simpa [hW] using hslow
  obtain ⟨h1, h2, h3, h4⟩ := implicit_eqs (c := ⟨c.e, rotateVec a c.f⟩) hv.ne' (hp _ hx) (hp _ hy) (hp _ hz)
    (eCoef_pos (v := V) (vt := W) ht hv hx hy hz hslow').ne'
  set r := implicit dt C.vmax s V W ⟨c.e, rotateVec a c.f⟩ with hr
  have hslip : slip C.vmax v r.e (invRotateVec a r.f) = invRotateVec a (slip C.vmax V r.e r.f) := by
    have : v = invRotateVec a V := (inv_rot a ha v).symm
    conv_lhs => rw [this]
    ext <;> simp only [slip, V3.add, invRotateVec] <;> ring
  refine ⟨r.e, invRotateVec a r.f, ?_, ?_, ?_⟩
  · unfold newCr
    rw [hm]
    simp only [if_true]
    rw [← es, ← ev, ← evt]
  · rw [hslip, drag_inv a ha]
    have hc : c.f = invRotateVec a (rotateVec a c.f) := (inv_rot a ha c.f).symm
    rw [hyz] at h2 ⊢
    conv_rhs => rw [hc]
    ext
    · simp only [V3.add, invRotateVec, h1, h2, h3]; ring
    · simp only [V3.add, invRotateVec, h1, h2, h3]; ring
    · simp only [V3.add, invRotateVec, h1, h3]; ring
  · rw [hslip, dot_dir_inv a ha, dot_dir]
    simp only [hW] at h4
    linarith

/-- The sum of the momentum of the gas and that of the cosmic rays, `F/vmax`, is unchanged, always. -/
theorem momentum_conserved (C : Cfg) (q : CellData) (dt : ℝ) (g : Gas) (c : CRay) (hs : C.src = true)
    (g' : Gas) (c' : CRay) (h : addSource C q dt g c = (g', c')) :
    g'.m.add (1 / C.vmax) c'.f = g.m.add (1 / C.vmax) c.f := by
  have hg : (addSource C q dt g c).1 = g' := by rw [h]
  have hc : (addSource C q dt g c).2 = c' := by rw [h]
  rw [← hg, ← hc]
  simp only [addSource, hs, if_true, V3.add]
  ext <;> simp only [] <;> ring

/-- With `src_flag = 0` the gas is not touched. -/
theorem gas_passive (C : Cfg) (q : CellData) (dt : ℝ) (g : Gas) (c : CRay) (hs : C.src = false) :
    (addSource C q dt g c).1 = g := by
  simp [addSource, gasEnergy, hs]

/-- The sum of the energies is unchanged if neither of the two energies would become negative. -/
theorem energy_conserved (C : Cfg) (q : CellData) (dt : ℝ) (g : Gas) (c : CRay) (hs : C.src = true)
    (hb : C.nonbaro = true) (h1 : 0 ≤ (newCr C q dt g c).e)
    (h2 : (newCr C q dt g c).e ≤ g.en + c.e) (g' : Gas) (c' : CRay) (h : addSource C q dt g c = (g', c')) :
    g'.en + c'.e = g.en + c.e ∧ 0 ≤ g'.en ∧ 0 ≤ c'.e := by
  have hg : (addSource C q dt g c).1 = g' := by rw [h]
  have hc : (addSource C q dt g c).2 = c' := by rw [h]
  rw [← hg, ← hc]
  simp only [addSource, gasEnergy, hs, hb, Bool.and_self, if_true]
  rw [if_neg (by linarith), if_neg (by linarith)]
  refine ⟨by ring, by linarith, h1⟩

/-- The energy of the cosmic rays does not become negative if the flux is at most the energy and the waves are slower
than `vmax`: no check is needed then.  Without magnetic fields. -/
theorem energy_nonneg (C : Cfg) (q : CellData) (dt : ℝ) (g : Gas) (c : CRay) (hm : C.mhd = false) (ht : 0 ≤ dt)
    (hv : 0 < C.vmax) (s v vt : V3) (hc : Coeffs C q g s v vt)
    (hslow : 4 / 3 * (|vt.x * v.x| + |vt.y * v.y| + |vt.z * v.z|) < C.vmax ^ 2)
    (hf : |vt.x * c.f.x| + |vt.y * c.f.y| + |vt.z * c.f.z| ≤ C.vmax * c.e) :
    0 ≤ (newCr C q dt g c).e := by
  obtain ⟨es, ev, evt, hx, hy, hz⟩ := hc.eqs
  have e : newCr C q dt g c = implicit dt C.vmax s v vt c := by
    unfold newCr; rw [hm, es, ev, evt]; rfl
  rw [e]
  exact div_nonneg (rhs_nonneg ht hv hx hy hz hf) (eCoef_pos ht hv hx hy hz hslow).le

/-- The same along the field with magnetic fields, before the work across the field is added. -/
theorem energy_nonneg_mhd (C : Cfg) (q : CellData) (dt : ℝ) (g : Gas) (c : CRay) (hm : C.mhd = true) (ht : 0 ≤ dt)
    (hv : 0 < C.vmax) (s v vt : V3) (hc : Coeffs C q g s v vt)
    (hslow : 4 / 3 * |dot q.ang.dir vt * dot q.ang.dir v| < C.vmax ^ 2)
    (hf : |dot q.ang.dir vt * dot q.ang.dir c.f| ≤ C.vmax * c.e) :
    dt * q.ecs ≤ (newCr C q dt g c).e := by
  obtain ⟨es, ev, evt, hx, hy, hz⟩ := hc.eqs
  have e : (newCr C q dt g c).e = (implicit dt C.vmax s (rotateVec q.ang v) ⟨(rotateVec q.ang vt).x, 0, 0⟩
      ⟨c.e, rotateVec q.ang c.f⟩).e + dt * q.ecs := by
    unfold newCr; rw [hm, es, ev, evt]; rfl
  rw [e]
  have : 0 ≤ (implicit dt C.vmax s (rotateVec q.ang v) ⟨(rotateVec q.ang vt).x, 0, 0⟩
      ⟨c.e, rotateVec q.ang c.f⟩).e := by
    refine div_nonneg (rhs_nonneg (c := ⟨c.e, rotateVec q.ang c.f⟩) ht hv hx hy hz ?_)
      (eCoef_pos ht hv hx hy hz ?_).le
    · rw [dot_dir, dot_dir] at hf; simpa using hf
    · rw [dot_dir, dot_dir] at hslow; simpa using hslow
  linarith

/-- The condition on the speeds in the theorems above is of the right size: with the gas and the waves moving at
`2 vmax` the divisor vanishes for some opacity, and the code divides by zero. -/
theorem fast_gas_divides_by_zero : ∃ dt s, 0 < dt ∧ 0 < s ∧ eCoef dt 1 ⟨s, 0, 0⟩ ⟨2, 0, 0⟩ ⟨2, 0, 0⟩ = 0 := by
  refine ⟨1, 3 / 13, by norm_num, by norm_num, ?_⟩
  rw [eCoef_eq (by norm_num) (by norm_num) (by norm_num) (by norm_num)]
  norm_num

/-- A run without field in which the gas at rest has energy 1 and the cosmic rays have energy 1; the waves
stream along the first axis at half the speed `vmax`. -/
noncomputable def clipCfg : Cfg := ⟨false, true, true, true, 1, 1 / 10 ^ 10⟩
@[inherit_doc clipCfg] noncomputable def clipCell : CellData := ⟨allocated, ⟨2, 2, 2⟩, ⟨2, 2, 2⟩, ⟨1 / 2, 0, 0⟩, 0⟩

theorem clip_new (f : ℝ) : newCr clipCfg clipCell 1 ⟨1, ⟨0, 0, 0⟩, 1⟩ ⟨1, ⟨f, 0, 0⟩⟩
    = ⟨1 - 1 / 4 * f, ⟨1 / 2 * f, 0, 0⟩⟩ := by
  have hmx : max (1 : ℝ) (1 / 10 ^ 10) = 1 := max_eq_left (by norm_num)
  ext <;>
    norm_num [newCr, clipCfg, clipCell, implicit, eCoef, opacity, harm, gasVel, waveVel, hmx] <;> ring

/-- The checks do not conserve energy.  If the new energy of the cosmic rays comes out negative, the gas is given the
energy that they lose and afterwards they are given back what they had: in this step the sum of the energies grows from
2 to 7/2. -/
theorem energy_not_conserved :
    ∃ g' c', addSource clipCfg clipCell 1 ⟨1, ⟨0, 0, 0⟩, 1⟩ ⟨1, ⟨6, 0, 0⟩⟩ = (g', c')
      ∧ g'.en = 5 / 2 ∧ c'.e = 1 := by
  refine ⟨_, _, rfl, ?_, ?_⟩
  · simp only [gasEnergy, clip_new]
    norm_num [clipCfg]
  · simp only [clip_new]
    norm_num

/-- In the other check the gas keeps the energy that it should have lost: the sum grows from 2 to 7/2. -/
theorem energy_not_conserved_gas :
    ∃ g' c', addSource clipCfg clipCell 1 ⟨1, ⟨0, 0, 0⟩, 1⟩ ⟨1, ⟨-6, 0, 0⟩⟩ = (g', c')
      ∧ g'.en = 1 ∧ c'.e = 5 / 2 := by
  refine ⟨_, _, rfl, ?_, ?_⟩
  · simp only [gasEnergy, clip_new]
    norm_num [clipCfg]
  · simp only [clip_new]
    norm_num

/-- With magnetic fields, `vs_flag = 0` and the default opacity function, the angles are never set: they keep the zeros
of the allocation, and every source step sets the flux of the cosmic rays to zero and hands its momentum to the gas,
whatever the opacity, the field and the time step. -/
theorem flux_lost (C : Cfg) (q : CellData) (dt : ℝ) (g : Gas) (c : CRay) (b : V3) (hm : C.mhd = true)
    (hst : C.stream = false) (hs : C.src = true) (hq : q.ang = defaultAngle C.mhd C.stream b allocated) :
    (addSource C q dt g c).2.f = ⟨0, 0, 0⟩ ∧ (addSource C q dt g c).1.m = g.m.add (1 / C.vmax) c.f := by
  have ha : q.ang = allocated := by rw [hq, hst]; simp [defaultAngle]
  have hf : (newCr C q dt g c).f = ⟨0, 0, 0⟩ := by
    unfold newCr
    rw [hm]
    simp only [if_true, ha]
    ext <;> simp [invRotateVec, allocated]
  constructor
  · exact hf
  · simp only [addSource, hs, if_true, hf, V3.add]
    ext <;> simp only [] <;> ring

/-- With streaming the default function sets the angles of the field. -/
theorem angles_set (b : V3) (old : Angle) : defaultAngle true true b old = bAngle b := rfl

/-- Examples: a gas moving at a tenth of `vmax` with a flux of half the energy meets the conditions of the theorems
without field, and of those with a field along the diagonal of the first two axes. -/
example : ∃ (C : Cfg) (q : CellData) (g : Gas) (c : CRay) (s v vt : V3),
    C.mhd = false ∧ 0 < C.vmax ∧ Coeffs C q g s v vt ∧ 0 < s.x ∧ v.x ≠ 0 ∧ vt.x ≠ v.x
      ∧ 4 / 3 * (|vt.x * v.x| + |vt.y * v.y| + |vt.z * v.z|) < C.vmax ^ 2
      ∧ |vt.x * c.f.x| + |vt.y * c.f.y| + |vt.z * c.f.z| ≤ C.vmax * c.e := by
  have hmx : max (1 : ℝ) (1 / 10 ^ 10) = 1 := max_eq_left (by norm_num)
  refine ⟨clipCfg, clipCell, ⟨1, ⟨1 / 10, 0, 0⟩, 1⟩, ⟨1, ⟨1 / 2, 0, 0⟩⟩, ⟨1, 1, 1⟩, ⟨1 / 10, 0, 0⟩,
    ⟨3 / 5, 0, 0⟩, rfl, ?_, ⟨?_, ?_, ?_, ?_, ?_⟩, ?_⟩ <;>
  norm_num [clipCfg, clipCell, hmx, V3.add, abs_of_pos]

example : ∃ (C : Cfg) (q : CellData) (g : Gas) (c : CRay) (s v vt : V3),
    C.mhd = true ∧ 0 < C.vmax ∧ q.ang.Ok ∧ Coeffs C q g s v vt ∧ 0 < s.x ∧ s.y = s.z ∧ s.x ≠ s.y ∧ dot q.ang.dir v ≠ 0
      ∧ 4 / 3 * |dot q.ang.dir vt * dot q.ang.dir v| < C.vmax ^ 2
      ∧ |dot q.ang.dir vt * dot q.ang.dir c.f| ≤ C.vmax * c.e := by
  have hmx : max (1 : ℝ) (1 / 10 ^ 10) = 1 := max_eq_left (by norm_num)
  refine ⟨⟨true, true, true, true, 1, 1 / 10 ^ 10⟩, ⟨⟨1, 0, 4 / 5, 3 / 5⟩, ⟨2, 20, 20⟩, ⟨2, 20, 20⟩, ⟨1 / 5, 0, 0⟩, 0⟩,
    ⟨1, ⟨1 / 10, 0, 0⟩, 1⟩, ⟨1, ⟨1 / 2, 0, 0⟩⟩, ⟨1, 10, 10⟩, ⟨1 / 10, 0, 0⟩, ⟨3 / 10, 0, 0⟩, rfl, ?_, ⟨?_, ?_⟩,
    ⟨?_, ?_, ?_, ?_, ?_⟩, ?_⟩ <;>
  norm_num [hmx, V3.add, dot, Angle.dir, abs_of_pos]

end Verif.Cr
