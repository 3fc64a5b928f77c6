import Verif.Lemmas.SrcTerms

/-!
# C64: forces do work and nothing else

Physical source terms: density, passive scalars and ghost cells are untouched; the energy changes by the work of the
forces; rotating frame and orbital motion agree with an inertial frame; equilibria; default orbital velocities.
-/
namespace Verif.SrcTerms
open Verif.Grid Verif.Coord Verif.Arr

variable {C : Conf} {d : Dims} {D : Data} {dt : ℝ} {f : Flags} {u u' : A4 ℝ}

/-! ## What changes -/

/-- Density, variables beyond the energy, cells that are not active, and with a barotropic equation of state everything but
momentum are left alone. -/
theorem untouched (hd : d.Ok) (h : addSourceTerms C d D dt f none u = some u') (n k j i : ℤ)
    (hn : n < 1 ∨ 4 < n ∨ (n = 4 ∧ C.nonBaro = false) ∨ ¬ Active d k j i) : u' (n, k, j, i) = u (n, k, j, i) := by
  rw [addSourceTerms_at C d D dt (ks_le_ke hd) h]
  by_cases ha : Active d k j i
  · rw [if_pos ha, tot_zero, add_zero]
    · rintro rfl; simp_all
    · rintro rfl; simp_all
    · rintro rfl; simp_all
    · rintro ⟨h1, rfl⟩
      simp_all
  · rw [if_neg ha, add_zero]

/-- If the constructor finds that no source term is defined, `AddSourceTerms` would change nothing: the task list
may leave it out. -/
theorem undefined_is_nothing (hc : construct C d.nx3 false = some f) (hf : f.defined = false) :
    addSourceTerms C d D dt f none u = some u := by
  obtain ⟨h1, h2, -, -, h5⟩ := construct_spec hc
  rw [hf] at h5
  simp only [false_iff, not_or, not_not, Bool.not_eq_true, Bool.false_eq_true] at h5
  obtain ⟨g0, ⟨g1, g2, g3⟩, s0, sg, -⟩ := h5
  unfold addSourceTerms
  simp [g0, g1, g2, g3, s0, sg, h1]

/-! ## Work -/

/-- Cartesian coordinates: the energy of a cell changes by the work of the forces, exactly, when the mass fluxes at its faces
are those of its own density and velocity. With orbital advection the magnetic stress takes energy from the shear.
The orbital velocity at a cell centre must be the mean of the two faces if it is given by the user, and
`user_velocity_field_energy` excludes a field together with a vertical shear. -/
theorem no_heating_cartesian (hd : d.Ok) (hcon : construct C d.nx3 false = some f) (h : addSourceTerms C d D dt f none u = some u')
    {k j i : ℤ} (hc : C.c = .cartesian) (hb : C.nonBaro = true) (ha : Active d k j i) (g : Good .cartesian D.X k j i)
    (hT : Through D k j i)
    (hu : C.oa = true → C.userVel = true → D.vKf1 k i + D.vKf1 k (i+1) = 2 * D.vKc k i ∧
      (C.mhd = true → ¬ (d.nx3 > 1 ∧ D.dvKc2 k i ≠ 0))) :
    u' (4, k, j, i) - u (4, k, j, i) = work D u u' (k, j, i) +
      if C.oa then dt * shearPower C.mhd (D.bcc (0,k,j,i)) (D.bcc (2,k,j,i)) (D.bcc (1,k,j,i))
        (if C.userVel then D.dvKc1 k i else -C.q * C.Omega) (if C.userVel = true ∧ d.nx3 > 1 then D.dvKc2 k i else 0) else 0 := by
  obtain ⟨e1, e2⟩ := work_eq hd h ha
  rw [e1, e2]
  obtain ⟨h1, h2, h3, -, -⟩ := construct_spec hcon
  have hgm : C.gm = 0 := by by_contra hg; exact h3 hg hc
  have hpm : f.pointMass = false := by rw [h1]; simp [hgm]
  have w1 := acc_work (D := D) (dt := dt) (k := k) (j := j) (i := i) hb
  have w2 := sg_work (d := d) (dt := dt) hb hT
  have w3 := box_work (d := d) (dt := dt) hb hc hT g
  unfold wk at *
  unfold tot
  rw [hpm]
  by_cases ho : C.oa = true
  · have hs : f.shear = 1 := by rw [h2, if_pos ho]
    simp only [hs, ho, if_true, Bool.false_eq_true, if_false]
    by_cases huv : C.userVel = true
    · obtain ⟨hv, hm⟩ := hu ho huv
      have w4 := cart_user_work (d := d) (dt := dt) hb hc hT g huv hv
      unfold wk at w4
      simp only [huv, if_true, true_and]
      unfold shearPower
      by_cases hM : C.mhd = true
      · have hm := hm hM
        simp only [hM, if_true, hm, if_false] at w4 ⊢
        have z : D.bcc (2,k,j,i) * (if d.nx3 > 1 then D.dvKc2 k i else 0) = 0 := by
          by_cases h3 : d.nx3 > 1
          · have : D.dvKc2 k i = 0 := by by_contra hne; exact hm ⟨h3, hne⟩
            rw [this]; simp
          · simp [h3]
        rw [z]
        split_ifs <;> linarith
      · simp only [hM, if_false, Bool.false_eq_true] at w4 ⊢
        split_ifs <;> linarith
    · have w4 := cart_oa_work (d := d) (dt := dt) hb hc hT (by simpa using huv)
      unfold wk at w4
      simp only [huv, if_false, Bool.false_eq_true, false_and]
      split_ifs <;> linarith
  · have hs1 : f.shear ≠ 1 := by rw [h2, if_neg ho]; split_ifs <;> simp
    have hs3 : f.shear ≠ 3 := by rw [h2, if_neg ho]; simp only [hc]; split_ifs <;> simp_all
    simp only [hs1, hs3, ho, Bool.false_eq_true, if_false]
    split_ifs <;> linarith

/-- Cylindrical coordinates: the same. The energy removed by a point mass uses the mean of `1/r` of the two faces, the
force uses `1/r` of the middle: they differ by a share of the order of the square of the cell size over the radius. -/
theorem no_heating_cylindrical (hd : d.Ok) (hcon : construct C d.nx3 false = some f) (h : addSourceTerms C d D dt f none u = some u')
    {k j i : ℤ} (hc : C.c = .cylindrical) (hb : C.nonBaro = true) (ha : Active d k j i) (g : Good .cylindrical D.X k j i)
    (hr : 0 < D.X.x1.xf i) (hT : Through D k j i) (h3 : C.oa = true → d.nx3 = 1) :
    u' (4, k, j, i) - u (4, k, j, i) = work D u u' (k, j, i) +
      (if C.oa then dt * shearPower C.mhd (D.bcc (0,k,j,i)) (D.bcc (2,k,j,i)) (D.bcc (1,k,j,i))
        (if C.userVel then D.dvKc1 k i - D.vKc k i * (2 / (D.X.x1.xf i + D.X.x1.xf (i+1))) else
          -1.5 * Real.sqrt (C.gm / x1v D.X .cylindrical i) / x1v D.X .cylindrical i) 0
      else - dt * (C.gm / x1v D.X .cylindrical i) * D.prim (0,k,j,i) * D.prim (1,k,j,i) *
        ((D.X.x1.xf (i+1) - D.X.x1.xf i) ^ 2 / (2 * D.X.x1.xf i * D.X.x1.xf (i+1) * (D.X.x1.xf i + D.X.x1.xf (i+1))))) := by
  obtain ⟨e1, e2⟩ := work_eq hd h ha
  rw [e1, e2]
  obtain ⟨h1, h2, -, -, -⟩ := construct_spec hcon
  have w1 := acc_work (D := D) (dt := dt) (k := k) (j := j) (i := i) hb
  have w2 := sg_work (d := d) (dt := dt) hb hT
  have w3 := rot_work_cyl (d := d) (dt := dt) hb hc hT
  have w5 := pm_work_cyl (dt := dt) hb hc hT g hr
  unfold wk at *
  unfold tot
  by_cases ho : C.oa = true
  · have hs : f.shear = 1 := by rw [h2, if_pos ho]
    have hpm : f.pointMass = false := by rw [h1]; simp [ho]
    have w4 := oa_work_cyl (dt := dt) hb hc (h3 ho) hT
    unfold wk at w4
    rw [cyl_ri g] at w4
    simp only [hs, ho, hpm, if_true, Bool.false_eq_true, if_false]
    by_cases hg : C.selfGravity = true
    · simp only [hg, if_true]; linarith
    · simp only [hg, if_false, Bool.false_eq_true]; linarith
  · have hs1 : f.shear ≠ 1 := by rw [h2, if_neg ho]; split_ifs <;> simp
    have hs2 : f.shear ≠ 2 := by rw [h2, if_neg ho]; simp only [hc]; split_ifs <;> simp_all
    have hpm : (if f.pointMass = true then pmI C D dt 4 k j i else 0) = pmI C D dt 4 k j i ∧
        ∀ n, n ≠ 4 → (if f.pointMass = true then pmI C D dt n k j i else 0) = pmI C D dt n k j i := by
      by_cases hg : C.gm = 0
      · have : ∀ n, pmI C D dt n k j i = 0 := by intro n; simp [pmI, pmCell, addE_at, sub_at, hg]
        simp [this]
      · have : f.pointMass = true := by rw [h1]; simp [hg, ho]
        simp [this]
    rw [hpm.1, hpm.2 1 (by norm_num), hpm.2 2 (by norm_num), hpm.2 3 (by norm_num)]
    simp only [hs1, hs2, ho, Bool.false_eq_true, if_false]
    split_ifs <;> linarith

/-- Spherical coordinates: the force uses the mean of `1/r` over the cell, the energy `1/r` at the centroid; they differ by at
most `(b - a)²/(a + b)³` for faces at `a` and `b`. -/
theorem no_heating_spherical (hd : d.Ok) (hcon : construct C d.nx3 false = some f) (h : addSourceTerms C d D dt f none u = some u')
    {k j i : ℤ} (hc : C.c = .spherical) (hb : C.nonBaro = true) (hsg : C.selfGravity = false) (ha : Active d k j i)
    (g : Good .spherical D.X k j i) (hT : Through D k j i) :
    ∃ ε, |ε| ≤ (D.X.x1.xf (i+1) - D.X.x1.xf i) ^ 2 / (D.X.x1.xf i + D.X.x1.xf (i+1)) ^ 3 ∧
    u' (4, k, j, i) - u (4, k, j, i) = work D u u' (k, j, i) +
      (if C.oa then dt * shearPower C.mhd (D.bcc (0,k,j,i)) (D.bcc (1,k,j,i)) (D.bcc (2,k,j,i))
        (D.dvKc1 j i - D.vKc j i * Sph.src1_i D.X i) ((D.dvKc2 j i - Sph.src1_j D.X j * D.vKc j i) * Sph.src1_i D.X i) else 0)
      + ε * (dt * D.prim (0,k,j,i) * ((refVel C d D (k, j, i) ^ 2 - C.gm / x1v D.X .spherical i) * D.prim (1,k,j,i)
          + refVel C d D (k, j, i) ^ 2 * Sph.src1_j D.X j * D.prim (2,k,j,i))) := by
  refine ⟨1 / x1v D.X .spherical i - Sph.src1_i D.X i, ?_, ?_⟩
  · have := sph_ri_rv g
    rw [abs_le]
    constructor
    · linarith [this.2]
    · have : 0 ≤ (D.X.x1.xf (i+1) - D.X.x1.xf i) ^ 2 / (D.X.x1.xf i + D.X.x1.xf (i+1)) ^ 3 := by linarith [this.1, this.2]
      linarith [(sph_ri_rv g).1]
  obtain ⟨e1, e2⟩ := work_eq hd h ha
  rw [e1, e2]
  obtain ⟨h1, h2, -, -, -⟩ := construct_spec hcon
  have w1 := acc_work (D := D) (dt := dt) (k := k) (j := j) (i := i) hb
  have w3 := rot_work_sph (d := d) (dt := dt) hb hc hT
  have w5 := pm_work_sph (dt := dt) hb hc hT
  unfold wk at *
  unfold tot refVel
  rw [hc]
  simp only [hsg, Bool.false_eq_true, if_false]
  by_cases ho : C.oa = true
  · have hs : f.shear = 1 := by rw [h2, if_pos ho]
    have hpm : f.pointMass = false := by rw [h1]; simp [ho]
    have w4 := oa_work_sph (d := d) (dt := dt) hb hc hT
    unfold wk at w4
    simp only [hs, ho, hpm, if_true, Bool.false_eq_true, if_false]
    linarith
  · have hs1 : f.shear ≠ 1 := by rw [h2, if_neg ho]; split_ifs <;> simp
    have hs2 : f.shear ≠ 2 := by rw [h2, if_neg ho]; simp only [hc]; split_ifs <;> simp_all
    have hpm : ∀ n, (if f.pointMass = true then pmI C D dt n k j i else 0) = pmI C D dt n k j i := by
      intro n
      by_cases hg : C.gm = 0
      · have : ∀ n, pmI C D dt n k j i = 0 := by intro n; simp [pmI, pmCell, addE_at, sub_at, hg]
        simp [this]
      · have : f.pointMass = true := by rw [h1]; simp [hg, ho]
        simp [this]
    have hsh : ∀ n, (if f.shear = 3 then rotI C d D dt n k j i else 0) = rotI C d D dt n k j i := by
      intro n
      by_cases hO : C.Omega = 0
      · have : rotI C d D dt n k j i = 0 := by
          unfold rotI
          rw [hc]
          simp [rotSph, addE_at, add_at, sub_at, hO]
        simp [this]
      · have : f.shear = 3 := by rw [h2]; simp [ho, hO, hc]
        simp [this]
    simp only [hpm, hs1, hs2, ho, Bool.false_eq_true, if_false, hsh, zero_add]
    linarith


/-- A step of zero length changes nothing, unless the orbital velocity of `user_velocity_field_energy` is in use. -/
theorem zero_step (hd : d.Ok) (hcon : construct C d.nx3 false = some f) (h : addSourceTerms C d D 0 f none u = some u')
    (hu : C.c = .cartesian → C.oa = true → C.userVel = true → C.mhd = true → d.nx3 = 1) : u' = u := by
  funext ⟨n, k, j, i⟩
  rw [addSourceTerms_at C d D 0 (ks_le_ke hd) h]
  suffices e : tot C d D 0 f n k j i = 0 by rw [e, ite_self, add_zero]
  have e1 : pmI C D 0 n k j i = 0 := by simp [pmI, pmCell, addE_at, sub_at]
  have e2 : accI C D 0 n k j i = 0 := by simp [accI, accCell, addE_at, add_at]
  have e3 : sgI C d D 0 n k j i = 0 := by simp [sgI, sgCell, addE_at, add_at]
  have e4 : boxI C d D 0 n k j i = 0 := by simp [boxI, boxCell, addE_at, add_at, sub_at]
  have e5 : rotI C d D 0 n k j i = 0 := by
    unfold rotI
    cases C.c <;> simp [rotCyl, rotSph, addE_at, add_at, sub_at]
  unfold tot
  rw [e1, e2, e3, e4, e5]
  simp only [ite_self, add_zero, zero_add]
  by_cases ho : f.shear = 1
  · rw [if_pos ho]
    have ho : C.oa = true := by
      rw [(construct_spec hcon).2.1] at ho
      by_contra hne
      rw [if_neg hne] at ho
      split_ifs at ho <;> simp at ho
    unfold oaI
    cases hc : C.c
    · simp only []
      by_cases huv : C.userVel = true
      · simp only [huv, Bool.true_eq_false, if_false, oaCartUser]
        by_cases hM : C.mhd = true
        · simp [hu hc ho huv hM, addE_at, add_at, sub_at]
        · simp only [hM, if_false, Bool.false_eq_true]
          split_ifs <;> simp [addE_at, add_at, sub_at]
      · simp [huv, oaCart, addE_at, add_at, sub_at]
    · simp only []
      split_ifs <;> simp [oaCyl2, oaCyl3, oaCylUser, addE_at, add_at, sub_at]
    · simp [oaSph, addE_at, add_at, sub_at]
  · rw [if_neg ho]

/-! ## Findings -/

/-- Uniform positions and constant data, for examples. -/
noncomputable def unitX : XF := ⟨ofPos fun i => i, ofPos fun j => j / 4, ofPos fun k => k⟩
@[inherit_doc unitX] noncomputable def constD (w b : ℤ → ℝ) (v s1 s2 : ℝ) : Data :=
  { prim := fun (n, _) => w n, bcc := fun (n, _) => b n
    F := ⟨fun (n, _) => if n = 0 then w 0 * w 1 else 0, fun (n, _) => if n = 0 then w 0 * w 2 else 0, fun (n, _) => if n = 0 then w 0 * w 3 else 0⟩
    phi := fun _ => 0, X := unitX, vKc := fun _ _ => v, vKf1 := fun _ _ => v, dvKc1 := fun _ _ => s1, dvKc2 := fun _ _ => s2 }
theorem constD_through (w b : ℤ → ℝ) (v s1 s2 : ℝ) (k j i : ℤ) : Through (constD w b v s1 s2) k j i :=
  ⟨fun _ _ => rfl, fun _ _ => rfl, fun _ _ => rfl⟩
theorem unitX_good (c : Sys) (k i : ℤ) (hi : 0 ≤ i) : Good c unitX k 2 i := by
  have hi' : (0:ℝ) ≤ i := by exact_mod_cast hi
  have := Real.two_le_pi
  constructor <;> intros <;> simp only [unitX, ofPos] <;> push_cast <;> linarith

@[inherit_doc unitX] def dims3 : Dims := ⟨2, 4, 4, 4⟩
theorem dims3_ok : dims3.Ok := ⟨by decide, by decide, by decide, by decide⟩

/-- **Finding.** Cartesian coordinates in three dimensions with a magnetic field and an orbital velocity given by the user that
depends on `x3`: `B2 B3` is added to the energy, without time step and without the shear. A step of zero length
changes the energy of gas at rest. -/
theorem user_velocity_field_energy : ∃ (C : Conf) (d : Dims) (D : Data) (f : Flags) (u u' : A4 ℝ), d.Ok ∧ C.c = .cartesian ∧
    construct C d.nx3 false = some f ∧ addSourceTerms C d D 0 f none u = some u' ∧ Active d 2 2 2 ∧ Through D 2 2 2 ∧
    (∀ n q, 1 ≤ n → n ≤ 3 → D.prim (n, q) = 0) ∧ u' (4, 2, 2, 2) = u (4, 2, 2, 2) + 1 := by
  let C : Conf := ⟨.cartesian, true, true, false, 0, 0, 0, 0, 0, 0, 1, true, true⟩
  have hcon : construct C dims3.nx3 false = some ⟨false, 1, true⟩ := by simp [construct, massFlag, shearFlag, C]
  let D := constD (fun n => if n = 0 then 1 else 0) (fun _ => 1) 0 0 1
  have hs : addSourceTerms C dims3 D 0 ⟨false, 1, true⟩ none (fun _ => 0) = some (orbital C dims3 D 0 fun _ => 0) := by
    simp [addSourceTerms, C]
  have ha : Active dims3 2 2 2 := by unfold Active; decide
  refine ⟨C, dims3, D, _, _, _, dims3_ok, rfl, hcon, hs, ha, constD_through _ _ _ _ _ _ _ _, ?_, ?_⟩
  · intro n q h1 _
    have : n ≠ 0 := by omega
    simp [D, constD, this]
  · rw [orbital_at, if_pos ha]
    simp [oaI, C, D, constD, dims3, oaCartUser, addE_at, add_at, sub_at]

/-- **Finding.** Cylindrical coordinates in three dimensions with the default orbital velocity: the work of the
vertical gravity of the point mass is added to the energy twice. -/
theorem vertical_gravity_twice (hd : d.Ok) (hcon : construct C d.nx3 false = some f) (h : addSourceTerms C d D dt f none u = some u')
    {k j i : ℤ} (hc : C.c = .cylindrical) (hb : C.nonBaro = true) (ha : Active d k j i) (hT : Through D k j i)
    (hm : C.mhd = false) (hg : C.g1 = 0 ∧ C.g2 = 0 ∧ C.g3 = 0) (hsg : C.selfGravity = false)
    (ho : C.oa = true) (hu : C.userVel = false) (h3 : d.nx3 > 1) :
    u' (4, k, j, i) - u (4, k, j, i) = work D u u' (k, j, i) + D.prim (3,k,j,i) * (u' (3, k, j, i) - u (3, k, j, i)) := by
  obtain ⟨e1, e2⟩ := work_eq hd h ha
  obtain ⟨h1, h2, -, -, -⟩ := construct_spec hcon
  have hs : f.shear = 1 := by rw [h2, if_pos ho]
  have hpm : f.pointMass = false := by rw [h1]; simp [ho]
  have et : ∀ n, tot C d D dt f n k j i = oaI C d D dt n k j i := by
    intro n
    unfold tot
    rw [accI_zero C D dt (by simp [hg.1, hg.2.1, hg.2.2])]
    simp [hs, hpm, hsg]
  have e3 : u' (3, k, j, i) - u (3, k, j, i) = oaI C d D dt 3 k j i := by
    rw [addSourceTerms_at C d D dt (ks_le_ke hd) h, if_pos ha, et]; ring
  have w4 := oa_work_cyl3 (dt := dt) hb hc h3 hu hT
  have e5 : oaI C d D dt 3 k j i = - dt * (C.gm * x3v D.X k / Real.sqrt (x1v D.X .cylindrical i ^ 2 + x3v D.X k ^ 2) ^ 3) * D.prim (0,k,j,i) := by
    unfold oaI
    rw [hc]
    simp only [hu, h3, if_true, oaCyl3, addE_at, add_at, sub_at, Int.reduceEq, if_false, and_false, add_zero, zero_add, sub_zero]
    ring
  have wt : wk D (tot C d D dt f) k j i = wk D (oaI C d D dt) k j i := by unfold wk; simp only [et]
  rw [e1, e2, et, wt, e3, w4, e5, hm]
  simp only [shearPower, Bool.false_eq_true, if_false]
  ring


/-! ## Inertial frame -/

/-- Forces towards the axis (cylindrical coordinates) are those of an inertial frame: geometric terms and source terms
together change the radial momentum as the geometric terms of the gas with the reference motion added do, less the pull
of the point mass. -/
theorem inertial_cylindrical (hd : d.Ok) (hcon : construct C d.nx3 false = some f) (h : addSourceTerms C d D dt f none u = some u')
    {k j i : ℤ} (hc : C.c = .cylindrical) (ho : OnlyOrbit C) (ha : Active d k j i) (g : Good .cylindrical D.X k j i)
    (hgm : 0 ≤ C.gm) (hu : C.oa = true → C.userVel = true → d.nx3 = 1) (S : Src) (hS : S.prim = D.prim) (F : Flx ℝ) :
    addCoordTerms D.X .cylindrical d S dt F u' (1, k, j, i) =
      addCoordTerms D.X .cylindrical d { S with prim := boost 2 (refVel C d D) S.prim } dt F u (1, k, j, i)
      - dt * D.prim (0,k,j,i) * (2 / (D.X.x1.xf i + D.X.x1.xf (i+1))) * pull C.gm (x1v D.X .cylindrical i) (height d D.X k) := by
  have rv := cyl_rv g
  rw [addCoordTerms_at, addCoordTerms_at, if_pos (show _ ∧ _ from ha), if_pos (show _ ∧ _ from ha), addSourceTerms_at C d D dt (ks_le_ke hd) h, if_pos ha,
    orbit_tot hcon ho (by rw [hc]; simp)]
  have hcs := construct_spec hcon
  rw [← cyl_ri g]
  have key : (if C.oa then oaI C d D dt 1 k j i else pmI C D dt 1 k j i + rotI C d D dt 1 k j i) =
      dt * Cyl.src1_i D.X i * D.prim (0,k,j,i) * (2 * refVel C d D (k,j,i) * D.prim (2,k,j,i) + refVel C d D (k,j,i) ^ 2
        - pull C.gm (x1v D.X .cylindrical i) (height d D.X k)) := by
    unfold refVel
    rw [hc]
    simp only [frameVel]
    by_cases hoa : C.oa = true
    · simp only [hoa, if_true]
      unfold oaI
      rw [hc]
      simp only []
      by_cases huv : C.userVel = true
      · have h3 := hu hoa huv
        simp only [huv, h3, Bool.true_eq_false, if_false, if_true, oaCylUser, height, gt_iff_lt, lt_irrefl, (circular_zero rv).2,
          addE_at, add_at, sub_at, Int.reduceEq, and_false, add_zero, zero_add, sub_zero]
        ring
      · simp only [huv, if_false, Bool.false_eq_true, Bool.not_eq_true, if_true]
        simp only [circular_sq hgm rv]
        by_cases h3 : d.nx3 > 1
        · simp only [h3, if_true, oaCyl3, height, circular,
            addE_at, add_at, sub_at, Int.reduceEq, if_false, and_false, add_zero, zero_add, sub_zero]
          ring
        · simp only [h3, if_false, oaCyl2, height, (circular_zero rv).1,
            addE_at, add_at, sub_at, Int.reduceEq, if_true, and_false, add_zero, zero_add, sub_zero]
          ring
    · have h3 : C.gm ≠ 0 → d.nx3 ≤ 1 := fun hg => hcs.2.2.2.1 hg (by simpa using hoa) hc
      have hp : pull C.gm (x1v D.X .cylindrical i) (height d D.X k) = C.gm / x1v D.X .cylindrical i := by
        by_cases hg : C.gm = 0
        · simp [hg, pull]
        · have := h3 hg
          rw [height, if_neg (by omega), (circular_zero rv).2]
      simp only [hoa, if_false, Bool.false_eq_true, hp]
      unfold pmI rotI
      rw [hc]
      simp only [pmCell, rotCyl, ri, hc, addE_at, add_at, sub_at, Int.reduceEq, if_true, if_false, and_false, add_zero, zero_add, sub_zero]
      ring
  rw [key]
  have e1 : inc D.X .cylindrical d { S with prim := boost 2 (refVel C d D) S.prim } dt F 1 k j i =
      inc D.X .cylindrical d S dt F 1 k j i + dt * Cyl.src1_i D.X i * D.prim (0,k,j,i) *
        (2 * refVel C d D (k,j,i) * D.prim (2,k,j,i) + refVel C d D (k,j,i) ^ 2) := by
    simp only [inc, cylCell, add_at, sub_at, Int.reduceEq, if_true, if_false, sub_zero, boost, hS]
    split_ifs <;> ring
  rw [e1]
  ring

/-- The same in spherical coordinates, for radial and polar momentum. -/
theorem inertial_spherical (hd : d.Ok) (hcon : construct C d.nx3 false = some f) (h : addSourceTerms C d D dt f none u = some u')
    {k j i : ℤ} (hc : C.c = .spherical) (ho : OnlyOrbit C) (ha : Active d k j i)
    (S : Src) (hS : S.prim = D.prim) (F : Flx ℝ) :
    addCoordTerms D.X .spherical d S dt F u' (1, k, j, i) =
      addCoordTerms D.X .spherical d { S with prim := boost 3 (refVel C d D) S.prim } dt F u (1, k, j, i)
      - dt * D.prim (0,k,j,i) * Sph.src1_i D.X i * (C.gm / x1v D.X .spherical i) ∧
    addCoordTerms D.X .spherical d S dt F u' (2, k, j, i) =
      addCoordTerms D.X .spherical d { S with prim := boost 3 (refVel C d D) S.prim } dt F u (2, k, j, i) := by
  simp only [addCoordTerms_at, if_pos (show _ ∧ _ from ha), addSourceTerms_at C d D dt (ks_le_ke hd) h, if_pos ha,
    orbit_tot hcon ho (show C.c ≠ .cartesian by rw [hc]; simp)]
  have key : ∀ n, (n = 1 ∨ n = 2) → (if C.oa then oaI C d D dt n k j i else pmI C D dt n k j i + rotI C d D dt n k j i) =
      dt * Sph.src1_i D.X i * D.prim (0,k,j,i) * (if n = 1 then 2 * refVel C d D (k,j,i) * D.prim (3,k,j,i) + refVel C d D (k,j,i) ^ 2
        - C.gm / x1v D.X .spherical i else Sph.src1_j D.X j * (2 * refVel C d D (k,j,i) * D.prim (3,k,j,i) + refVel C d D (k,j,i) ^ 2)) := by
    intro n hn
    unfold refVel
    rw [hc]
    simp only [frameVel]
    by_cases hoa : C.oa = true
    · simp only [hoa, if_true]
      unfold oaI
      rw [hc]
      simp only []
      rcases hn with rfl | rfl <;>
        simp only [oaSph, addE_at, add_at, sub_at, Int.reduceEq, if_true, if_false, and_false, add_zero, zero_add, sub_zero] <;> ring
    · simp only [hoa, if_false, Bool.false_eq_true]
      unfold pmI rotI
      rw [hc]
      rcases hn with rfl | rfl <;>
        simp only [pmCell, rotSph, ri, hc, addE_at, add_at, sub_at, Int.reduceEq, if_true, if_false, and_false, add_zero, zero_add, sub_zero] <;>
        ring
  have e1 : ∀ n, (n = 1 ∨ n = 2) → inc D.X .spherical d { S with prim := boost 3 (refVel C d D) S.prim } dt F n k j i =
      inc D.X .spherical d S dt F n k j i + dt * Sph.src1_i D.X i * D.prim (0,k,j,i) *
        ((if n = 1 then 1 else Sph.src1_j D.X j) * (2 * refVel C d D (k,j,i) * D.prim (3,k,j,i) + refVel C d D (k,j,i) ^ 2)) := by
    intro n hn
    simp only [inc, sphCell]
    by_cases h2 : d.nx2 > 1 <;> rcases hn with rfl | rfl <;>
      simp only [h2, if_true, if_false, add_at, sub_at, Int.reduceEq, sub_zero, add_zero, boost, hS] <;>
      split_ifs <;> ring
  constructor
  · rw [key 1 (by simp), e1 1 (by simp)]
    simp only [if_true]
    ring
  · rw [key 2 (by simp), e1 2 (by simp)]
    simp only [Int.reduceEq, if_false]
    ring

/-- **Equilibrium.** Cold gas whose velocity in the inertial frame is the circular velocity feels no radial force, whatever the
rotation of the frame and with or without orbital advection. -/
theorem kepler_balance (hd : d.Ok) (hcon : construct C d.nx3 false = some f) (h : addSourceTerms C d D dt f none u = some u')
    {k j i : ℤ} (hc : C.c = .cylindrical) (ho : OnlyOrbit C) (ha : Active d k j i) (g : Good .cylindrical D.X k j i)
    (hgm : 0 ≤ C.gm) (hu : C.oa = true → C.userVel = true → d.nx3 = 1) (S : Src) (hS : S.prim = D.prim) (F : Flx ℝ)
    (hp : gasPressure k j i S = 0) (hm : S.mhd = false) (hv : S.vis = false)
    (hk : D.prim (2,k,j,i) + refVel C d D (k,j,i) = circular C.gm (x1v D.X .cylindrical i) (height d D.X k)) :
    addCoordTerms D.X .cylindrical d S dt F u' (1, k, j, i) = u (1, k, j, i) := by
  rw [inertial_cylindrical hd hcon h hc ho ha g hgm hu S hS F, addCoordTerms_at, if_pos (show _ ∧ _ from ha), ← circular_sq hgm (cyl_rv g), ← hk, ← cyl_ri g]
  have hq : (if S.nonBaro then S.prim (4,k,j,i) else S.cs * S.cs * S.prim (0,k,j,i)) = 0 := by
    rw [← hp]
    simp only [gasPressure]
    split <;> ring
  simp only [inc, cylCell, add_at, sub_at, Int.reduceEq, if_true, if_false, sub_zero, boost, hm, hv, Bool.false_eq_true]
  have : ∀ a : ℝ, (if S.nonBaro = true then a + S.prim (4,k,j,i) else a + S.cs * S.cs * S.prim (0,k,j,i)) = a := by
    intro a
    by_cases hb : S.nonBaro = true
    · rw [if_pos hb] at hq ⊢; rw [hq]; ring
    · rw [if_neg hb] at hq ⊢; rw [hq]; ring
  rw [this, hS]
  ring


/-! ## Shearing box -/

/-- **Equilibrium.** The background flow of the shearing box, with no mass flux in the radial direction, is not disturbed. -/
theorem shear_background (hd : d.Ok) (hcon : construct C d.nx3 false = some f) (h : addSourceTerms C d D dt f none u = some u')
    (hc : C.c = .cartesian) (ho : OnlyOrbit C) (hoa : C.oa = false)
    (h1 : ∀ k j i, D.prim (1,k,j,i) = 0) (h0 : ∀ k j i, D.F.x1 (0,k,j,i) = 0)
    (h2 : ∀ k j i, D.prim (if C.shbox = 1 then 2 else 3,k,j,i) = -C.q * C.Omega * x1v D.X .cartesian i) : u' = u := by
  funext ⟨n, k, j, i⟩
  obtain ⟨c1, c2, c3, -, -⟩ := construct_spec hcon
  have hgm : C.gm = 0 := by by_contra hg; exact c3 hg hc
  have hpm : f.pointMass = false := by rw [c1]; simp [hgm]
  have hs1 : f.shear ≠ 1 := by rw [c2, hoa]; simp only [Bool.false_eq_true, if_false]; split_ifs <;> simp
  have hs3 : f.shear ≠ 3 := by rw [c2, hoa]; simp only [hc]; split_ifs <;> simp_all
  rw [addSourceTerms_at C d D dt (ks_le_ke hd) h]
  suffices e : tot C d D dt f n k j i = 0 by rw [e, ite_self, add_zero]
  unfold tot
  rw [accI_zero C D dt (by simp [ho.g1, ho.g2, ho.g3]), ho.sg, hpm]
  have e : boxI C d D dt n k j i = 0 := by
    unfold boxI
    by_cases hb : C.shbox = 1
    · have h2 := h2 k j i
      rw [if_pos hb] at h2
      simp only [if_pos hb, boxCell, addE_at, add_at, sub_at, h1, h0, h2, hc]
      split_ifs <;> ring
    · have h2 := h2 k j i
      rw [if_neg hb] at h2
      simp only [if_neg hb, boxCell, addE_at, add_at, sub_at, h1, h0, h2, hc]
      split_ifs <;> ring
  simp [hs1, hs3, e]

/-- With and without orbital advection the radial force is the same: `D` has the whole velocity, `D'` the velocity relative to the
shear flow `-q Ω x`. The azimuthal forces differ by the momentum of the shear flow that `ρ v1` carries. -/
theorem shear_box_orbital {C' : Conf} {f' : Flags} {D' : Data} {w w' : A4 ℝ} (hd : d.Ok)
    (hcon : construct C d.nx3 false = some f) (h : addSourceTerms C d D dt f none u = some u')
    (hcon' : construct C' d.nx3 false = some f') (h' : addSourceTerms C' d D' dt f' none w = some w')
    (hc : C.c = .cartesian) (ho : OnlyOrbit C) (hoa : C.oa = false) (hsb : C.shbox = 1) (hO : C.Omega ≠ 0 ∧ C.q ≠ 0)
    (hC' : C' = { C with oa := true, userVel := false }) {k j i : ℤ} (ha : Active d k j i)
    (p0 : D'.prim (0,k,j,i) = D.prim (0,k,j,i)) (p1 : D'.prim (1,k,j,i) = D.prim (1,k,j,i))
    (p2 : D.prim (2,k,j,i) = D'.prim (2,k,j,i) + cartVel C.q C.Omega (x1v D.X .cartesian i)) :
    u' (1,k,j,i) - u (1,k,j,i) = w' (1,k,j,i) - w (1,k,j,i) ∧
    u' (2,k,j,i) - u (2,k,j,i) = w' (2,k,j,i) - w (2,k,j,i)
      + dt * D.prim (0,k,j,i) * D.prim (1,k,j,i) * cartVel_x C.q C.Omega (x1v D.X .cartesian i) := by
  obtain ⟨c1, c2, c3, -, -⟩ := construct_spec hcon
  obtain ⟨c1', c2', c3', -, -⟩ := construct_spec hcon'
  have hgm : C.gm = 0 := by by_contra hg; exact c3 hg hc
  have hs : f.shear = 2 := by rw [c2, hoa]; simp [hc, hO]
  have hs' : f'.shear = 1 := by rw [c2', hC']; simp
  have hpm : f.pointMass = false := by rw [c1]; simp [hgm]
  have hpm' : f'.pointMass = false := by rw [c1', hC']; simp
  have e : ∀ n, u' (n,k,j,i) - u (n,k,j,i) = boxI C d D dt n k j i := by
    intro n
    rw [addSourceTerms_at C d D dt (ks_le_ke hd) h, if_pos ha]
    unfold tot
    rw [accI_zero C D dt (by simp [ho.g1, ho.g2, ho.g3])]
    simp [hs, hpm, ho.sg]
  have e' : ∀ n, w' (n,k,j,i) - w (n,k,j,i) = oaI C' d D' dt n k j i := by
    intro n
    rw [addSourceTerms_at C' d D' dt (ks_le_ke hd) h', if_pos ha]
    unfold tot
    rw [accI_zero C' D' dt (by rw [hC']; simp [ho.g1, ho.g2, ho.g3])]
    simp [hs', hpm', hC', ho.sg]
  rw [e, e', e, e']
  unfold oaI boxI
  subst hC'
  simp only [hc, hsb, if_true, oaCart, boxCell, addE_at, add_at, sub_at, Int.reduceEq, if_false, and_false, add_zero, zero_add, sub_zero, zero_sub,
    p0, p1, p2, cartVel, cartVel_x]
  constructor <;> ring

/-! ## Default orbital velocities -/

/-- Derivatives of the circular velocity. -/
theorem circular_deriv {gm r z : ℝ} (hg : 0 < gm) (hr : 0 < r) :
    HasDerivAt (fun r => circular gm r z / r) (-1.5 * circular gm r z / (r ^ 2 + z ^ 2)) r ∧
    HasDerivAt (fun z => circular gm r z) (-1.5 * circular gm r z * z / (r ^ 2 + z ^ 2)) z := by
  have h0 : 0 < r ^ 2 + z ^ 2 := by positivity
  have h1 := Real.sqrt_pos.mpr h0
  have hsq := Real.sq_sqrt h0.le
  constructor
  · have ha := ((hasDeriv_sqrt_div hg h1).comp r (hasDeriv_dist_r hr)).div (hasDeriv_dist_r hr) h1.ne'
    have hev : (fun r => circular gm r z / r) =ᶠ[nhds r]
        fun r => ((fun x => Real.sqrt (gm / x)) ∘ fun r => Real.sqrt (r ^ 2 + z ^ 2)) r / Real.sqrt (r ^ 2 + z ^ 2) := by
      filter_upwards [lt_mem_nhds hr] with y hy
      simp only [Function.comp, circular]
      field_simp
    refine (ha.congr_of_eventuallyEq hev).congr_deriv ?_
    simp only [Function.comp, circular]
    generalize Real.sqrt (r ^ 2 + z ^ 2) = t at *
    rw [← hsq]
    field_simp
    ring
  · have ha := (((hasDeriv_sqrt_div hg h1).comp z (hasDeriv_dist_z hr)).mul_const r).div (hasDeriv_dist_z hr) h1.ne'
    refine ha.congr_deriv ?_
    simp only [Function.comp, circular]
    generalize Real.sqrt (r ^ 2 + z ^ 2) = t at *
    rw [← hsq]
    field_simp
    ring

/-- The derivatives of the default orbital velocities are derivatives, all but `CylOrbitalVelocity3D_z`. -/
theorem default_derivatives {gm Omega q x : ℝ} (hg : 0 < gm) (hx : 0 < x) :
    HasDerivAt (cartVel q Omega) (cartVel_x q Omega x) x ∧
    HasDerivAt (cylVel2 gm Omega) (cylVel2_r gm Omega x) x ∧
    (∀ z, HasDerivAt (fun x => cylVel3 gm Omega x z) (cylVel3_r gm Omega x z) x) ∧
    (∀ y, 0 < Real.sin y → HasDerivAt (fun x => sphVel gm Omega x y) (sphVel_r gm Omega x y) x ∧
      HasDerivAt (fun y => sphVel gm Omega x y) (sphVel_t gm Omega x y) y) := by
  refine ⟨?_, ?_, fun z => ?_, fun y hy => ⟨?_, ?_⟩⟩
  · have := (hasDerivAt_id x).const_mul (-q * Omega)
    rw [mul_one] at this
    exact this
  · have := (hasDeriv_sqrt_div hg hx).sub ((hasDerivAt_id x).const_mul Omega)
    refine this.congr_deriv ?_
    simp only [cylVel2_r, id, mul_one]
    field_simp
    ring
  · have h0 : 0 < x ^ 2 + z ^ 2 := by positivity
    have h1 := Real.sqrt_pos.mpr h0
    have ha := ((((hasDeriv_sqrt_div hg h1).comp x (hasDeriv_dist_r hx)).mul (hasDerivAt_id x)).div (hasDeriv_dist_r hx) h1.ne').sub
      ((hasDerivAt_id x).const_mul Omega)
    refine ha.congr_deriv ?_
    simp only [Function.comp, Pi.mul_apply, cylVel3_r, id, mul_one]
    generalize Real.sqrt (x ^ 2 + z ^ 2) = t at *
    field_simp
    ring
  · have hxs : 0 < x * Real.sin y := mul_pos hx hy
    have ha := ((hasDeriv_sqrt_div hg hxs).comp x ((hasDerivAt_id x).mul_const (Real.sin y))).sub
      (((hasDerivAt_id x).const_mul Omega).mul_const (Real.sin y))
    have e : (fun x => sphVel gm Omega x y) = fun x => Real.sqrt (gm / (x * Real.sin y)) - Omega * x * Real.sin y := by
      funext x; simp [sphVel, hy.ne']
    rw [e]
    refine ha.congr_deriv ?_
    simp only [sphVel_r, hy.ne', if_false, id]
    have e2 : Real.sqrt (gm / (Real.sin y * x * x * x)) = Real.sqrt (gm / (x * Real.sin y)) / x := by
      rw [show gm / (Real.sin y * x * x * x) = gm / (x * Real.sin y) / x ^ 2 by field_simp, Real.sqrt_div' _ (sq_nonneg x), Real.sqrt_sq hx.le]
    rw [e2]
    field_simp
    ring
  · have hxs : 0 < x * Real.sin y := mul_pos hx hy
    have ha := ((hasDeriv_sqrt_div hg hxs).comp y ((Real.hasDerivAt_sin y).const_mul x)).sub ((Real.hasDerivAt_sin y).const_mul (Omega * x))
    have hev : (fun y => sphVel gm Omega x y) =ᶠ[nhds y] fun y => Real.sqrt (gm / (x * Real.sin y)) - Omega * x * Real.sin y := by
      filter_upwards [(Real.continuous_sin.tendsto y).eventually (lt_mem_nhds hy)] with t ht
      simp [sphVel, ht.ne']
    refine (ha.congr_of_eventuallyEq hev).congr_deriv ?_
    simp only [sphVel_t, hy.ne', if_false, mul_comm (Real.sin y) x]
    field_simp
    ring

/-- **Finding.** `CylOrbitalVelocity3D_z` is not the derivative of `CylOrbitalVelocity3D`: it divides by the square of the
distance instead of the third power. -/
theorem cyl3_z_wrong {gm Omega x z : ℝ} (hg : 0 < gm) (hx : 0 < x) (hz : z ≠ 0) :
    HasDerivAt (fun z => cylVel3 gm Omega x z) (cylVel3_z gm x z / Real.sqrt (x ^ 2 + z ^ 2)) z ∧
    (x ^ 2 + z ^ 2 ≠ 1 → ¬ HasDerivAt (fun z => cylVel3 gm Omega x z) (cylVel3_z gm x z) z) := by
  have h0 : 0 < x ^ 2 + z ^ 2 := by positivity
  have h1 := Real.sqrt_pos.mpr h0
  have hd : HasDerivAt (fun z => cylVel3 gm Omega x z) (cylVel3_z gm x z / Real.sqrt (x ^ 2 + z ^ 2)) z := by
    refine ((circular_deriv (z := z) hg hx).2.sub_const (Omega * x)).congr_deriv ?_
    have hsq := Real.sq_sqrt h0.le
    simp only [cylVel3_z, circular]
    generalize Real.sqrt (x ^ 2 + z ^ 2) = t at *
    rw [← hsq]
    field_simp
  refine ⟨hd, fun h h2 => ?_⟩
  have e := hd.unique h2
  have hne : cylVel3_z gm x z ≠ 0 := by
    have : 0 < Real.sqrt (gm / Real.sqrt (x ^ 2 + z ^ 2)) := Real.sqrt_pos.mpr (div_pos hg h1)
    simp only [cylVel3_z]
    have := hx.ne'
    have := h1.ne'
    positivity
  rw [div_eq_iff h1.ne'] at e
  have : Real.sqrt (x ^ 2 + z ^ 2) = 1 := by
    have := mul_left_cancel₀ hne (e.symm.trans (mul_one _).symm)
    exact this
  rw [Real.sqrt_eq_one] at this
  exact h this


/-- Azimuthal force in cylindrical coordinates: radial motion turns against the reference motion `V = r Ω(r)`. It changes the
azimuthal velocity at the rate `-v1 (2 V/r + r dΩ/dr) - v3 dV/dz`; `dΩ/dr = 0` in a rotating frame. -/
theorem azimuthal_force (hd : d.Ok) (hcon : construct C d.nx3 false = some f) (h : addSourceTerms C d D dt f none u = some u')
    {k j i : ℤ} (hc : C.c = .cylindrical) (ho : OnlyOrbit C) (ha : Active d k j i) (g : Good .cylindrical D.X k j i)
    (hT : Through D k j i) :
    (C.oa = false → u' (2,k,j,i) - u (2,k,j,i) =
      - dt * D.prim (0,k,j,i) * (D.prim (1,k,j,i) * (2 * refVel C d D (k,j,i) * (2 / (D.X.x1.xf i + D.X.x1.xf (i+1)))))) ∧
    (C.oa = true → C.userVel = false → 0 < C.gm → ∀ W W3,
      HasDerivAt (fun r => circular C.gm r (height d D.X k) / r) W (x1v D.X .cylindrical i) →
      HasDerivAt (fun z => circular C.gm (x1v D.X .cylindrical i) z) W3 (height d D.X k) →
      u' (2,k,j,i) - u (2,k,j,i) = - dt * D.prim (0,k,j,i) *
        (D.prim (1,k,j,i) * (2 * refVel C d D (k,j,i) * (2 / (D.X.x1.xf i + D.X.x1.xf (i+1))) + x1v D.X .cylindrical i * W)
          + D.prim (3,k,j,i) * W3)) := by
  have rv := cyl_rv g
  have t1 := hT.x1 i (by simp)
  have t1' := hT.x1 (i+1) (by simp)
  have t3 := hT.x3 k (by simp)
  have t3' := hT.x3 (k+1) (by simp)
  rw [addSourceTerms_at C d D dt (ks_le_ke hd) h, if_pos ha, orbit_tot hcon ho (by rw [hc]; simp), ← cyl_ri g]
  constructor
  · intro hoa
    simp only [hoa, Bool.false_eq_true, if_false, refVel, hc, frameVel]
    unfold pmI rotI
    rw [hc]
    simp only [pmCell, rotCyl, ri, addE_at, add_at, sub_at, Int.reduceEq, if_true, if_false, and_false, add_zero, zero_add, sub_zero, zero_sub, t1, t1']
    ring
  · intro hoa hu hg W W3 hW hW3
    have c1 := (circular_deriv (z := height d D.X k) hg rv).1.unique hW
    have c2 := (circular_deriv (z := height d D.X k) hg rv).2.unique hW3
    rw [← c1, ← c2]
    have h0 : 0 < x1v D.X .cylindrical i ^ 2 + height d D.X k ^ 2 := by positivity
    simp only [hoa, if_true, refVel, hc, hu, Bool.false_eq_true, if_false]
    unfold oaI
    rw [hc]
    simp only [hu, if_true]
    by_cases h3 : d.nx3 > 1
    · simp only [height, h3, if_true] at h0 ⊢
      simp only [oaCyl3, addE_at, add_at, sub_at, Int.reduceEq, if_true, if_false, and_false, add_zero, zero_add, sub_zero, zero_sub, t1, t1', t3, t3',
        Real.sq_sqrt h0.le, circular]
      ring
    · simp only [height, h3, if_false] at h0 ⊢
      simp only [(circular_zero rv).1]
      simp only [oaCyl2, addE_at, add_at, sub_at, Int.reduceEq, if_true, if_false, and_false, add_zero, zero_add, sub_zero, zero_sub, t1, t1']
      generalize x1v D.X .cylindrical i = r at *
      field_simp
      ring

/-! ## Conversion between systems -/

/-- The converted conserved variables are those of the converted primitive ones: velocity `v + vK`, the same internal and
magnetic energy `e`. -/
theorem conversion_consistent (nonBaro : Bool) (n : ℕ) (hn : n = 2 ∨ n = 3) (vK e : ℝ) (w u : ℕ → ℝ) (hr : w 0 ≠ 0) (h0 : u 0 = w 0)
    (hm : ∀ m, m = 1 ∨ m = 2 ∨ m = 3 → u m = w 0 * w m) (hE : nonBaro = true → u 4 = totalE e (w 0) (w 1) (w 2) (w 3)) :
    let w' := orbPrim n vK w
    let u' := orbCons nonBaro n vK u
    w' n = w n + vK ∧ (∀ m, m ≠ n → w' m = w m) ∧ u' 0 = w' 0 ∧ (∀ m, m = 1 ∨ m = 2 ∨ m = 3 → u' m = w' 0 * w' m) ∧
    (nonBaro = true → u' 4 = totalE e (w' 0) (w' 1) (w' 2) (w' 3)) ∧ (nonBaro = false → u' 4 = u 4) := by
  have hu2 := hm 2 (by simp)
  have hu3 := hm 3 (by simp)
  have hu1 := hm 1 (by simp)
  intro w' u'
  have n0 : (0:ℕ) ≠ n := by omega
  have n4 : (4:ℕ) ≠ n := by omega
  have a1 : w' n = w n + vK := by simp [w', orbPrim]
  have a2 : ∀ m, m ≠ n → w' m = w m := fun m hm => by simp [w', orbPrim, hm]
  have b1 : u' n = u n + u 0 * vK := by
    simp only [u', orbCons]
    split <;> simp [Function.update_apply, n4.symm]
  have b2 : ∀ m, m ≠ n → m ≠ 4 → u' m = u m := fun m hm h4 => by
    simp only [u', orbCons]
    split <;> simp [hm, h4]
  refine ⟨a1, a2, by rw [b2 0 n0 (by norm_num), a2 0 n0, h0], ?_, ?_, ?_⟩
  · intro m h1
    rw [a2 0 n0]
    by_cases hmn : m = n
    · subst hmn
      rw [b1, a1, hm m h1, h0]
      ring
    · rw [b2 m hmn (by omega), a2 m hmn, hm m h1]
  · intro hb
    have e4 : u' 4 = u 4 + u 0 * vK * (u n + 0.5 * (u 0 * vK)) / u 0 := by
      simp [u', orbCons, hb]
    rw [e4, hE hb, h0, a2 0 n0, a2 1 (by omega)]
    rcases hn with rfl | rfl
    · rw [a1, a2 3 (by norm_num), hu2]
      unfold totalE
      field_simp
      ring
    · rw [a1, a2 2 (by norm_num), hu3]
      unfold totalE
      field_simp
      ring
  · intro hb
    simp [u', orbCons, hb, n4]

/-- Each of the two conversions is done at most once until the flag is reset to 3, and a request for it
leaves it done. -/
theorem convert_once (done trans : ℕ) (hd : done < 4) (ht : trans < 4) :
    (convertFlag done trans).2.1 = (done.testBit 0 && trans.testBit 0) ∧
    (convertFlag done trans).2.2 = (done.testBit 1 && trans.testBit 1) ∧
    (convertFlag done trans).1.testBit 0 = (done.testBit 0 && !trans.testBit 0) ∧
    (convertFlag done trans).1.testBit 1 = (done.testBit 1 && !trans.testBit 1) ∧
    (convertFlag done trans).1 < 4 := by
  interval_cases done <;> interval_cases trans <;> decide


/-! ## Self-gravity -/

/-- **Self-gravity exerts no net force.** On a uniform periodic block, with a potential that solves the discrete Poisson equation
for the density the source term uses, the total momentum does not change. -/
theorem self_gravity_momentum (hd : d.Ok) (hcon : construct C d.nx3 false = some f) (h : addSourceTerms C d D dt f none u = some u')
    (ho : OnlyGravity C) {h1 h2 h3 fourPiG rho0 : ℝ} (u1 : Uniform D.X.x1 h1) (u2 : Uniform D.X.x2 h2) (u3 : Uniform D.X.x3 h3)
    (hG : fourPiG ≠ 0) (hper : Periodic d D.phi) (hpoi : Poisson d D h1 h2 h3 fourPiG rho0) (n : ℤ) (hn : 1 ≤ n ∧ n ≤ 3) :
    total d (fun k j i => u' (n,k,j,i) - u (n,k,j,i)) = 0 := by
  obtain ⟨c1, c2, -, -, -⟩ := construct_spec hcon
  have hs : f.shear = 0 := by rw [c2, ho.oa, ho.om]; simp
  have hpm : f.pointMass = false := by rw [c1]; simp [ho.gm]
  have et : ∀ k j i, tot C d D dt f n k j i = sgI C d D dt n k j i := by
    intro k j i
    unfold tot
    rw [accI_zero C D dt (by simp [ho.g1, ho.g2, ho.g3])]
    simp [hs, hpm, ho.sg]
  have dv : ∀ (F : MeshGen.Faces) (h : ℝ) (i : ℤ), Uniform F h → dxv F i = h := by
    intro F h i hu
    have e1 := hu i
    have e2 := hu (i+1)
    simp only [dxv, mid]
    linarith
  obtain ⟨s1, s2, s3⟩ : Inv d (0,0,1) ∧ (d.nx2 > 1 → Inv d (0,1,0)) ∧ (d.nx3 > 1 → Inv d (1,0,0)) := by
    refine ⟨fun g hg => ?_, fun h2 g hg => ?_, fun h3 g hg => ?_⟩
    · simpa [tsum3] using (total_shift hd g hg).1
    · simpa [tsum3] using (total_shift hd g hg).2.1 h2
    · simpa [tsum3] using (total_shift hd g hg).2.2 h3
  -- the sum of density times central difference along `v` is zero
  have main : ∀ v, Inv d v → tsum3 d (fun q => D.prim (0, q) * (D.phi (q + v) - D.phi (q - v))) = 0 := by
    intro v hv
    have e : tsum3 d (fun q => fourPiG * (D.prim (0, q) * (D.phi (q + v) - D.phi (q - v)))) = 0 := by
      have e1 : tsum3 d (fun q => fourPiG * (D.prim (0, q) * (D.phi (q + v) - D.phi (q - v)))) = tsum3 d (fun q =>
          (1 / h1 ^ 2) * ((D.phi (q + (0,0,1)) - 2 * D.phi q + D.phi (q - (0,0,1))) * (D.phi (q + v) - D.phi (q - v)))
          + ((if d.nx2 > 1 then 1 / h2 ^ 2 else 0) * ((D.phi (q + (0,1,0)) - 2 * D.phi q + D.phi (q - (0,1,0))) * (D.phi (q + v) - D.phi (q - v)))
          + ((if d.nx3 > 1 then 1 / h3 ^ 2 else 0) * ((D.phi (q + (1,0,0)) - 2 * D.phi q + D.phi (q - (1,0,0))) * (D.phi (q + v) - D.phi (q - v)))
          + (fourPiG * rho0) * (D.phi (q + v) + (-1) * D.phi (q + -v))))) := by
        unfold tsum3 total
        refine Finset.sum_congr rfl fun k hk => Finset.sum_congr rfl fun j hj => Finset.sum_congr rfl fun i hi => ?_
        have hq := hpoi k j i ⟨Finset.mem_Icc.mp hk, Finset.mem_Icc.mp hj, Finset.mem_Icc.mp hi⟩
        have hr : fourPiG * D.prim (0, k, j, i) = (D.phi (k,j,i+1) - 2 * D.phi (k,j,i) + D.phi (k,j,i-1)) / h1 ^ 2
            + (if d.nx2 > 1 then (D.phi (k,j+1,i) - 2 * D.phi (k,j,i) + D.phi (k,j-1,i)) / h2 ^ 2 else 0)
            + (if d.nx3 > 1 then (D.phi (k+1,j,i) - 2 * D.phi (k,j,i) + D.phi (k-1,j,i)) / h3 ^ 2 else 0) + fourPiG * rho0 := by
          rw [hq]; ring
        beta_reduce
        rw [← mul_assoc, hr, ← sub_eq_add_neg]
        simp only [Prod.mk_add_mk, Prod.mk_sub_mk, add_zero, sub_zero]
        split_ifs <;> ring
      rw [e1]
      simp only [tsum3_add, tsum3_smul]
      rw [no_pull hv s1 hper, hv _ hper, hv.neg _ hper]
      have z2 : (if d.nx2 > 1 then 1 / h2 ^ 2 else 0) * tsum3 d (fun q =>
          (D.phi (q + (0,1,0)) - 2 * D.phi q + D.phi (q - (0,1,0))) * (D.phi (q + v) - D.phi (q - v))) = 0 := by
        by_cases hh : d.nx2 > 1
        · rw [no_pull hv (s2 hh) hper, mul_zero]
        · rw [if_neg hh, zero_mul]
      have z3 : (if d.nx3 > 1 then 1 / h3 ^ 2 else 0) * tsum3 d (fun q =>
          (D.phi (q + (1,0,0)) - 2 * D.phi q + D.phi (q - (1,0,0))) * (D.phi (q + v) - D.phi (q - v))) = 0 := by
        by_cases hh : d.nx3 > 1
        · rw [no_pull hv (s3 hh) hper, mul_zero]
        · rw [if_neg hh, zero_mul]
      rw [z2, z3]
      ring
    rw [tsum3_smul] at e
    exact (mul_eq_zero.mp e).resolve_left hG
  have fin : ∀ (c : ℝ) v, Inv d v → (∀ k j i, Active d k j i → u' (n,k,j,i) - u (n,k,j,i) =
      c * (D.prim (0,k,j,i) * (D.phi ((k,j,i) + v) - D.phi ((k,j,i) - v)))) → total d (fun k j i => u' (n,k,j,i) - u (n,k,j,i)) = 0 := by
    intro c v hv he
    have : total d (fun k j i => u' (n,k,j,i) - u (n,k,j,i)) =
        tsum3 d (fun q => c * (D.prim (0, q) * (D.phi (q + v) - D.phi (q - v)))) := by
      unfold tsum3 total
      exact Finset.sum_congr rfl fun k hk => Finset.sum_congr rfl fun j hj => Finset.sum_congr rfl fun i hi =>
        he k j i ⟨Finset.mem_Icc.mp hk, Finset.mem_Icc.mp hj, Finset.mem_Icc.mp hi⟩
    rw [this, tsum3_smul, main v hv, mul_zero]
  have step : ∀ k j i, Active d k j i → u' (n,k,j,i) - u (n,k,j,i) = sgI C d D dt n k j i := by
    intro k j i ha
    rw [addSourceTerms_at C d D dt (ks_le_ke hd) h, if_pos ha, et]
    ring
  have zero : (∀ k j i, sgI C d D dt n k j i = 0) → total d (fun k j i => u' (n,k,j,i) - u (n,k,j,i)) = 0 := fun hz =>
    fin 0 (0,0,1) s1 fun k j i ha => by rw [step k j i ha, hz]; ring
  obtain rfl | rfl | rfl : n = 1 ∨ n = 2 ∨ n = 3 := by omega
  · refine fin (-(0.5 * dt / h1)) (0,0,1) s1 fun k j i ha => ?_
    rw [step k j i ha]
    simp only [sgI, sgCell, addE_at, add_at, Int.reduceEq, if_true, if_false, and_false, add_zero, ite_self, zero_add, dv _ _ _ u1,
      Prod.mk_add_mk, Prod.mk_sub_mk, sub_zero]
    ring
  · by_cases hh : d.nx2 > 1
    · refine fin (-(0.5 * dt / h2)) (0,1,0) (s2 hh) fun k j i ha => ?_
      rw [step k j i ha]
      simp only [sgI, sgCell, addE_at, add_at, Int.reduceEq, if_true, if_false, and_false, add_zero, ite_self, zero_add, dv _ _ _ u2, hh,
        Prod.mk_add_mk, Prod.mk_sub_mk, sub_zero]
      ring
    · refine zero fun k j i => ?_
      simp [sgI, sgCell, addE_at, add_at, hh]
  · by_cases hh : d.nx3 > 1
    · refine fin (-(0.5 * dt / h3)) (1,0,0) (s3 hh) fun k j i ha => ?_
      rw [step k j i ha]
      simp only [sgI, sgCell, addE_at, add_at, Int.reduceEq, if_true, if_false, and_false, add_zero, ite_self, zero_add, dv _ _ _ u3, hh,
        Prod.mk_add_mk, Prod.mk_sub_mk, sub_zero]
      ring
    · refine zero fun k j i => ?_
      simp [sgI, sgCell, addE_at, add_at, hh]


/-! ## The hypotheses can be met -/

/-- Two dimensions. -/
def dims2 : Dims := ⟨2, 4, 4, 1⟩
theorem dims2_ok : dims2.Ok := ⟨by decide, by decide, by decide, by decide⟩
theorem dims2_active : Active dims2 0 2 2 := by unfold Active; decide

/-- Gas that moves, for examples. -/
noncomputable def exData : Data := constD (fun n => if n = 0 then 1 else if n = 1 then 1 else if n = 2 then 2 else 0) (fun _ => 1) 0 0 0

/-- Shearing box: hypotheses of `no_heating_cartesian`; the gas gains energy. -/
example : ∃ (C : Conf) (f : Flags) (u' : A4 ℝ), construct C dims2.nx3 false = some f ∧
    addSourceTerms C dims2 exData 1 f none (fun _ => 0) = some u' ∧ C.c = .cartesian ∧ C.nonBaro = true ∧ C.oa = false ∧
    Good .cartesian exData.X 0 2 2 ∧ Through exData 0 2 2 ∧ u' (4, 0, 2, 2) = 5 := by
  refine ⟨⟨.cartesian, true, true, false, 0, 0, 0, 0, 1, 1, 1, false, false⟩, ⟨false, 2, true⟩, _,
    by simp [construct, massFlag, shearFlag], by simp only [addSourceTerms]; simp; rfl, rfl, rfl, rfl, unitX_good _ _ _ (by decide),
    constD_through _ _ _ _ _ _ _ _, ?_⟩
  rw [shearingBox_at _ _ _ _ (by decide), if_pos dims2_active]
  simp [boxI, boxCell, addE_at, add_at, sub_at, exData, constD, unitX, ofPos, x1v, mid]
  norm_num

/-- A point mass and a rotating frame: hypotheses of `no_heating_cylindrical`, `inertial_cylindrical` and `azimuthal_force`. -/
example : ∃ (C : Conf) (f : Flags) (u' : A4 ℝ), construct C dims2.nx3 false = some f ∧
    addSourceTerms C dims2 exData 1 f none (fun _ => 0) = some u' ∧ C.c = .cylindrical ∧ C.nonBaro = true ∧ C.gm = 1 ∧ OnlyOrbit C ∧
    Good .cylindrical exData.X 0 2 2 ∧ 0 < exData.X.x1.xf 2 ∧ Through exData 0 2 2 ∧ refVel C dims2 exData (0, 2, 2) ≠ 0 := by
  refine ⟨⟨.cylindrical, true, true, false, 1, 0, 0, 0, 1, 0, 1, false, false⟩, ⟨true, 3, true⟩, _,
    by simp [construct, massFlag, shearFlag, dims2], by simp only [addSourceTerms, rotating]; simp; rfl, rfl, rfl, rfl, ⟨rfl, rfl, rfl, rfl⟩,
    unitX_good _ _ _ (by decide), by simp [exData, constD, unitX, ofPos], constD_through _ _ _ _ _ _ _ _, ?_⟩
  have := cyl_rv (D := exData) (unitX_good .cylindrical 0 2 (by decide))
  simp [refVel, frameVel, this.ne']

/-- The same in spherical coordinates: hypotheses of `no_heating_spherical`, `inertial_spherical`. -/
example : ∃ (C : Conf) (f : Flags) (u' : A4 ℝ), construct C dims2.nx3 false = some f ∧
    addSourceTerms C dims2 exData 1 f none (fun _ => 0) = some u' ∧ C.c = .spherical ∧ C.nonBaro = true ∧ C.gm = 1 ∧ OnlyOrbit C ∧
    Good .spherical exData.X 0 2 2 ∧ Through exData 0 2 2 :=
  ⟨⟨.spherical, true, true, false, 1, 0, 0, 0, 1, 0, 1, false, false⟩, ⟨true, 3, true⟩, _,
    by simp [construct, massFlag, shearFlag], by simp only [addSourceTerms, rotating]; simp [dims2]; rfl, rfl, rfl, rfl, ⟨rfl, rfl, rfl, rfl⟩,
    unitX_good _ _ _ (by decide), constD_through _ _ _ _ _ _ _ _⟩

/-- Orbital advection in three dimensions: hypotheses of `vertical_gravity_twice`, `inertial_cylindrical` and `azimuthal_force`; there is
vertical gravity. -/
example : ∃ (C : Conf) (f : Flags) (u' : A4 ℝ), construct C dims3.nx3 false = some f ∧
    addSourceTerms C dims3 exData 1 f none (fun _ => 0) = some u' ∧ C.c = .cylindrical ∧ C.nonBaro = true ∧ C.mhd = false ∧ 0 < C.gm ∧
    OnlyOrbit C ∧ C.oa = true ∧ C.userVel = false ∧ Active dims3 2 2 2 ∧ Good .cylindrical exData.X 2 2 2 ∧ Through exData 2 2 2 ∧
    u' (3, 2, 2, 2) < 0 := by
  have ha : Active dims3 2 2 2 := by unfold Active; decide
  refine ⟨⟨.cylindrical, true, false, false, 1, 0, 0, 0, 0, 0, 1, true, false⟩, ⟨false, 1, true⟩, _,
    by simp [construct, massFlag, shearFlag], by simp only [addSourceTerms]; simp; rfl, rfl, rfl, rfl, by norm_num, ⟨rfl, rfl, rfl, rfl⟩, rfl, rfl, ha,
    unitX_good _ _ _ (by decide), constD_through _ _ _ _ _ _ _ _, ?_⟩
  have rv := cyl_rv (D := exData) (unitX_good .cylindrical 2 2 (by decide))
  rw [orbital_at, if_pos ha]
  simp only [oaI, dims3, if_true, oaCyl3, addE_at, add_at, sub_at, Int.reduceEq, if_false, and_false, add_zero, zero_add, sub_zero]
  have hz : x3v exData.X 2 = 5 / 2 := by simp [x3v, mid, exData, constD, unitX, ofPos]; norm_num
  rw [hz]
  have hp : 0 < Real.sqrt (x1v exData.X .cylindrical 2 ^ 2 + (5 / 2) ^ 2) := Real.sqrt_pos.mpr (by positivity)
  have e0 : exData.prim (0, 2, 2, 2) = 1 := by simp [exData, constD]
  rw [e0]
  norm_num
  rw [neg_div, neg_lt_zero]
  positivity

/-- Cold gas on circular orbits: hypotheses of `kepler_balance`, in a frame that rotates. -/
example : ∃ (C : Conf) (D : Data) (f : Flags) (u' : A4 ℝ) (S : Src), construct C dims2.nx3 false = some f ∧
    addSourceTerms C dims2 D 1 f none (fun _ => 0) = some u' ∧ C.c = .cylindrical ∧ 0 < C.gm ∧ C.Omega = 1 ∧ OnlyOrbit C ∧
    Good .cylindrical D.X 0 2 2 ∧ S.prim = D.prim ∧ gasPressure 0 2 2 S = 0 ∧ S.mhd = false ∧ S.vis = false ∧
    D.prim (2,0,2,2) + refVel C dims2 D (0,2,2) = circular C.gm (x1v D.X .cylindrical 2) (height dims2 D.X 0) := by
  let D := constD (fun n => if n = 0 then 1 else if n = 2 then circular 1 (x1v unitX .cylindrical 2) 0 - x1v unitX .cylindrical 2 else 0)
    (fun _ => 1) 0 0 0
  refine ⟨⟨.cylindrical, true, true, false, 1, 0, 0, 0, 1, 0, 1, false, false⟩, D, ⟨true, 3, true⟩, _,
    ⟨true, 0, false, false, D.prim, D.bcc, D.F⟩,
    by simp [construct, massFlag, shearFlag, dims2], by simp only [addSourceTerms, rotating]; simp; rfl, rfl, by norm_num, rfl, ⟨rfl, rfl, rfl, rfl⟩,
    unitX_good _ _ _ (by decide), rfl, by simp [gasPressure, D, constD], rfl, rfl, ?_⟩
  simp [refVel, frameVel, D, constD, height, dims2]

/-- Hypotheses of `shear_background`. -/
example : ∃ (C : Conf) (D : Data) (f : Flags) (u' : A4 ℝ), construct C dims2.nx3 false = some f ∧
    addSourceTerms C dims2 D 1 f none (fun _ => 0) = some u' ∧ C.c = .cartesian ∧ f.shear = 2 ∧ OnlyOrbit C ∧ C.oa = false ∧
    (∀ k j i, D.prim (1,k,j,i) = 0) ∧ (∀ k j i, D.F.x1 (0,k,j,i) = 0) ∧
    (∀ k j i, D.prim (if C.shbox = 1 then 2 else 3,k,j,i) = -C.q * C.Omega * x1v D.X .cartesian i) :=
  ⟨⟨.cartesian, true, true, false, 0, 0, 0, 0, 1, 1, 1, false, false⟩,
    { exData with prim := fun (n, q) => if n = 1 then 0 else -x1v unitX .cartesian q.2.2, F := ⟨fun _ => 0, fun _ => 0, fun _ => 0⟩ }, ⟨false, 2, true⟩, _,
    by simp [construct, massFlag, shearFlag], by simp only [addSourceTerms]; simp; rfl, rfl, rfl, ⟨rfl, rfl, rfl, rfl⟩, rfl, fun _ _ _ => rfl,
    fun _ _ _ => rfl, fun _ _ _ => by simp [exData, constD]⟩

/-- A periodic potential on a line of four cells and the density that belongs to it: hypotheses of `self_gravity_momentum`; the
momentum of single cells changes. -/
noncomputable def exPhi (i : ℤ) : ℝ := if i % 4 = 1 then 1 else if i % 4 = 3 then -1 else 0
example : ∃ (C : Conf) (d : Dims) (D : Data) (f : Flags) (u' : A4 ℝ), d.Ok ∧ construct C d.nx3 false = some f ∧
    addSourceTerms C d D 1 f none (fun _ => 0) = some u' ∧ OnlyGravity C ∧ Uniform D.X.x1 1 ∧ Uniform D.X.x2 (1/4) ∧ Uniform D.X.x3 1 ∧
    Periodic d D.phi ∧ Poisson d D 1 (1/4) 1 1 3 ∧ u' (1, 0, 0, 4) ≠ 0 := by
  let d : Dims := ⟨2, 4, 1, 1⟩
  let D : Data := { exData with
    phi := fun q => exPhi q.2.2
    prim := fun (n, q) => if n = 0 then 3 + (exPhi (q.2.2 + 1) - 2 * exPhi q.2.2 + exPhi (q.2.2 - 1)) else 0 }
  refine ⟨⟨.cartesian, true, false, true, 0, 0, 0, 0, 0, 0, 1, false, false⟩, d, D, ⟨false, 0, true⟩, _, ⟨by decide, by decide, by decide, by decide⟩,
    by simp [construct, massFlag, shearFlag], by simp only [addSourceTerms]; simp; rfl, ⟨rfl, rfl, rfl, rfl, rfl, rfl, rfl⟩,
    fun i => ?_, fun i => ?_, fun i => ?_, ⟨fun k j i => ?_, fun h => absurd h (by decide), fun h => absurd h (by decide)⟩, fun k j i _ => ?_, ?_⟩
  · simp only [D, exData, constD, unitX, ofPos]; push_cast; ring
  · simp only [D, exData, constD, unitX, ofPos]; push_cast; ring
  · simp only [D, exData, constD, unitX, ofPos]; push_cast; ring
  · simp only [D, d, exPhi]
    rw [Int.add_emod_right]
  · simp [D, d]
  · rw [selfGravity_at, if_pos (by unfold Active; decide)]
    simp [sgI, sgCell, addE_at, add_at, D, d, exPhi, dxv, mid, exData, constD, unitX, ofPos]
    norm_num

end Verif.SrcTerms
