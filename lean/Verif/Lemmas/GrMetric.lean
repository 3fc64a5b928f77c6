import Verif.Lemmas.GrFluid
import Mathlib.Tactic.Positivity

namespace Verif.Gr

theorem force_user {dg tt : M4} (hd : ∀ μ ν, dg μ ν = dg ν μ) (ht : ∀ μ ν, tt μ ν = tt ν μ) :
    userForce dg tt = force dg tt := by
  simp only [userForce, force, sum4]
  rw [hd 1 0, hd 2 0, hd 3 0, hd 2 1, hd 3 1, hd 3 2, ht 1 0, ht 2 0, ht 3 0, ht 2 1, ht 3 1, ht 3 2]
  ring

theorem stress_symm {g gi : M4} (h : IsMetric g gi) (w p : ℝ) (u b : V4) (μ ν : Fin 4) :
    stress g gi w p u b μ ν = stress g gi w p u b ν μ := by
  simp only [stress]; rw [h.isymm μ ν]; ring

theorem eq_sym {T : M4} (h : ∀ μ ν, T μ ν = T ν μ) :
    T = sym (T 0 0) (T 0 1) (T 0 2) (T 0 3) (T 1 1) (T 1 2) (T 1 3) (T 2 2) (T 2 3) (T 3 3) := by
  funext i j
  fin_cases i <;> fin_cases j <;> first | rfl | exact h _ _

theorem userSrc_eq {g gi : M4} (h : IsMetric g gi) (mhd : Bool) (gam : ℝ) {d1 d2 d3 : M4}
    (h1 : ∀ μ ν, d1 μ ν = d1 ν μ) (h2 : ∀ μ ν, d2 μ ν = d2 ν μ) (h3 : ∀ μ ν, d3 μ ν = d3 ν μ)
    (dt : ℝ) (w : State) (u : V4) (hud : u = velOf g gi w.vel) (T : M4)
    (hTd : T = stress g gi (w.rho + gam/(gam-1) * w.p) w.p u (fieldOf g u (w.fld mhd))) :
    userSrc mhd gam g gi d1 d2 d3 dt w = ⟨0, dt * force d1 T, dt * force d2 T, dt * force d3 T⟩ := by
  have hT : ∀ μ ν, T μ ν = T ν μ := hTd ▸ stress_symm h _ _ _ _
  rw [← force_user h1 hT, ← force_user h2 hT, ← force_user h3 hT, eq_sym hT]
  have s := h.sym
  have huu : g 1 1*w.uu1*w.uu1 + 2*g 1 2*w.uu1*w.uu2 + 2*g 1 3*w.uu1*w.uu3
    + g 2 2*w.uu2*w.uu2 + 2*g 2 3*w.uu2*w.uu3 + g 3 3*w.uu3*w.uu3 = dot g w.vel w.vel := by
    simp only [dot, sum4]
    change _ = g 0 0 * 0 * 0 + g 0 1 * 0 * w.uu1 + g 0 2 * 0 * w.uu2 + g 0 3 * 0 * w.uu3
      + (g 1 0 * w.uu1 * 0 + g 1 1 * w.uu1 * w.uu1 + g 1 2 * w.uu1 * w.uu2 + g 1 3 * w.uu1 * w.uu3)
      + (g 2 0 * w.uu2 * 0 + g 2 1 * w.uu2 * w.uu1 + g 2 2 * w.uu2 * w.uu2 + g 2 3 * w.uu2 * w.uu3)
      + (g 3 0 * w.uu3 * 0 + g 3 1 * w.uu3 * w.uu1 + g 3 2 * w.uu3 * w.uu2 + g 3 3 * w.uu3 * w.uu3)
    rw [s 2 1, s 3 1, s 3 2]; ring
  have hsq : ∀ b : V4, (g 0 0*b 0 + g 0 1*b 1 + g 0 2*b 2 + g 0 3*b 3) * b 0
      + (g 0 1*b 0 + g 1 1*b 1 + g 1 2*b 2 + g 1 3*b 3) * b 1
      + (g 0 2*b 0 + g 1 2*b 1 + g 2 2*b 2 + g 2 3*b 3) * b 2
      + (g 0 3*b 0 + g 1 3*b 1 + g 2 3*b 2 + g 3 3*b 3) * b 3 = dot g b b := by
    intro b
    simp only [dot, sum4]
    rw [s 1 0, s 2 0, s 3 0, s 2 1, s 3 1, s 3 2]; ring
  have hb0 : mhd = true → (g 0 1*u 0 + g 1 1*u 1 + g 1 2*u 2 + g 1 3*u 3) * w.bb1
      + (g 0 2*u 0 + g 1 2*u 1 + g 2 2*u 2 + g 2 3*u 3) * w.bb2
      + (g 0 3*u 0 + g 1 3*u 1 + g 2 3*u 2 + g 3 3*u 3) * w.bb3 = dot g u (w.fld mhd) := by
    rintro rfl
    simp only [dot, sum4]
    change _ = g 0 0 * u 0 * 0 + g 0 1 * u 0 * w.bb1 + g 0 2 * u 0 * w.bb2 + g 0 3 * u 0 * w.bb3
      + (g 1 0 * u 1 * 0 + g 1 1 * u 1 * w.bb1 + g 1 2 * u 1 * w.bb2 + g 1 3 * u 1 * w.bb3)
      + (g 2 0 * u 2 * 0 + g 2 1 * u 2 * w.bb1 + g 2 2 * u 2 * w.bb2 + g 2 3 * u 2 * w.bb3)
      + (g 3 0 * u 3 * 0 + g 3 1 * u 3 * w.bb1 + g 3 2 * u 3 * w.bb2 + g 3 3 * u 3 * w.bb3)
    rw [s 2 1, s 3 1, s 3 2]; ring
  have hu0 : u 0 = Real.sqrt (1 + dot g w.vel w.vel) / Real.sqrt (-1/gi 0 0) := by rw [hud]; rfl
  have hu1 : u 1 = w.uu1 - Real.sqrt (-1/gi 0 0) * Real.sqrt (1 + dot g w.vel w.vel) * gi 0 1 := by rw [hud]; rfl
  have hu2 : u 2 = w.uu2 - Real.sqrt (-1/gi 0 0) * Real.sqrt (1 + dot g w.vel w.vel) * gi 0 2 := by rw [hud]; rfl
  have hu3 : u 3 = w.uu3 - Real.sqrt (-1/gi 0 0) * Real.sqrt (1 + dot g w.vel w.vel) * gi 0 3 := by rw [hud]; rfl
  have hb : ∀ b : V4, b = fieldOf g u (w.fld mhd) → T = stress g gi (w.rho + gam/(gam-1) * w.p) w.p u b := by
    rintro b rfl; exact hTd
  unfold userSrc
  dsimp only
  simp only [huu]
  rw [← hu0, ← hu1, ← hu2, ← hu3]
  cases mhd with
  | true =>
    simp only [if_true]
    rw [hb0 rfl]
    set b := fieldOf g u (w.fld true) with hbd
    have e0 : dot g u (w.fld true) = b 0 := rfl
    have e1 : (w.bb1 + dot g u (w.fld true) * u 1) / u 0 = b 1 := rfl
    have e2 : (w.bb2 + dot g u (w.fld true) * u 2) / u 0 = b 2 := rfl
    have e3 : (w.bb3 + dot g u (w.fld true) * u 3) / u 0 = b 3 := rfl
    rw [e1, e2, e3, e0, hsq b, hb b rfl]
    simp only [stress]
    have e : (1 : ℝ)/2 * dot g b b = dot g b b / 2 := by ring
    simp only [e]
  | false =>
    have hz : fieldOf g u (w.fld false) = 0 := by
      have hd : dot g u (w.fld false) = 0 := by
        change dot g u 0 = 0
        simp only [dot, sum4, Pi.zero_apply]; ring
      have hf : ∀ i, w.fld false i = 0 := fun i => rfl
      funext i
      fin_cases i
      · exact hd
      · change (w.fld false 1 + dot g u (w.fld false) * u 1) / u 0 = 0
        rw [hf, hd]; ring
      · change (w.fld false 2 + dot g u (w.fld false) * u 2) / u 0 = 0
        rw [hf, hd]; ring
      · change (w.fld false 3 + dot g u (w.fld false) * u 3) / u 0 = 0
        rw [hf, hd]; ring
    have hd : dot g 0 0 = 0 := by simp only [dot, sum4, Pi.zero_apply]; ring
    rw [hb 0 hz.symm]
    simp only [stress, hd, Pi.zero_apply, Bool.false_eq_true, if_false]
    have e : (1 : ℝ)/2 * 0 = 0/2 := by ring
    simp only [e]

theorem sch_alpha {m r : ℝ} (h : 2*m/r < 1) : schAlphaSq m r = 1 - 2*m/r := by
  rw [schAlphaSq, Real.sq_sqrt (by linarith)]

theorem userForce_sym (a00 a01 a02 a03 a11 a12 a13 a22 a23 a33 b00 b01 b02 b03 b11 b12 b13 b22 b23 b33 : ℝ) :
    userForce (sym a00 a01 a02 a03 a11 a12 a13 a22 a23 a33) (sym b00 b01 b02 b03 b11 b12 b13 b22 b23 b33) =
      (a00*b00 + a01*b01 + a02*b02 + a03*b03 + a11*b11 + a12*b12 + a13*b13 + a22*b22 + a23*b23 + a33*b33)
      - 1/2 * (a00*b00 + a11*b11 + a22*b22 + a33*b33) := rfl

theorem schSrc_eq (mhd : Bool) (gam m r sin cos dt : ℝ) (w : State) :
    schSrc mhd gam m r sin cos dt w = userSrc mhd gam (schMetric m r (sin^2)) (schInverse m r (sin^2))
      (sym (-2*m/r^2) 0 0 0 (-2*m/r^2 * (schMetric m r (sin^2) 1 1)^2) 0 0 (2*r) 0 (2*r*sin^2))
      (sym 0 0 0 0 0 0 0 0 0 (2*r^2*(sin*cos))) (sym 0 0 0 0 0 0 0 0 0 0) dt w := by
  unfold schSrc userSrc
  have z : ∀ (i j : Fin 4), (i, j) ∈ [(0,1),(0,2),(0,3),(1,2),(1,3),(2,3)] →
      schMetric m r (sin^2) i j = 0 ∧ schInverse m r (sin^2) i j = 0 := by
    intro i j h
    simp only [List.mem_cons, Prod.mk.injEq, List.not_mem_nil, or_false] at h
    rcases h with ⟨rfl, rfl⟩ | ⟨rfl, rfl⟩ | ⟨rfl, rfl⟩ | ⟨rfl, rfl⟩ | ⟨rfl, rfl⟩ | ⟨rfl, rfl⟩ <;> exact ⟨rfl, rfl⟩
  simp only [(z 0 1 (by simp)).1, (z 0 2 (by simp)).1, (z 0 3 (by simp)).1, (z 1 2 (by simp)).1,
    (z 1 3 (by simp)).1, (z 2 3 (by simp)).1, (z 0 1 (by simp)).2, (z 0 2 (by simp)).2, (z 0 3 (by simp)).2,
    (z 1 2 (by simp)).2, (z 1 3 (by simp)).2, (z 2 3 (by simp)).2]
  simp only [mul_zero, zero_mul, add_zero, zero_add, sub_zero]
  generalize schMetric m r (sin^2) = g
  generalize schInverse m r (sin^2) = gi
  generalize Real.sqrt (1 + (g 1 1*w.uu1*w.uu1 + g 2 2*w.uu2*w.uu2 + g 3 3*w.uu3*w.uu3)) / Real.sqrt (-1/gi 0 0) = u0
  generalize (if mhd = true then g 1 1 * w.uu1 * w.bb1 + g 2 2 * w.uu2 * w.bb2 + g 3 3 * w.uu3 * w.bb3 else 0) = b0
  generalize (if mhd = true then (w.bb1 + b0 * w.uu1) / u0 else 0) = b1
  generalize (if mhd = true then (w.bb2 + b0 * w.uu2) / u0 else 0) = b2
  generalize (if mhd = true then (w.bb3 + b0 * w.uu3) / u0 else 0) = b3
  generalize (if mhd = true then g 0 0 * b0 * b0 + g 1 1 * b1 * b1 + g 2 2 * b2 * b2 + g 3 3 * b3 * b3 else 0) = bs
  rw [userForce_sym, userForce_sym, userForce_sym]
  ext
  · rfl
  · dsimp only; ring
  · dsimp only; ring
  · dsimp only; ring

/-- Derivatives of the Kerr-Schild metric as the code writes them. -/
noncomputable def ksD1 (m a r sin cos : ℝ) : M4 :=
  let a2 := a^2
  let sin2 := sin^2
  let sigma_sq := (r^2 + a2 * cos^2)^2
  let xi := r^2 - a2 * cos^2
  sym (-2*m * xi / sigma_sq) (-2*m * xi / sigma_sq) 0 (2*m * xi / sigma_sq * a * sin2) (-2*m * xi / sigma_sq) 0
    (2*m * xi / sigma_sq * a * sin2) (2 * r) 0 (2 * (r - m * xi / sigma_sq * a2 * sin2) * sin2)

noncomputable def ksD2 (m a r sin cos : ℝ) : M4 :=
  let a2 := a^2
  let sincos := sin * cos
  let r2_a2 := r^2 + a2
  let delta := r2_a2 - 2*m * r
  let sigma_sq := (r^2 + a2 * cos^2)^2
  sym (4*m*a2 * r / sigma_sq * sincos) (4*m*a2 * r / sigma_sq * sincos) 0
    (-4*m*a * r * r2_a2 / sigma_sq * sincos) (4*m*a2 * r / sigma_sq * sincos) 0
    (-2 * (1 + 2*m * r * r2_a2 / sigma_sq) * a * sincos) (-2*a2 * sincos) 0
    (2 * (delta + 2*m * r * r2_a2^2 / sigma_sq) * sincos)

theorem ksSrc_eq (mhd : Bool) (gam m a r sin cos dt : ℝ) (w : State) :
    ksSrc mhd gam m a r sin cos dt w =
      userSrc mhd gam (ksMetric m a r (sin^2) (cos^2)) (ksInverse m a r (sin^2) (cos^2))
        (ksD1 m a r sin cos) (ksD2 m a r sin cos) (sym 0 0 0 0 0 0 0 0 0 0) dt w := by
  unfold ksSrc userSrc
  have z2 : ∀ (i j : Fin 4), (i, j) ∈ [(0,2),(1,2),(2,3)] →
      ksMetric m a r (sin^2) (cos^2) i j = 0 ∧ ksInverse m a r (sin^2) (cos^2) i j = 0 := by
    intro i j h
    simp only [List.mem_cons, Prod.mk.injEq, List.not_mem_nil, or_false] at h
    rcases h with ⟨rfl, rfl⟩ | ⟨rfl, rfl⟩ | ⟨rfl, rfl⟩ <;> exact ⟨rfl, rfl⟩
  have z3 : ksInverse m a r (sin^2) (cos^2) 0 3 = 0 := rfl
  simp only [(z2 0 2 (by simp)).1, (z2 1 2 (by simp)).1, (z2 2 3 (by simp)).1,
    (z2 0 2 (by simp)).2, (z2 1 2 (by simp)).2, (z2 2 3 (by simp)).2, z3]
  simp only [mul_zero, zero_mul, add_zero, zero_add, sub_zero]
  unfold ksD1 ksD2
  generalize ksMetric m a r (sin^2) (cos^2) = g
  generalize ksInverse m a r (sin^2) (cos^2) = gi
  generalize Real.sqrt (1 + (g 1 1*w.uu1*w.uu1 + 2*g 1 3*w.uu1*w.uu3 + g 2 2*w.uu2*w.uu2 + g 3 3*w.uu3*w.uu3)) = γ
  generalize Real.sqrt (-1/gi 0 0) = α
  generalize γ / α = u0
  generalize w.uu1 - α * γ * gi 0 1 = u1
  generalize (if mhd = true then (g 0 1 * u0 + g 1 1 * u1 + g 1 3 * w.uu3) * w.bb1 + g 2 2 * w.uu2 * w.bb2
    + (g 0 3 * u0 + g 1 3 * u1 + g 3 3 * w.uu3) * w.bb3 else 0) = b0
  generalize (if mhd = true then (w.bb1 + b0 * u1) / u0 else 0) = b1
  generalize (if mhd = true then (w.bb2 + b0 * w.uu2) / u0 else 0) = b2
  generalize (if mhd = true then (w.bb3 + b0 * w.uu3) / u0 else 0) = b3
  generalize (if mhd = true then (g 0 0 * b0 + g 0 1 * b1 + g 0 3 * b3) * b0
    + (g 0 1 * b0 + g 1 1 * b1 + g 1 3 * b3) * b1 + g 2 2 * b2 * b2
    + (g 0 3 * b0 + g 1 3 * b1 + g 3 3 * b3) * b3 else 0) = bs
  rw [userForce_sym, userForce_sym, userForce_sym]
  ext
  · rfl
  · dsimp only; ring
  · dsimp only; ring
  · dsimp only; ring

theorem vel_fld_zero (mhd : Bool) (w : State) : w.vel 0 = 0 ∧ w.fld mhd 0 = 0 := by
  refine ⟨rfl, ?_⟩
  cases mhd <;> rfl

theorem normal_dot {g gi : M4} (h : IsMetric g gi) (v : V4) : dot g v (gi 0) = v 0 := by
  have a0 := h.at 0 0
  have a1 := h.at 1 0
  have a2 := h.at 2 0
  have a3 := h.at 3 0
  have hs := h.isymm
  simp only [if_true, Fin.isValue, one_ne_zero, if_false, Fin.reduceEq] at a0 a1 a2 a3
  simp only [dot, sum4, hs 0]
  linear_combination (v 0) * a0 + v 1 * a1 + v 2 * a2 + v 3 * a3

theorem dot_comm {g gi : M4} (h : IsMetric g gi) (a b : V4) : dot g a b = dot g b a := by
  have s := h.sym
  simp only [dot, sum4]
  rw [s 1 0, s 2 0, s 3 0, s 2 1, s 3 1, s 3 2]; ring

theorem dot_comb (g : M4) (a b c : V4) (x y : ℝ) :
    dot g (fun i => x * a i + y * b i) c = x * dot g a c + y * dot g b c := by
  simp only [dot, sum4]; ring

/-- The square of the time component. -/
theorem fourVel_zero {g gi : M4} (h : IsMetric g gi) (h0 : gi 0 0 < 0) {uu u : V4} (hu : uu 0 = 0)
    (hv : FourVel g gi uu u) : u 0 ^ 2 = -(gi 0 0) * (1 + dot g uu uu) := by
  have hz := h0.ne
  have e : u = fun i => 1 * uu i + (u 0 / gi 0 0) * gi 0 i := by
    funext i
    by_cases hi : i = 0
    · subst hi; rw [hu]; field_simp; ring
    · rw [hv.proj i hi]; ring
  have hn := hv.norm
  have h1 : dot g u u = dot g uu uu + (u 0)^2 / gi 0 0 := by
    calc dot g u u = dot g (fun i => 1 * uu i + (u 0 / gi 0 0) * gi 0 i) u := by rw [← e]
      _ = dot g uu u + (u 0 / gi 0 0) * dot g (gi 0) u := by rw [dot_comb]; ring
      _ = dot g u uu + (u 0 / gi 0 0) * u 0 := by rw [dot_comm h uu u, dot_comm h (gi 0) u, normal_dot h]
      _ = dot g (fun i => 1 * uu i + (u 0 / gi 0 0) * gi 0 i) uu + (u 0 / gi 0 0) * u 0 := by rw [← e]
      _ = _ := by rw [dot_comb, dot_comm h (gi 0) uu, normal_dot h, hu]; ring
  rw [h1] at hn
  field_simp at hn
  linarith

theorem fourVel_unique {g gi : M4} (h : IsMetric g gi) (h0 : gi 0 0 < 0) {uu u v : V4} (hu : uu 0 = 0)
    (h1 : FourVel g gi uu u) (h2 : FourVel g gi uu v) : u = v := by
  have e : u 0 = v 0 := by
    have := (fourVel_zero h h0 hu h1).trans (fourVel_zero h h0 hu h2).symm
    rcases pow_eq_pow_iff_of_ne_zero (two_ne_zero) |>.mp this with h | ⟨h, -⟩
    · exact h
    · have a := h1.future
      have b := h2.future
      linarith
  funext i
  by_cases hi : i = 0
  · rw [hi, e]
  · rw [h1.proj i hi, h2.proj i hi, e]

theorem fourField_unique {g gi : M4} {uu u B b c : V4} (hv : FourVel g gi uu u) (hB : B 0 = 0)
    (h1 : FourField g u B b) (h2 : FourField g u B c) : b = c := by
  have h0 := hv.future.ne'
  have aux : ∀ {b : V4}, FourField g u B b → b 0 = dot g B u ∧ ∀ i, b i = (B i + dot g B u * u i) / u 0 := by
    intro b hb
    have e : ∀ i, b i * u 0 = B i + b 0 * u i := by
      intro i
      by_cases hi : i = 0
      · subst hi; rw [hB]; ring
      · have := hb.comp i hi; linarith
    have e1 : dot g b u * u 0 = dot g B u + b 0 * dot g u u := by
      have : dot g b u * u 0 = dot g (fun i => b i * u 0) u := by simp only [dot, sum4]; ring
      rw [this]
      simp only [e]
      have := dot_comb g B u u 1 (b 0)
      simp only [one_mul] at this
      exact this
    rw [hb.orth, hv.norm] at e1
    have e0 : b 0 = dot g B u := by linarith
    refine ⟨e0, fun i => ?_⟩
    rw [eq_div_iff h0, e i, e0]
  funext i
  rw [(aux h1).2 i, (aux h2).2 i]

/-- Every source term in terms of the velocity and the field. -/
theorem userSrc_spec {g gi : M4} (h : IsMetric g gi) (h0 : gi 0 0 < 0)
    (hp : ∀ v : V4, v 0 = 0 → 0 ≤ dot g v v) (mhd : Bool) (gam : ℝ) {d1 d2 d3 : M4}
    (h1 : ∀ μ ν, d1 μ ν = d1 ν μ) (h2 : ∀ μ ν, d2 μ ν = d2 ν μ) (h3 : ∀ μ ν, d3 μ ν = d3 ν μ)
    (dt : ℝ) (w : State) {u b : V4} (hu : FourVel g gi w.vel u) (hb : FourField g u (w.fld mhd) b) :
    userSrc mhd gam g gi d1 d2 d3 dt w =
      ⟨0, dt * force d1 (stress g gi (w.rho + gam/(gam-1) * w.p) w.p u b),
        dt * force d2 (stress g gi (w.rho + gam/(gam-1) * w.p) w.p u b),
        dt * force d3 (stress g gi (w.rho + gam/(gam-1) * w.p) w.p u b)⟩ := by
  have z := vel_fld_zero mhd w
  have e1 := fourVel_unique h h0 z.1 hu (velOf_fourVel h h0 _ z.1 (hp _ z.1))
  have e2 := fourField_unique hu z.2 hb (fieldOf_fourField h hu _ z.2)
  rw [userSrc_eq h mhd gam h1 h2 h3 dt w u e1 _ rfl, ← e2]

theorem symMul_one {A B : M4} (h : ∀ i j, A i 0 * B 0 j + A i 1 * B 1 j + A i 2 * B 2 j + A i 3 * B 3 j
    = if i = j then 1 else 0) : A * B = 1 := by
  ext i j
  rw [Matrix.mul_apply, Fin.sum_univ_four, Matrix.one_apply]
  exact h i j

theorem sym_symm (g00 g01 g02 g03 g11 g12 g13 g22 g23 g33 : ℝ) (μ ν : Fin 4) :
    sym g00 g01 g02 g03 g11 g12 g13 g22 g23 g33 μ ν = sym g00 g01 g02 g03 g11 g12 g13 g22 g23 g33 ν μ := by
  fin_cases μ <;> fin_cases ν <;> rfl

theorem sch_isMetric {m r s2 : ℝ} (h : 2*m/r < 1) (hr : r ≠ 0) (hs : s2 ≠ 0) :
    IsMetric (schMetric m r s2) (schInverse m r s2) := by
  have ha : schAlphaSq m r ≠ 0 := by rw [sch_alpha h]; linarith
  refine ⟨fun μ ν => sym_symm _ _ _ _ _ _ _ _ _ _ μ ν, ?_⟩
  rw [schMetric, schInverse]
  generalize schAlphaSq m r = A at ha
  apply symMul_one
  intro i j
  fin_cases i <;> fin_cases j <;> simp [sym] <;> field_simp

theorem ks_isMetric {m a r s2 c2 : ℝ} (h : s2 + c2 = 1) (hS : r^2 + a^2 * c2 ≠ 0) (hs : s2 ≠ 0) :
    IsMetric (ksMetric m a r s2 c2) (ksInverse m a r s2 c2) := by
  refine ⟨fun μ ν => sym_symm _ _ _ _ _ _ _ _ _ _ μ ν, ?_⟩
  obtain ⟨S, hSd⟩ : ∃ S, S = r^2 + a^2 * c2 := ⟨_, rfl⟩
  have e : r^2 + a^2 = S + a^2 * s2 := by rw [hSd]; linear_combination -a^2 * h
  have e' : r^2 - 2*m*r + a^2 = S + a^2 * s2 - 2*m*r := by rw [← e]; ring
  simp only [ksMetric, ksInverse]
  rw [e, e', ← hSd]
  rw [← hSd] at hS
  apply symMul_one
  intro i j
  fin_cases i <;> fin_cases j <;> simp [sym] <;> field_simp <;> ring

end Verif.Gr
