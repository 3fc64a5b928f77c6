import Verif.Model.GrFrame
import Verif.Lemmas.GrMetric

namespace Verif.Gr

theorem eta_entries : (∀ i j : Fin 4, i ≠ j → eta i j = 0) ∧ eta 0 0 = -1 ∧ eta 1 1 = 1 ∧ eta 2 2 = 1 ∧ eta 3 3 = 1 :=
  ⟨fun _ _ h => Matrix.diagonal_apply_ne _ h, rfl, rfl, rfl, rfl⟩

theorem eta_sq : eta * eta = 1 := by
  rw [eta, Matrix.diagonal_mul_diagonal, ← Matrix.diagonal_one]
  congr 1
  funext i
  fin_cases i <;> norm_num

section
variable {g gi M E : M4} {n : Fin 4}

theorem Frame.orth' (F : Frame g M E n) : E.transpose * g * E = eta := by
  ext a b
  have := F.orth a b
  rw [← this]
  simp only [Matrix.mul_apply, Matrix.transpose_apply, dot, sum4]
  ring

theorem Frame.inv' (F : Frame g M E n) : E * M = 1 := mul_eq_one_comm.mp F.inv

theorem Frame.g_eq (F : Frame g M E n) : g = M.transpose * eta * M := by
  have h1 : M.transpose * E.transpose = 1 := by rw [← Matrix.transpose_mul, F.inv', Matrix.transpose_one]
  have := F.orth'
  calc g = (M.transpose * E.transpose) * g * (E * M) := by rw [h1, F.inv', Matrix.one_mul, Matrix.mul_one]
    _ = M.transpose * (E.transpose * g * E) * M := by simp only [Matrix.mul_assoc]
    _ = _ := by rw [this]

theorem Frame.gi_eq (F : Frame g M E n) (h : IsMetric g gi) : gi = E * eta * E.transpose := by
  have h1 : M.transpose * E.transpose = 1 := by rw [← Matrix.transpose_mul, F.inv', Matrix.transpose_one]
  have e : g * (E * eta * E.transpose) = 1 := by
    rw [F.g_eq]
    calc M.transpose * eta * M * (E * eta * E.transpose)
        = M.transpose * (eta * ((M * E) * eta)) * E.transpose := by simp only [Matrix.mul_assoc]
      _ = 1 := by rw [F.inv, Matrix.one_mul, eta_sq, Matrix.mul_one, h1]
  calc gi = gi * (g * (E * eta * E.transpose)) := by rw [e, Matrix.mul_one]
    _ = (gi * g) * (E * eta * E.transpose) := by simp only [Matrix.mul_assoc]
    _ = _ := by rw [mul_eq_one_comm.mp h.inv, Matrix.one_mul]

theorem sandwich (A B : M4) (μ ν : Fin 4) : (A * eta * B) μ ν
    = -(A μ 0 * B 0 ν) + A μ 1 * B 1 ν + A μ 2 * B 2 ν + A μ 3 * B 3 ν := by
  obtain ⟨h, h0, h1, h2, h3⟩ := eta_entries
  simp only [Matrix.mul_apply, sum4, h0, h1, h2, h3, h 0 1 (by decide), h 0 2 (by decide), h 0 3 (by decide),
    h 1 0 (by decide), h 1 2 (by decide), h 1 3 (by decide), h 2 0 (by decide), h 2 1 (by decide), h 2 3 (by decide),
    h 3 0 (by decide), h 3 1 (by decide), h 3 2 (by decide)]
  ring

theorem Frame.g_at (F : Frame g M E n) (μ ν : Fin 4) :
    g μ ν = -(M 0 μ * M 0 ν) + M 1 μ * M 1 ν + M 2 μ * M 2 ν + M 3 μ * M 3 ν := by
  have := congrFun (congrFun F.g_eq μ) ν
  rw [this, sandwich]; rfl

theorem Frame.gi_at (F : Frame g M E n) (h : IsMetric g gi) (μ ν : Fin 4) :
    gi μ ν = -(E μ 0 * E ν 0) + E μ 1 * E ν 1 + E μ 2 * E ν 2 + E μ 3 * E ν 3 := by
  have := congrFun (congrFun (F.gi_eq h) μ) ν
  rw [this, sandwich]; rfl

theorem Frame.me (F : Frame g M E n) (a b : Fin 4) :
    M a 0 * E 0 b + M a 1 * E 1 b + M a 2 * E 2 b + M a 3 * E 3 b = if a = b then 1 else 0 := by
  have := congrFun (congrFun F.inv a) b
  rwa [Matrix.mul_apply, Fin.sum_univ_four, Matrix.one_apply] at this

theorem Frame.em (F : Frame g M E n) (a b : Fin 4) :
    E a 0 * M 0 b + E a 1 * M 1 b + E a 2 * M 2 b + E a 3 * M 3 b = if a = b then 1 else 0 := by
  have := congrFun (congrFun F.inv' a) b
  rwa [Matrix.mul_apply, Fin.sum_univ_four, Matrix.one_apply] at this

/-- Components in the frame. -/
def loc (M : M4) (v : V4) : V4 := fun a => M a 0 * v 0 + M a 1 * v 1 + M a 2 * v 2 + M a 3 * v 3

theorem Frame.back (F : Frame g M E n) (v : V4) (μ : Fin 4) :
    v μ = E μ 0 * loc M v 0 + E μ 1 * loc M v 1 + E μ 2 * loc M v 2 + E μ 3 * loc M v 3 := by
  have h0 := F.em μ 0
  have h1 := F.em μ 1
  have h2 := F.em μ 2
  have h3 := F.em μ 3
  simp only [loc]
  have : v μ = (if μ = 0 then 1 else 0) * v 0 + (if μ = 1 then 1 else 0) * v 1 + (if μ = 2 then 1 else 0) * v 2
      + (if μ = 3 then 1 else 0) * v 3 := by
    fin_cases μ <;> simp
  rw [this]
  linear_combination (-v 0) * h0 - v 1 * h1 - v 2 * h2 - v 3 * h3

theorem Frame.dot_loc (F : Frame g M E n) (a b : V4) : dot g a b
    = -(loc M a 0 * loc M b 0) + loc M a 1 * loc M b 1 + loc M a 2 * loc M b 2 + loc M a 3 * loc M b 3 := by
  simp only [dot, sum4, loc, F.g_at]
  ring

theorem Frame.e0 (F : Frame g M E n) : E 0 0 * M 0 0 = 1 ∧ E 0 1 = 0 ∧ E 0 2 = 0 ∧ E 0 3 = 0 := by
  have t1 := F.time 1 (by decide)
  have t2 := F.time 2 (by decide)
  have t3 := F.time 3 (by decide)
  have hz := F.future.ne'
  have h0 := F.me 0 0
  have h1 := F.me 0 1
  have h2 := F.me 0 2
  have h3 := F.me 0 3
  rw [t1, t2, t3] at h0 h1 h2 h3
  simp only [if_true, Fin.isValue, zero_ne_one, if_false, Fin.reduceEq] at h0 h1 h2 h3
  refine ⟨by linarith, ?_, ?_, ?_⟩
  · have : M 0 0 * E 0 1 = 0 := by linarith
    exact (mul_eq_zero.mp this).resolve_left hz
  · have : M 0 0 * E 0 2 = 0 := by linarith
    exact (mul_eq_zero.mp this).resolve_left hz
  · have : M 0 0 * E 0 3 = 0 := by linarith
    exact (mul_eq_zero.mp this).resolve_left hz

theorem Frame.alpha (F : Frame g M E n) (h : IsMetric g gi) : Real.sqrt (-1/gi 0 0) = M 0 0 := by
  obtain ⟨h0, h1, h2, h3⟩ := F.e0
  have hz := F.future.ne'
  have e : gi 0 0 = -(E 0 0)^2 := by rw [F.gi_at h, h1, h2, h3]; ring
  have e' : -1 / gi 0 0 = (M 0 0)^2 := by
    have hE : E 0 0 ≠ 0 := left_ne_zero_of_mul_eq_one h0
    rw [e, neg_div_neg_eq, div_eq_iff (by positivity)]
    linear_combination -(M 0 0 * E 0 0 + 1) * h0
  rw [e', Real.sqrt_sq F.future.le]

theorem Frame.gi_neg (F : Frame g M E n) (h : IsMetric g gi) : gi 0 0 < 0 := by
  obtain ⟨h0, h1, h2, h3⟩ := F.e0
  have hE : E 0 0 ≠ 0 := left_ne_zero_of_mul_eq_one h0
  have e : gi 0 0 = -(E 0 0)^2 := by rw [F.gi_at h, h1, h2, h3]; ring
  rw [e, neg_lt_zero]; positivity

theorem Frame.spacelike (F : Frame g M E n) (v : V4) (hv : v 0 = 0) : 0 ≤ dot g v v := by
  have t : loc M v 0 = 0 := by
    simp only [loc, F.time 1 (by decide), F.time 2 (by decide), F.time 3 (by decide), hv]; ring
  rw [F.dot_loc, t]
  have := mul_self_nonneg (loc M v 1)
  have := mul_self_nonneg (loc M v 2)
  have := mul_self_nonneg (loc M v 3)
  linarith

/-- The velocity in the frame. -/
theorem Frame.vel (F : Frame g M E n) (h : IsMetric g gi) (uu : V4) :
    loc M (velOf g gi uu) 0 = Real.sqrt (1 + dot g uu uu)
    ∧ ∀ i, i ≠ 0 → loc M (velOf g gi uu) i = M i 1 * uu 1 + M i 2 * uu 2 + M i 3 * uu 3 := by
  have hz := F.future.ne'
  have hα := F.alpha h
  obtain ⟨e0, e1, e2, e3⟩ := F.e0
  constructor
  · simp only [loc, F.time 1 (by decide), F.time 2 (by decide), F.time 3 (by decide)]
    rw [velOf_zero, hα]
    field_simp
    ring
  · intro i hi
    have hg : ∀ μ, gi 0 μ = -(E 0 0 * E μ 0) := by
      intro μ; rw [F.gi_at h, e1, e2, e3]; ring
    have v0 : velOf g gi uu 0 = - M 0 0 * Real.sqrt (1 + dot g uu uu) * gi 0 0 := by
      rw [velOf_zero, hα, hg 0, div_eq_iff hz]
      linear_combination (-Real.sqrt (1 + dot g uu uu)) * (E 0 0 * M 0 0 + 1) * e0
    have v1 : velOf g gi uu 1 = uu 1 - M 0 0 * Real.sqrt (1 + dot g uu uu) * gi 0 1 := by rw [← hα]; rfl
    have v2 : velOf g gi uu 2 = uu 2 - M 0 0 * Real.sqrt (1 + dot g uu uu) * gi 0 2 := by rw [← hα]; rfl
    have v3 : velOf g gi uu 3 = uu 3 - M 0 0 * Real.sqrt (1 + dot g uu uu) * gi 0 3 := by rw [← hα]; rfl
    have hm := F.me i 0
    rw [if_neg hi] at hm
    simp only [loc]
    rw [v0, v1, v2, v3, hg 0, hg 1, hg 2, hg 3]
    linear_combination (M 0 0 * Real.sqrt (1 + dot g uu uu) * E 0 0) * hm

/-- The stress tensor in the frame. -/
theorem Frame.stress_back (F : Frame g M E n) (h : IsMetric g gi) (w p : ℝ) (u b : V4) (μ ν : Fin 4) :
    stress g gi w p u b μ ν
      = ∑ a, ∑ c, E μ a * E ν c * stress eta eta w p (loc M u) (loc M b) a c := by
  have hd : dot eta (loc M b) (loc M b) = dot g b b := by
    rw [F.dot_loc]
    obtain ⟨h, h0, h1, h2, h3⟩ := eta_entries
    simp only [dot, sum4, h0, h1, h2, h3, h 0 1 (by decide), h 0 2 (by decide), h 0 3 (by decide),
      h 1 0 (by decide), h 1 2 (by decide), h 1 3 (by decide), h 2 0 (by decide), h 2 1 (by decide),
      h 2 3 (by decide), h 3 0 (by decide), h 3 1 (by decide), h 3 2 (by decide)]
    ring
  simp only [stress, hd]
  generalize w + dot g b b = W
  generalize p + dot g b b / 2 = P
  rw [F.gi_at h, F.back u μ, F.back u ν, F.back b μ, F.back b ν]
  obtain ⟨h, h0, h1, h2, h3⟩ := eta_entries
  simp only [sum4, h0, h1, h2, h3, h 0 1 (by decide), h 0 2 (by decide), h 0 3 (by decide),
      h 1 0 (by decide), h 1 2 (by decide), h 1 3 (by decide), h 2 0 (by decide), h 2 1 (by decide),
      h 2 3 (by decide), h 3 0 (by decide), h 3 1 (by decide), h 3 2 (by decide)]
  ring

end

theorem cyc_at (d : Fin 3) (x y z : ℝ) : cyc d x y z d = x ∧ cyc d x y z (d + 1) = y ∧ cyc d x y z (d + 2) = z := by
  fin_cases d <;> exact ⟨rfl, rfl, rfl⟩

/-- Everything `PrimToLocal` computes, in terms of the velocity and the field. -/
theorem primToLocal_eq {g gi M E : M4} {d : Fin 3} (F : Frame g M E d.succ) (h : IsMetric g gi) (bbn : ℝ)
    (w : FacePrim) (u b : V4) (hu : u = velOf g gi (slotVec w.v))
    (hb : b = fieldOf g u (slotVec (cyc d bbn w.bby w.bbz))) :
    primToLocal d M g gi bbn w =
      (⟨w.rho, w.p, cyc d (loc M u 1) (loc M u 2) (loc M u 3),
        loc M u 0 * loc M b 2 - loc M u 2 * loc M b 0, loc M u 0 * loc M b 3 - loc M u 3 * loc M b 0⟩,
        loc M u 0 * loc M b 1 - loc M u 1 * loc M b 0) := by
  have s := h.sym
  have hv := F.vel h (slotVec w.v)
  rw [← hu] at hv
  have huu : g 1 1*slotVec w.v 1*slotVec w.v 1 + 2*g 1 2*slotVec w.v 1*slotVec w.v 2
      + 2*g 1 3*slotVec w.v 1*slotVec w.v 3 + g 2 2*slotVec w.v 2*slotVec w.v 2
      + 2*g 2 3*slotVec w.v 2*slotVec w.v 3 + g 3 3*slotVec w.v 3*slotVec w.v 3
      = dot g (slotVec w.v) (slotVec w.v) := by
    have z : slotVec w.v 0 = 0 := rfl
    simp only [dot, sum4, z]
    rw [s 2 1, s 3 1, s 3 2]; ring
  have hu0 : Real.sqrt (1 + dot g (slotVec w.v) (slotVec w.v)) / Real.sqrt (-1/gi 0 0) = u 0 := by rw [hu]; rfl
  have hu1 : slotVec w.v 1 - Real.sqrt (-1/gi 0 0) * Real.sqrt (1 + dot g (slotVec w.v) (slotVec w.v)) * gi 0 1
      = u 1 := by rw [hu]; rfl
  have hu2 : slotVec w.v 2 - Real.sqrt (-1/gi 0 0) * Real.sqrt (1 + dot g (slotVec w.v) (slotVec w.v)) * gi 0 2
      = u 2 := by rw [hu]; rfl
  have hu3 : slotVec w.v 3 - Real.sqrt (-1/gi 0 0) * Real.sqrt (1 + dot g (slotVec w.v) (slotVec w.v)) * gi 0 3
      = u 3 := by rw [hu]; rfl
  have hb0 : g 0 1*slotVec (cyc d bbn w.bby w.bbz) 1*u 0 + g 1 1*slotVec (cyc d bbn w.bby w.bbz) 1*u 1
      + g 1 2*slotVec (cyc d bbn w.bby w.bbz) 1*u 2 + g 1 3*slotVec (cyc d bbn w.bby w.bbz) 1*u 3
      + g 0 2*slotVec (cyc d bbn w.bby w.bbz) 2*u 0 + g 1 2*slotVec (cyc d bbn w.bby w.bbz) 2*u 1
      + g 2 2*slotVec (cyc d bbn w.bby w.bbz) 2*u 2 + g 2 3*slotVec (cyc d bbn w.bby w.bbz) 2*u 3
      + g 0 3*slotVec (cyc d bbn w.bby w.bbz) 3*u 0 + g 1 3*slotVec (cyc d bbn w.bby w.bbz) 3*u 1
      + g 2 3*slotVec (cyc d bbn w.bby w.bbz) 3*u 2 + g 3 3*slotVec (cyc d bbn w.bby w.bbz) 3*u 3
      = dot g u (slotVec (cyc d bbn w.bby w.bbz)) := by
    have z : slotVec (cyc d bbn w.bby w.bbz) 0 = 0 := rfl
    simp only [dot, sum4, z]
    rw [s 2 1, s 3 1, s 3 2]; ring
  unfold primToLocal
  dsimp only
  rw [huu, hu0, hu1, hu2, hu3, hb0]
  have e0 : dot g u (slotVec (cyc d bbn w.bby w.bbz)) = b 0 := by rw [hb]; rfl
  have e1 : (slotVec (cyc d bbn w.bby w.bbz) 1 + dot g u (slotVec (cyc d bbn w.bby w.bbz)) * u 1) / u 0 = b 1 := by
    rw [hb]; rfl
  have e2 : (slotVec (cyc d bbn w.bby w.bbz) 2 + dot g u (slotVec (cyc d bbn w.bby w.bbz)) * u 2) / u 0 = b 2 := by
    rw [hb]; rfl
  have e3 : (slotVec (cyc d bbn w.bby w.bbz) 3 + dot g u (slotVec (cyc d bbn w.bby w.bbz)) * u 3) / u 0 = b 3 := by
    rw [hb]; rfl
  rw [e1, e2, e3, e0]
  have t : M 0 0 * b 0 = loc M b 0 := by
    simp only [loc, F.time 1 (by decide), F.time 2 (by decide), F.time 3 (by decide)]; ring
  rw [← hv.1, ← hv.2 1 (by decide), ← hv.2 2 (by decide), ← hv.2 3 (by decide), t]
  rfl

/-- The normal field in the frame does not depend on the velocity. -/
theorem primToLocal_bbx {g gi M E : M4} {d : Fin 3} (F : Frame g M E d.succ) (h : IsMetric g gi) (bbn : ℝ)
    (w : FacePrim) : (primToLocal d M g gi bbn w).2 = M 0 0 * M 1 d.succ * bbn := by
  have hz : (slotVec w.v) 0 = 0 := rfl
  have hz' : (slotVec (cyc d bbn w.bby w.bbz)) 0 = 0 := rfl
  have hv := velOf_fourVel h (F.gi_neg h) _ hz (F.spacelike _ hz)
  have hf := fieldOf_fourField h hv _ hz'
  rw [primToLocal_eq F h bbn w _ _ rfl rfl]
  obtain ⟨u, hu⟩ : ∃ u, u = velOf g gi (slotVec w.v) := ⟨_, rfl⟩
  obtain ⟨b, hb⟩ : ∃ b, b = fieldOf g u (slotVec (cyc d bbn w.bby w.bbz)) := ⟨_, rfl⟩
  rw [← hu] at hf
  rw [← hb] at hf
  dsimp only
  rw [← hu, ← hb]
  have t : ∀ v, loc M v 0 = M 0 0 * v 0 := fun v => by
    simp only [loc, F.time 1 (by decide), F.time 2 (by decide), F.time 3 (by decide)]; ring
  -- the form of `x` has no components along the other coordinates
  have hx : ∀ j, j ≠ 0 → j ≠ d.succ → M 1 j = 0 := by
    intro j h0 h1
    have a := F.em d.succ j
    rw [F.tangent.1, F.tangent.2, F.time j h0, if_neg (Ne.symm h1)] at a
    have b := F.em d.succ d.succ
    rw [F.tangent.1, F.tangent.2, F.time d.succ (Fin.succ_ne_zero d), if_pos rfl] at b
    have hne : E d.succ 1 ≠ 0 := by
      intro h; rw [h] at b; norm_num at b
    have : E d.succ 1 * M 1 j = 0 := by linarith
    exact (mul_eq_zero.mp this).resolve_left hne
  have c1 := hf.comp 1 (by decide)
  have c2 := hf.comp 2 (by decide)
  have c3 := hf.comp 3 (by decide)
  rw [t, t]
  have key : loc M b 1 * u 0 - loc M u 1 * b 0 = M 1 1 * slotVec (cyc d bbn w.bby w.bbz) 1
      + M 1 2 * slotVec (cyc d bbn w.bby w.bbz) 2 + M 1 3 * slotVec (cyc d bbn w.bby w.bbz) 3 := by
    rw [← c1, ← c2, ← c3]; simp only [loc]; ring
  have fin : M 1 1 * slotVec (cyc d bbn w.bby w.bbz) 1 + M 1 2 * slotVec (cyc d bbn w.bby w.bbz) 2
      + M 1 3 * slotVec (cyc d bbn w.bby w.bbz) 3 = M 1 d.succ * bbn := by
    fin_cases d
    · rw [hx 2 (by decide) (by decide), hx 3 (by decide) (by decide)]
      change M 1 1 * bbn + 0 * _ + 0 * _ = M 1 1 * bbn
      ring
    · rw [hx 1 (by decide) (by decide), hx 3 (by decide) (by decide)]
      change 0 * _ + M 1 2 * bbn + 0 * _ = M 1 2 * bbn
      ring
    · rw [hx 1 (by decide) (by decide), hx 2 (by decide) (by decide)]
      change 0 * _ + 0 * _ + M 1 3 * bbn = M 1 3 * bbn
      ring
  rw [fin] at key
  linear_combination M 0 0 * key

/-- What the solver computes from one side. -/
theorem solverSide_eq (d : Fin 3) (gam rho p : ℝ) (u b : V4) (h0 : 0 < u 0)
    (hn : -(u 0 * u 0) + u 1 * u 1 + u 2 * u 2 + u 3 * u 3 = -1)
    (ho : -(b 0 * u 0) + b 1 * u 1 + b 2 * u 2 + b 3 * u 3 = 0) (T : M4)
    (hT : T = stress eta eta (rho + gam/(gam-1)*p) p u b) :
    solverSide d gam (u 0 * b 1 - u 1 * b 0)
      ⟨rho, p, cyc d (u 1) (u 2) (u 3), u 0 * b 2 - u 2 * b 0, u 0 * b 3 - u 3 * b 0⟩
    = (⟨rho * u 0, T 0 0, cyc d (T 0 1) (T 0 2) (T 0 3), dual u b 2 0, dual u b 3 0⟩,
       ⟨rho * u 1, T 1 0, cyc d (T 1 1) (T 1 2) (T 1 3), dual u b 2 1, dual u b 3 1⟩) := by
  obtain ⟨c1, c2, c3⟩ := cyc_at d (u 1) (u 2) (u 3)
  have hz := h0.ne'
  have hs : Real.sqrt (1 + u 1^2 + u 2^2 + u 3^2) = u 0 := by
    rw [show 1 + u 1^2 + u 2^2 + u 3^2 = (u 0)^2 by linear_combination hn, Real.sqrt_sq h0.le]
  have hbt : (u 0 * b 1 - u 1 * b 0)*u 1 + (u 0 * b 2 - u 2 * b 0)*u 2 + (u 0 * b 3 - u 3 * b 0)*u 3 = b 0 := by
    linear_combination u 0 * ho - b 0 * hn
  have hbi : ∀ i, (u 0 * b i - u i * b 0 + b 0 * u i) / u 0 = b i := by
    intro i; field_simp; ring
  have hd : dot eta b b = -b 0^2 + b 1^2 + b 2^2 + b 3^2 := by
    obtain ⟨h, h0, h1, h2, h3⟩ := eta_entries
    simp only [dot, sum4, h0, h1, h2, h3, h 0 1 (by decide), h 0 2 (by decide), h 0 3 (by decide),
      h 1 0 (by decide), h 1 2 (by decide), h 1 3 (by decide), h 2 0 (by decide), h 2 1 (by decide),
      h 2 3 (by decide), h 3 0 (by decide), h 3 1 (by decide), h 3 2 (by decide)]
    ring
  unfold solverSide
  dsimp only
  rw [c1, c2, c3, hs, hbt, hbi 1, hbi 2, hbi 3, ← hd]
  have hT' : ∀ i j, T i j = (rho + gam/(gam-1)*p + dot eta b b) * u i * u j
      + (p + dot eta b b/2) * eta i j - b i * b j := fun i j => by rw [hT]; rfl
  simp only [hT', dual]
  obtain ⟨h, e0, e1, e2, e3⟩ := eta_entries
  rw [h 0 1 (by decide), h 0 2 (by decide), h 0 3 (by decide), h 1 0 (by decide), h 1 2 (by decide), h 1 3 (by decide),
    e0, e1]
  generalize rho + gam/(gam-1)*p + dot eta b b = W
  generalize dot eta b b = B
  congr 2
  · ring
  · congr 1 <;> ring
  · ring
  · congr 1 <;> ring

/-- `FluxToGlobal` with the row `μ` of the frame instead of that of the direction. -/
def rowFlux (d : Fin 3) (E g : M4) (μ : Fin 4) (rd : Fin 3 → Fin 3) (cons : Wave) (bbx : ℝ) (flux : Wave) :
    GlobalFlux :=
  let t : V4 := fun ν =>
    E μ 0 * (E ν 0*cons.en + E ν 1*cons.mom (rd 0) + E ν 2*cons.mom (rd 1) + E ν 3*cons.mom (rd 2))
    + E μ 1 * (E ν 0*flux.en + E ν 1*flux.mom d + E ν 2*flux.mom (d + 1) + E ν 3*flux.mom (d + 2))
  let f : V4 := fun ν => E μ 0 * (E ν 0*0 + E ν 1*bbx + E ν 2*cons.bby + E ν 3*cons.bbz)
    + E μ 1 * (E ν 0*(-bbx) + E ν 1*0 + E ν 2*flux.bby + E ν 3*flux.bbz)
  ⟨E μ 0*cons.dn + E μ 1*flux.dn,
    g 0 0*t 0 + g 0 1*t 1 + g 0 2*t 2 + g 0 3*t 3,
    ![g 0 1*t 0 + g 1 1*t 1 + g 1 2*t 2 + g 1 3*t 3, g 0 2*t 0 + g 1 2*t 1 + g 2 2*t 2 + g 2 3*t 3,
      g 0 3*t 0 + g 1 3*t 1 + g 2 3*t 2 + g 3 3*t 3],
    -f (d + 1).succ, f (d + 2).succ⟩

theorem fluxToGlobal_row (d : Fin 3) (E g : M4) (rd : Fin 3 → Fin 3) (cons : Wave) (bbx : ℝ) (flux : Wave) :
    fluxToGlobal d E g rd cons bbx flux = rowFlux d E g d.succ rd cons bbx flux := rfl

/-- The exact fluxes through a surface of constant `x^μ`. -/
theorem rowFlux_eq {g gi M E : M4} {d : Fin 3} {n μ : Fin 4} (F : Frame g M E n) (h : IsMetric g gi)
    (t2 : E μ 2 = 0) (t3 : E μ 3 = 0) (rho w p : ℝ)
    (u b : V4) (T T' : M4) (hT : T = stress g gi w p u b)
    (hT' : T' = stress eta eta w p (loc M u) (loc M b)) (rd : Fin 3 → Fin 3) (cons : Wave)
    (hrd : ∀ k, cons.mom (rd k) = T' 0 k.succ) (hdn : cons.dn = rho * loc M u 0) (hen : cons.en = T' 0 0)
    (hby : cons.bby = dual (loc M u) (loc M b) 2 0) (hbz : cons.bbz = dual (loc M u) (loc M b) 3 0) :
    rowFlux d E g μ rd cons (loc M u 0 * loc M b 1 - loc M u 1 * loc M b 0)
      ⟨rho * loc M u 1, T' 1 0, cyc d (T' 1 1) (T' 1 2) (T' 1 3), dual (loc M u) (loc M b) 2 1,
        dual (loc M u) (loc M b) 3 1⟩
    = ⟨rho * u μ, lowerSecond g T μ 0, fun i => lowerSecond g T μ i.succ,
        -dual u b (d + 1).succ μ, dual u b (d + 2).succ μ⟩ := by
  obtain ⟨c1, c2, c3⟩ := cyc_at d (T' 1 1) (T' 1 2) (T' 1 3)
  have s := h.sym
  have hback : ∀ ν, E μ 0 * (E ν 0*T' 0 0 + E ν 1*T' 0 1 + E ν 2*T' 0 2 + E ν 3*T' 0 3)
      + E μ 1 * (E ν 0*T' 1 0 + E ν 1*T' 1 1 + E ν 2*T' 1 2 + E ν 3*T' 1 3) = T μ ν := by
    intro ν
    rw [hT, F.stress_back h, ← hT']
    simp only [sum4, t2, t3]
    ring
  have hf : ∀ ν, E μ 0 * (E ν 0*0 + E ν 1*(loc M u 0 * loc M b 1 - loc M u 1 * loc M b 0)
        + E ν 2*dual (loc M u) (loc M b) 2 0 + E ν 3*dual (loc M u) (loc M b) 3 0)
      + E μ 1 * (E ν 0*(-(loc M u 0 * loc M b 1 - loc M u 1 * loc M b 0)) + E ν 1*0
        + E ν 2*dual (loc M u) (loc M b) 2 1 + E ν 3*dual (loc M u) (loc M b) 3 1) = dual u b ν μ := by
    intro ν
    have e : dual u b ν μ = b ν * u μ - b μ * u ν := rfl
    rw [e, F.back u ν, F.back u μ, F.back b ν, F.back b μ, t2, t3]
    simp only [dual]
    ring
  unfold rowFlux
  dsimp only
  rw [c1, c2, c3, hrd 0, hrd 1, hrd 2, hdn, hen, hby, hbz]
  have r1 : (0 : Fin 3).succ = 1 := rfl
  have r2 : (1 : Fin 3).succ = 2 := rfl
  have r3 : (2 : Fin 3).succ = 3 := rfl
  simp only [r1, r2, r3, hback, hf]
  ext
  · dsimp only
    rw [F.back u μ, t2, t3]; ring
  · simp only [lowerSecond, sum4]
  · rename_i i
    fin_cases i
    · change g 0 1*T μ 0 + g 1 1*T μ 1 + g 1 2*T μ 2 + g 1 3*T μ 3 = lowerSecond g T μ 1
      simp only [lowerSecond, sum4]
      rw [s 1 0]
    · change g 0 2*T μ 0 + g 1 2*T μ 1 + g 2 2*T μ 2 + g 2 3*T μ 3 = lowerSecond g T μ 2
      simp only [lowerSecond, sum4]
      rw [s 2 0, s 2 1]
    · change g 0 3*T μ 0 + g 1 3*T μ 1 + g 2 3*T μ 2 + g 3 3*T μ 3 = lowerSecond g T μ 3
      simp only [lowerSecond, sum4]
      rw [s 3 0, s 3 1, s 3 2]
  · rfl
  · rfl

/-- One side from end to end. -/
theorem side_exact {g gi M E : M4} {d : Fin 3} {μ : Fin 4} (F : Frame g M E d.succ) (h : IsMetric g gi)
    (t2 : E μ 2 = 0) (t3 : E μ 3 = 0) (gam bbn : ℝ)
    (w : FacePrim) (u b : V4) (hu : FourVel g gi (slotVec w.v) u)
    (hb : FourField g u (slotVec (cyc d bbn w.bby w.bbz)) b) (T : M4)
    (hT : T = stress g gi (w.rho + gam/(gam-1)*w.p) w.p u b) :
    rowFlux d E g μ (cycRead d) (solverSide d gam (primToLocal d M g gi bbn w).2 (primToLocal d M g gi bbn w).1).1
      (primToLocal d M g gi bbn w).2
      (solverSide d gam (primToLocal d M g gi bbn w).2 (primToLocal d M g gi bbn w).1).2
    = current d g T w.rho u b μ := by
  have hz : (slotVec w.v) 0 = 0 := rfl
  have hz' : (slotVec (cyc d bbn w.bby w.bbz)) 0 = 0 := rfl
  have e1 := fourVel_unique h (F.gi_neg h) hz hu (velOf_fourVel h (F.gi_neg h) _ hz (F.spacelike _ hz))
  have e2 := fourField_unique hu hz' hb (fieldOf_fourField h hu _ hz')
  rw [primToLocal_eq F h bbn w u b e1 e2]
  dsimp only
  have h0 : 0 < loc M u 0 := by
    have : loc M u 0 = M 0 0 * u 0 := by
      simp only [loc, F.time 1 (by decide), F.time 2 (by decide), F.time 3 (by decide)]; ring
    rw [this]; exact mul_pos F.future hu.future
  have hn := hu.norm
  rw [F.dot_loc] at hn
  have ho := hb.orth
  rw [F.dot_loc] at ho
  rw [solverSide_eq d gam w.rho w.p (loc M u) (loc M b) h0 hn ho _ rfl]
  dsimp only
  obtain ⟨T', hT'⟩ : ∃ T', T' = stress eta eta (w.rho + gam/(gam-1)*w.p) w.p (loc M u) (loc M b) := ⟨_, rfl⟩
  rw [← hT']
  refine rowFlux_eq F h t2 t3 _ _ _ u b T T' hT hT' _ _ ?_ rfl rfl rfl rfl
  intro k
  obtain ⟨c1, c2, c3⟩ := cyc_at d (T' 0 1) (T' 0 2) (T' 0 3)
  fin_cases k
  · change cyc d (T' 0 1) (T' 0 2) (T' 0 3) (d + 0) = T' 0 1
    rw [add_zero, c1]
  · exact c2
  · exact c3

/-- Where the frame does not move the slots of the momenta do not matter. -/
theorem fluxToGlobal_read {E : M4} {d : Fin 3} (hE : E d.succ 0 = 0) (g : M4) (rd rd' : Fin 3 → Fin 3) (cons : Wave)
    (bbx : ℝ) (flux : Wave) : fluxToGlobal d E g rd cons bbx flux = fluxToGlobal d E g rd' cons bbx flux := by
  unfold fluxToGlobal
  simp only [hE, zero_mul, zero_add]

/-! ## HLLE -/

theorem hll_scalar {e0 e1 e lL lR : ℝ} (he : e ≠ 0) (h1 : e1 ≠ 0) (hl : lR - lL ≠ 0) (UL UR FL FR : ℝ) :
    e0 * ((lR*UR - lL*UL + FL - FR) * (1/(lR - lL))) + e1 * ((lR*FL - lL*FR + lL*lR*(UR - UL)) * (1/(lR - lL)))
    = hlleScalar ((e0 + e1*lL)/e) ((e0 + e1*lR)/e) (e0*UL + e1*FL) (e0*UR + e1*FR) (e*UL) (e*UR) := by
  have hd : (e0 + e1*lR)/e - (e0 + e1*lL)/e ≠ 0 := by
    rw [show (e0 + e1*lR)/e - (e0 + e1*lL)/e = e1*(lR - lL)/e by ring]
    exact div_ne_zero (mul_ne_zero h1 hl) he
  rw [hlleScalar, eq_div_iff hd]
  field_simp
  ring

/-- HLLE in the frame is HLLE in the coordinates. -/
theorem rowFlux_hll {d : Fin 3} {E g : M4} (h0 : E 0 0 ≠ 0) (h01 : E 0 1 = 0)
    (h1 : E d.succ 1 ≠ 0) {lL lR : ℝ} (hl : lR - lL ≠ 0) (bbx : ℝ) (UL FL UR FR : Wave)
    {sl sr : ℝ} (hsl : sl = (E d.succ 0 + E d.succ 1*lL)/E 0 0) (hsr : sr = (E d.succ 0 + E d.succ 1*lR)/E 0 0)
    (a : ¬ 0 ≤ sl) (b : ¬ sr ≤ 0) :
    rowFlux d E g d.succ (cycRead d)
      (Wave.lin (lR*(1/(lR - lL))) (-lL*(1/(lR - lL))) (1/(lR - lL)) (-(1/(lR - lL))) UR UL FL FR) bbx
      (Wave.lin (lR*(1/(lR - lL))) (-lL*(1/(lR - lL))) (lL*lR*(1/(lR - lL))) (-lL*lR*(1/(lR - lL))) FL FR UR UL)
    = hlleFlux sl sr (rowFlux d E g d.succ (cycRead d) UL bbx FL) (rowFlux d E g d.succ (cycRead d) UR bbx FR)
        (rowFlux d E g 0 (cycRead d) UL bbx FL) (rowFlux d E g 0 (cycRead d) UR bbx FR) := by
  have hv : (lR - lL) * (1/(lR - lL)) = 1 := mul_one_div_cancel hl
  have key := fun UL UR FL FR => hll_scalar (e0 := E d.succ 0) h0 h1 hl UL UR FL FR
  rw [← hsl, ← hsr] at key
  rw [hlleFlux, if_neg a, if_neg b]
  obtain ⟨q, hq⟩ : ∃ q : ℝ → ℝ → ℝ → ℝ → Wave → Fin 3 → Fin 3 → Fin 3 → ℝ, q = fun c0 c1 c2 c3 W i j k =>
    c0 * (E 0 0*W.en + E 0 1*W.mom i + E 0 2*W.mom j + E 0 3*W.mom k)
    + c1 * (E 1 0*W.en + E 1 1*W.mom i + E 1 2*W.mom j + E 1 3*W.mom k)
    + c2 * (E 2 0*W.en + E 2 1*W.mom i + E 2 2*W.mom j + E 2 3*W.mom k)
    + c3 * (E 3 0*W.en + E 3 1*W.mom i + E 3 2*W.mom j + E 3 3*W.mom k) := ⟨_, rfl⟩
  simp only [rowFlux, Wave.lin, cycRead, add_zero]
  generalize 1/(lR - lL) = v at *
  have fluid : ∀ c0 c1 c2 c3 : ℝ, _ := fun c0 c1 c2 c3 =>
    key (q c0 c1 c2 c3 UL d (d+1) (d+2)) (q c0 c1 c2 c3 UR d (d+1) (d+2))
      (q c0 c1 c2 c3 FL d (d+1) (d+2)) (q c0 c1 c2 c3 FR d (d+1) (d+2))
  rw [hq] at fluid
  dsimp only at fluid
  ext
  · dsimp only
    refine Eq.trans ?_ ((key UL.dn UR.dn FL.dn FR.dn).trans ?_)
    · ring
    · rw [h01]; congr 1 <;> ring
  · dsimp only
    refine Eq.trans ?_ ((fluid (g 0 0) (g 0 1) (g 0 2) (g 0 3)).trans ?_)
    · ring
    · rw [h01]; congr 1 <;> ring
  · rename_i i
    dsimp only
    fin_cases i
    · refine Eq.trans ?_ ((fluid (g 0 1) (g 1 1) (g 1 2) (g 1 3)).trans ?_)
      · change _ + _ + _ + _ = _
        ring
      · rw [h01]; congr 1
        · change _ = _ + _ + _ + _; ring
        · change _ = _ + _ + _ + _; ring
        · change _ = _ + _ + _ + _; ring
        · change _ = _ + _ + _ + _; ring
    · refine Eq.trans ?_ ((fluid (g 0 2) (g 1 2) (g 2 2) (g 2 3)).trans ?_)
      · change _ + _ + _ + _ = _
        ring
      · rw [h01]; congr 1
        · change _ = _ + _ + _ + _; ring
        · change _ = _ + _ + _ + _; ring
        · change _ = _ + _ + _ + _; ring
        · change _ = _ + _ + _ + _; ring
    · refine Eq.trans ?_ ((fluid (g 0 3) (g 1 3) (g 2 3) (g 3 3)).trans ?_)
      · change _ + _ + _ + _ = _
        ring
      · rw [h01]; congr 1
        · change _ = _ + _ + _ + _; ring
        · change _ = _ + _ + _ + _; ring
        · change _ = _ + _ + _ + _; ring
        · change _ = _ + _ + _ + _; ring
  · dsimp only
    refine Eq.trans ?_ ((key (-(E (d+1).succ 1*bbx + E (d+1).succ 2*UL.bby + E (d+1).succ 3*UL.bbz))
      (-(E (d+1).succ 1*bbx + E (d+1).succ 2*UR.bby + E (d+1).succ 3*UR.bbz))
      (-(E (d+1).succ 0*(-bbx) + E (d+1).succ 2*FL.bby + E (d+1).succ 3*FL.bbz))
      (-(E (d+1).succ 0*(-bbx) + E (d+1).succ 2*FR.bby + E (d+1).succ 3*FR.bbz))).trans ?_)
    · linear_combination (E d.succ 0 * (E (d+1).succ 1*bbx) - E d.succ 1 * (E (d+1).succ 0*bbx)) * hv
    · rw [h01]; congr 1 <;> ring
  · dsimp only
    refine Eq.trans ?_ ((key (E (d+2).succ 1*bbx + E (d+2).succ 2*UL.bby + E (d+2).succ 3*UL.bbz)
      (E (d+2).succ 1*bbx + E (d+2).succ 2*UR.bby + E (d+2).succ 3*UR.bbz)
      (E (d+2).succ 0*(-bbx) + E (d+2).succ 2*FL.bby + E (d+2).succ 3*FL.bbz)
      (E (d+2).succ 0*(-bbx) + E (d+2).succ 2*FR.bby + E (d+2).succ 3*FR.bbz)).trans ?_)
    · linear_combination (-(E d.succ 0 * (E (d+2).succ 1*bbx)) + E d.succ 1 * (E (d+2).succ 0*bbx)) * hv
    · rw [h01]; congr 1 <;> ring

theorem Frame.speed {g gi M E : M4} {n : Fin 4} (F : Frame g M E n) (h : IsMetric g gi) (v : ℝ) :
    coordSpeed gi n v = (E n 0 + E n 1 * v) / E 0 0 := by
  obtain ⟨h0, h1, h2, h3⟩ := F.e0
  have hE : 0 < E 0 0 := (pos_iff_pos_of_mul_pos (by rw [h0]; norm_num)).mpr F.future
  obtain ⟨t2, t3⟩ := F.tangent
  have hx := F.outward
  rw [coordSpeed, F.gi_at h, F.gi_at h 0 0, F.gi_at h n n, h1, h2, h3, t2, t3]
  rw [show (-(E 0 0 * E n 0) + 0 * E n 1 + 0 * 0 + 0 * 0)^2
    - (-(E 0 0 * E 0 0) + 0 * 0 + 0 * 0 + 0 * 0) * (-(E n 0 * E n 0) + E n 1 * E n 1 + 0 * 0 + 0 * 0)
    = (E 0 0 * E n 1)^2 by ring, Real.sqrt_sq (by positivity)]
  field_simp
  ring

theorem Frame.vInterface {g gi M E : M4} {d : Fin 3} (F : Frame g M E d.succ) (h : IsMetric g gi) :
    E d.succ 0 + E d.succ 1 * vInterface d gi = 0 := by
  obtain ⟨h0, h1, h2, h3⟩ := F.e0
  have hE : 0 < E 0 0 := (pos_iff_pos_of_mul_pos (by rw [h0]; norm_num)).mpr F.future
  obtain ⟨t2, t3⟩ := F.tangent
  have hx := F.outward
  rw [Gr.vInterface, F.gi_at h, F.gi_at h 0 0, F.gi_at h d.succ d.succ, h1, h2, h3, t2, t3]
  rw [show (-(E 0 0 * E d.succ 0) + 0 * E d.succ 1 + 0 * 0 + 0 * 0)^2
    - (-(E 0 0 * E 0 0) + 0 * 0 + 0 * 0 + 0 * 0)
      * (-(E d.succ 0 * E d.succ 0) + E d.succ 1 * E d.succ 1 + 0 * 0 + 0 * 0)
    = (E 0 0 * E d.succ 1)^2 by ring, Real.sqrt_sq (by positivity)]
  field_simp
  ring

/-- The whole interface. -/
theorem interface_exact {g gi M E : M4} {d : Fin 3} (F : Frame g M E d.succ) (h : IsMetric g gi) (gam bbn : ℝ)
    {lamL lamR : ℝ} (hlam : lamL < lamR) (l r : FacePrim) {ul bl ur br : V4}
    (hul : FourVel g gi (slotVec l.v) ul) (hbl : FourField g ul (slotVec (cyc d bbn l.bby l.bbz)) bl)
    (hur : FourVel g gi (slotVec r.v) ur) (hbr : FourField g ur (slotVec (cyc d bbn r.bby r.bbz)) br)
    {Tl Tr : M4} (hTl : Tl = stress g gi (l.rho + gam/(gam-1)*l.p) l.p ul bl)
    (hTr : Tr = stress g gi (r.rho + gam/(gam-1)*r.p) r.p ur br) (rd : Fin 3 → Fin 3)
    (hrd : rd = cycRead d ∨ E d.succ 0 = 0) :
    interfaceFlux d M E g gi rd gam lamL lamR bbn l r
    = hlleFlux (coordSpeed gi d.succ lamL) (coordSpeed gi d.succ lamR)
        (current d g Tl l.rho ul bl d.succ) (current d g Tr r.rho ur br d.succ)
        (current d g Tl l.rho ul bl 0) (current d g Tr r.rho ur br 0) := by
  obtain ⟨h0, h1, h2, h3⟩ := F.e0
  have hE : 0 < E 0 0 := (pos_iff_pos_of_mul_pos (by rw [h0]; norm_num)).mpr F.future
  obtain ⟨t2, t3⟩ := F.tangent
  have hx := F.outward
  have hv := F.vInterface h
  have sign : ∀ l, coordSpeed gi d.succ l = E d.succ 1 * (l - vInterface d gi) / E 0 0 := by
    intro l; rw [F.speed h]; congr 1; linear_combination hv
  have c1 : ∀ l, l ≥ vInterface d gi ↔ 0 ≤ coordSpeed gi d.succ l := by
    intro l
    rw [sign, le_div_iff₀ hE, zero_mul]
    exact ⟨fun h => mul_nonneg hx.le (by linarith), fun h => by nlinarith⟩
  have c2 : ∀ l, l ≤ vInterface d gi ↔ coordSpeed gi d.succ l ≤ 0 := by
    intro l
    rw [sign, div_le_iff₀ hE, zero_mul]
    exact ⟨fun h => mul_nonpos_of_nonneg_of_nonpos hx.le (by linarith), fun h => by nlinarith⟩
  have el := primToLocal_bbx F h bbn l
  have er := primToLocal_bbx F h bbn r
  have sl := fun μ t2 t3 => side_exact (μ := μ) F h t2 t3 gam bbn l ul bl hul hbl Tl hTl
  have sr := fun μ t2 t3 => side_exact (μ := μ) F h t2 t3 gam bbn r ur br hur hbr Tr hTr
  have cy : interfaceFlux d M E g gi rd gam lamL lamR bbn l r
      = interfaceFlux d M E g gi (cycRead d) gam lamL lamR bbn l r := by
    rcases hrd with hrd | hrd
    · rw [hrd]
    · exact fluxToGlobal_read hrd g rd (cycRead d) _ _ _
  have m : 1/2 * ((primToLocal d M g gi bbn l).2 + (primToLocal d M g gi bbn r).2)
      = (primToLocal d M g gi bbn l).2 := by rw [el, er]; ring
  rw [cy, interfaceFlux]
  rw [m, fluxToGlobal_row]
  rw [← sl _ t2 t3, ← sr _ t2 t3, ← sl 0 h2 h3, ← sr 0 h2 h3]
  rw [show (primToLocal d M g gi bbn r).2 = (primToLocal d M g gi bbn l).2 by rw [el, er]]
  unfold hlleLocal
  dsimp only
  by_cases a : lamL ≥ vInterface d gi
  · rw [if_pos a, hlleFlux, if_pos ((c1 _).mp a)]
  · have a' : ¬ 0 ≤ coordSpeed gi d.succ lamL := fun x => a ((c1 _).mpr x)
    rw [if_neg a]
    by_cases b : lamR ≤ vInterface d gi
    · rw [if_pos b, hlleFlux, if_neg a', if_pos ((c2 _).mp b)]
    · have b' : ¬ coordSpeed gi d.succ lamR ≤ 0 := fun x => b ((c2 _).mpr x)
      rw [if_neg b]
      exact rowFlux_hll hE.ne' h1 hx.ne' (sub_ne_zero.mpr hlam.ne') _ _ _ _ _ (F.speed h _) (F.speed h _) a' b'

end Verif.Gr
