import Verif.Lemmas.GrFrame

namespace Verif.Gr

/-! ## The frame of `CalculateTransformation` -/

theorem dual_dot {g gi : M4} (h : IsMetric g gi) (c : Fin 4) (v : V4) : dot g (gi c) v = v c := by
  have hs := h.isymm
  have a : ∀ μ, g μ 0 * gi 0 c + g μ 1 * gi 1 c + g μ 2 * gi 2 c + g μ 3 * gi 3 c = if μ = c then 1 else 0 :=
    fun μ => h.at μ c
  rw [dot_comm h]
  simp only [dot, sum4]
  rw [hs c 0, hs c 1, hs c 2, hs c 3]
  have : v c = v 0 * (if (0 : Fin 4) = c then 1 else 0) + v 1 * (if (1 : Fin 4) = c then 1 else 0)
      + v 2 * (if (2 : Fin 4) = c then 1 else 0) + v 3 * (if (3 : Fin 4) = c then 1 else 0) := by
    fin_cases c <;> simp
  rw [this, ← a 0, ← a 1, ← a 2, ← a 3]
  ring

theorem user_pos {g gi : M4} (h : IsMetric g gi) (hp : Spacelike g gi) :
    0 < g 3 3 ∧ 0 < g 3 3 * (g 2 2 * g 3 3 - g 2 3^2) ∧ 0 < gi 0 0 * (gi 0 0 * gi 1 1 - gi 0 1^2) := by
  have s := h.sym
  have p3 : 0 < g 3 3 := by
    have := hp.pos ![0, 0, 0, 1] rfl (fun h => one_ne_zero (show (1 : ℝ) = 0 from congrFun h 3))
    have e : dot g ![0, 0, 0, 1] ![0, 0, 0, 1] = g 3 3 := by simp [dot, sum4]
    rwa [e] at this
  refine ⟨p3, ?_, ?_⟩
  · have := hp.pos ![0, 0, g 3 3, -g 2 3] rfl (fun h => by have := congrFun h 2; exact p3.ne' this)
    have e : dot g ![0, 0, g 3 3, -g 2 3] ![0, 0, g 3 3, -g 2 3] = g 3 3 * (g 2 2 * g 3 3 - g 2 3^2) := by
      simp [dot, sum4, s 3 2]; ring
    rwa [e] at this
  · have hd : ∀ v, dot g (fun i => gi 0 1 * gi 0 i + (-gi 0 0) * gi 1 i) v = gi 0 1 * v 0 + (-gi 0 0) * v 1 := by
      intro v; rw [dot_comb, dual_dot h, dual_dot h]
    have hi := h.isymm
    have := hp.pos (fun i => gi 0 1 * gi 0 i + (-gi 0 0) * gi 1 i) (by rw [hi 1 0]; ring) (fun h => by
      have e := hd ![0, 1, 0, 0]
      rw [h] at e
      have z : dot g 0 ![0, 1, 0, 0] = 0 := by simp [dot]
      rw [z] at e
      have : (-gi 0 0) * 1 = 0 := by
        have : gi 0 1 * (0 : ℝ) + (-gi 0 0) * 1 = 0 := e.symm
        linarith
      linarith [hp.time])
    rw [hd] at this
    rw [hi 1 0] at this
    nlinarith [this]

theorem userT_inv {g gi : M4} (h : IsMetric g gi) (hp : Spacelike g gi) : userT1 g gi * userT0 g gi = 1 := by
  obtain ⟨p3, p2, p1⟩ := user_pos h hp
  have p0 : 0 < -gi 0 0 := by linarith [hp.time]
  have a0 := Real.sqrt_pos.mpr p0
  have a1 := Real.sqrt_pos.mpr p1
  have a2 := Real.sqrt_pos.mpr p2
  have a3 := Real.sqrt_pos.mpr p3
  have q0 := Real.sq_sqrt p0.le
  have q1 := Real.sq_sqrt p1.le
  apply symMul_one
  simp only [userT1, userT0]
  generalize Real.sqrt (-gi 0 0) = A at *
  generalize Real.sqrt (gi 0 0 * (gi 0 0 * gi 1 1 - gi 0 1^2)) = B at *
  generalize Real.sqrt (g 3 3) = C at *
  generalize Real.sqrt (g 3 3 * (g 2 2 * g 3 3 - g 2 3^2)) = D at *
  have hA : (-1/A)^2 * gi 0 0 = -1 := by rw [show gi 0 0 = -A^2 by linarith]; field_simp
  have hB : (1/B)^2 * (gi 0 0 * (gi 0 0 * gi 1 1 - gi 0 1^2)) = 1 := by rw [← q1]; field_simp
  have hC : (1/C) ≠ 0 := by positivity
  have hD : (1/D) ≠ 0 := by positivity
  have hg := p3.ne'
  generalize -1/A = aa at *
  generalize 1/B = bb at *
  generalize 1/C = cc at *
  generalize 1/D = dd at *
  generalize gi 0 0 = i00 at *
  generalize gi 0 1 = i01 at *
  generalize gi 0 2 = i02 at *
  generalize gi 0 3 = i03 at *
  generalize gi 1 1 = i11 at *
  generalize gi 1 2 = i12 at *
  generalize gi 1 3 = i13 at *
  generalize g 2 3 = g23 at *
  generalize g 3 3 = g33 at *
  intro i j
  fin_cases i <;> fin_cases j <;> simp
  · linear_combination -hA
  · ring
  · linear_combination hB
  · field_simp
    linear_combination (-(aa*i02)) * hB
  · field_simp
    linear_combination (-(bb*(i01*i02 - i00*i12))) * hB
  · field_simp
  · field_simp
    linear_combination (-(aa*(i03*g33 + g23*i02))) * hB
  · field_simp
    linear_combination (-(bb*(g33 * (i01*i03 - i00*i13) + g23 * (i01*i02 - i00*i12)))) * hB
  · field_simp
    ring
  · field_simp

theorem userT_orth {g gi : M4} (h : IsMetric g gi) (hp : Spacelike g gi) (a b : Fin 4) :
    dot g (fun μ => userT0 g gi μ a) (fun μ => userT0 g gi μ b) = eta a b := by
  obtain ⟨p3, p2, p1⟩ := user_pos h hp
  have hi := h.isymm
  have s := h.sym
  have p0 : 0 < -gi 0 0 := by linarith [hp.time]
  have q0 := Real.sq_sqrt p0.le
  have q1 := Real.sq_sqrt p1.le
  have q2 := Real.sq_sqrt p2.le
  have q3 := Real.sq_sqrt p3.le
  obtain ⟨aa, haa⟩ : ∃ x, x = -1 / Real.sqrt (-gi 0 0) := ⟨_, rfl⟩
  obtain ⟨bb, hbb⟩ : ∃ x, x = 1 / Real.sqrt (gi 0 0 * (gi 0 0 * gi 1 1 - gi 0 1^2)) := ⟨_, rfl⟩
  obtain ⟨cc, hcc⟩ : ∃ x, x = 1 / Real.sqrt (g 3 3) := ⟨_, rfl⟩
  obtain ⟨dd, hdd⟩ : ∃ x, x = 1 / Real.sqrt (g 3 3 * (g 2 2 * g 3 3 - g 2 3^2)) := ⟨_, rfl⟩
  have hA : aa^2 * gi 0 0 = -1 := by
    have := hp.time.ne
    rw [haa, div_pow, q0]; field_simp
  have hB : bb^2 * (gi 0 0 * (gi 0 0 * gi 1 1 - gi 0 1^2)) = 1 := by
    rw [hbb, div_pow, q1, one_pow, one_div, inv_mul_cancel₀ p1.ne']
  have hC : cc^2 * g 3 3 = 1 := by rw [hcc, div_pow, q3, one_pow, one_div, inv_mul_cancel₀ p3.ne']
  have hD : dd^2 * (g 3 3 * (g 2 2 * g 3 3 - g 2 3^2)) = 1 := by
    rw [hdd, div_pow, q2, one_pow, one_div, inv_mul_cancel₀ p2.ne']
  have c0 : (fun μ => userT0 g gi μ 0) = fun μ => aa * gi 0 μ + 0 * gi 1 μ := by
    funext μ; rw [haa]; simp only [userT0]
    fin_cases μ <;> simp
  have c1 : (fun μ => userT0 g gi μ 1) = fun μ => (bb * gi 0 1) * gi 0 μ + (-bb * gi 0 0) * gi 1 μ := by
    funext μ; rw [hbb]; simp only [userT0]
    fin_cases μ
    · simp [hi 1 0]; ring
    · simp; ring
    · simp; ring
    · simp; ring
  have c2 : (fun μ => userT0 g gi μ 2) = ![0, 0, dd * g 3 3, -dd * g 2 3] := by
    funext μ; rw [hdd]; simp only [userT0]
    fin_cases μ <;> rfl
  have c3 : (fun μ => userT0 g gi μ 3) = ![0, 0, 0, cc] := by
    funext μ; rw [hcc]; simp only [userT0]
    fin_cases μ <;> rfl
  have d0 : ∀ v, dot g (fun μ => userT0 g gi μ 0) v = aa * v 0 := by
    intro v; rw [c0, dot_comb, dual_dot h, dual_dot h]; ring
  have d1 : ∀ v, dot g (fun μ => userT0 g gi μ 1) v = bb * (gi 0 1 * v 0 - gi 0 0 * v 1) := by
    intro v; rw [c1, dot_comb, dual_dot h, dual_dot h]; ring
  have e00 : userT0 g gi 0 0 = aa * gi 0 0 := by rw [haa]; rfl
  have e11 : userT0 g gi 1 1 = bb * (gi 0 1 * gi 0 1 - gi 0 0 * gi 1 1) := by rw [hbb]; rfl
  have e01 : userT0 g gi 0 1 = 0 := rfl
  have e02 : userT0 g gi 0 2 = 0 := rfl
  have e12 : userT0 g gi 1 2 = 0 := rfl
  have e03 : userT0 g gi 0 3 = 0 := rfl
  have e13 : userT0 g gi 1 3 = 0 := rfl
  obtain ⟨hz, h0, h1, h2, h3⟩ := eta_entries
  have m00 : dot g (fun μ => userT0 g gi μ 0) (fun μ => userT0 g gi μ 0) = -1 := by
    rw [d0]; rw [e00]; linear_combination hA
  have m01 : dot g (fun μ => userT0 g gi μ 0) (fun μ => userT0 g gi μ 1) = 0 := by
    rw [d0]; rw [e01]; ring
  have m02 : dot g (fun μ => userT0 g gi μ 0) (fun μ => userT0 g gi μ 2) = 0 := by
    rw [d0]; rw [e02]; ring
  have m03 : dot g (fun μ => userT0 g gi μ 0) (fun μ => userT0 g gi μ 3) = 0 := by
    rw [d0]; rw [e03]; ring
  have m11 : dot g (fun μ => userT0 g gi μ 1) (fun μ => userT0 g gi μ 1) = 1 := by
    rw [d1]; rw [e01, e11]; linear_combination hB
  have m12 : dot g (fun μ => userT0 g gi μ 1) (fun μ => userT0 g gi μ 2) = 0 := by
    rw [d1]; rw [e02, e12]; ring
  have m13 : dot g (fun μ => userT0 g gi μ 1) (fun μ => userT0 g gi μ 3) = 0 := by
    rw [d1]; rw [e03, e13]; ring
  have m22 : dot g (fun μ => userT0 g gi μ 2) (fun μ => userT0 g gi μ 2) = 1 := by
    rw [c2]; simp [dot, sum4, s 3 2]; linear_combination hD
  have m23 : dot g (fun μ => userT0 g gi μ 2) (fun μ => userT0 g gi μ 3) = 0 := by
    rw [c2, c3]; simp [dot, sum4]; ring
  have m33 : dot g (fun μ => userT0 g gi μ 3) (fun μ => userT0 g gi μ 3) = 1 := by
    rw [c3]; simp [dot, sum4]; linear_combination hC
  fin_cases a <;> fin_cases b
  · exact m00.trans h0.symm
  · exact m01.trans (hz 0 1 (by decide)).symm
  · exact m02.trans (hz 0 2 (by decide)).symm
  · exact m03.trans (hz 0 3 (by decide)).symm
  · exact ((dot_comm h _ _).trans m01).trans (hz 1 0 (by decide)).symm
  · exact m11.trans h1.symm
  · exact m12.trans (hz 1 2 (by decide)).symm
  · exact m13.trans (hz 1 3 (by decide)).symm
  · exact ((dot_comm h _ _).trans m02).trans (hz 2 0 (by decide)).symm
  · exact ((dot_comm h _ _).trans m12).trans (hz 2 1 (by decide)).symm
  · exact m22.trans h2.symm
  · exact m23.trans (hz 2 3 (by decide)).symm
  · exact ((dot_comm h _ _).trans m03).trans (hz 3 0 (by decide)).symm
  · exact ((dot_comm h _ _).trans m13).trans (hz 3 1 (by decide)).symm
  · exact ((dot_comm h _ _).trans m23).trans (hz 3 2 (by decide)).symm
  · exact m33.trans h3.symm

theorem axis_axisOf : ∀ (d : Fin 3) (μ : Fin 4), axis d (axisOf d μ) = μ ∧ axisOf d (axis d μ) = μ := by decide

theorem axisOf_ne : ∀ (d : Fin 3) (μ : Fin 4), μ ≠ 0 → axisOf d μ ≠ 0 := by decide

theorem axisOf_succ : ∀ d : Fin 3, axisOf d d.succ = 1 := by decide

def axisEquiv (d : Fin 3) : Fin 4 ≃ Fin 4 :=
  ⟨axisOf d, axis d, fun μ => (axis_axisOf d μ).1, fun μ => (axis_axisOf d μ).2⟩

theorem sum_axis (d : Fin 3) (f : Fin 4 → ℝ) : ∑ μ, f (axisOf d μ) = ∑ μ, f μ := Equiv.sum_comp (axisEquiv d) f

theorem sum_axis' (d : Fin 3) (f : Fin 4 → ℝ) : ∑ μ, f (axis d μ) = ∑ μ, f μ := Equiv.sum_comp (axisEquiv d).symm f

theorem permute_back (d : Fin 3) (g : M4) (μ ν : Fin 4) : permute d g (axisOf d μ) (axisOf d ν) = g μ ν := by
  simp only [permute, (axis_axisOf d _).1]

theorem dot_permute (d : Fin 3) (g : M4) (a b : V4) :
    dot (permute d g) a b = dot g (fun μ => a (axisOf d μ)) (fun μ => b (axisOf d μ)) := by
  simp only [dot]
  rw [← sum_axis d]
  refine Finset.sum_congr rfl (fun μ _ => ?_)
  rw [← sum_axis d]
  refine Finset.sum_congr rfl (fun ν _ => ?_)
  rw [permute_back]

theorem permute_isMetric {g gi : M4} (h : IsMetric g gi) (d : Fin 3) : IsMetric (permute d g) (permute d gi) := by
  refine ⟨fun μ ν => h.sym _ _, ?_⟩
  ext μ ν
  have := congrFun (congrFun h.inv (axis d μ)) (axis d ν)
  rw [Matrix.mul_apply] at this ⊢
  simp only [permute]
  rw [sum_axis' d (fun l => g (axis d μ) l * gi l (axis d ν)), this, Matrix.one_apply, Matrix.one_apply]
  have hinj : axis d μ = axis d ν ↔ μ = ν := ⟨fun e => by
    have := congrArg (axisOf d) e
    rwa [(axis_axisOf d μ).2, (axis_axisOf d ν).2] at this, fun e => by rw [e]⟩
  by_cases e : μ = ν
  · rw [if_pos e, if_pos (hinj.mpr e)]
  · rw [if_neg e, if_neg (fun h => e (hinj.mp h))]

theorem permute_spacelike {g gi : M4} (hp : Spacelike g gi) (d : Fin 3) :
    Spacelike (permute d g) (permute d gi) := by
  refine ⟨hp.time, fun v h0 hv => ?_⟩
  rw [dot_permute]
  refine hp.pos _ h0 (fun e => hv ?_)
  funext μ
  have := congrFun e (axis d μ)
  rwa [(axis_axisOf d μ).2] at this

theorem user_frame {g gi : M4} (h : IsMetric g gi) (hp : Spacelike g gi) (d : Fin 3) :
    Frame g (userM d g gi) (userE d g gi) d.succ := by
  have h' := permute_isMetric h d
  have hp' := permute_spacelike hp d
  refine ⟨?_, ?_, ?_, ?_, ?_, ?_⟩
  · ext i j
    have := congrFun (congrFun (userT_inv h' hp') i) j
    rw [Matrix.mul_apply] at this ⊢
    rw [← this, ← sum_axis d (fun μ => userT1 (permute d g) (permute d gi) i μ * userT0 (permute d g) (permute d gi) μ j)]
    rfl
  · intro a b
    rw [← userT_orth h' hp' a b, dot_permute]
    rfl
  · intro j hj
    have : axisOf d j ≠ 0 := axisOf_ne d j hj
    change userT1 _ _ 0 (axisOf d j) = 0
    generalize axisOf d j = k at this
    fin_cases k <;> first | exact absurd rfl this | rfl
  · change 0 < -(-1 / Real.sqrt (-permute d gi 0 0))
    have p0 : 0 < -permute d gi 0 0 := by linarith [hp'.time]
    have := Real.sqrt_pos.mpr p0
    rw [neg_div, neg_neg]; positivity
  · have := axisOf_succ d
    constructor
    · change userT0 _ _ (axisOf d d.succ) 2 = 0
      rw [this]; rfl
    · change userT0 _ _ (axisOf d d.succ) 3 = 0
      rw [this]; rfl
  · change 0 < userT0 _ _ (axisOf d d.succ) 1
    rw [axisOf_succ d]
    obtain ⟨-, -, p1⟩ := user_pos h' hp'
    have h0 := hp'.time
    have a1 := Real.sqrt_pos.mpr p1
    change 0 < 1 / Real.sqrt _ * (permute d gi 0 1 * permute d gi 0 1 - permute d gi 0 0 * permute d gi 1 1)
    refine mul_pos (one_div_pos.mpr a1) ?_
    nlinarith

end Verif.Gr
