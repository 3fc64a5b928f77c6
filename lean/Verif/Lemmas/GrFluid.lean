import Verif.Model.GrMetric
import Mathlib.Tactic.LinearCombination
import Mathlib.Tactic.FieldSimp
import Mathlib.Tactic.FinCases

namespace Verif.Gr

theorem sum4 (f : Fin 4 → ℝ) : ∑ i, f i = f 0 + f 1 + f 2 + f 3 := by
  rw [Fin.sum_univ_four]

theorem IsMetric.at {g gi : M4} (h : IsMetric g gi) (μ ν : Fin 4) :
    g μ 0 * gi 0 ν + g μ 1 * gi 1 ν + g μ 2 * gi 2 ν + g μ 3 * gi 3 ν = if μ = ν then 1 else 0 := by
  have := congrFun (congrFun h.inv μ) ν
  rw [Matrix.mul_apply, Fin.sum_univ_four, Matrix.one_apply] at this
  exact this

theorem IsMetric.isymm {g gi : M4} (h : IsMetric g gi) (μ ν : Fin 4) : gi μ ν = gi ν μ := by
  have hs : g.transpose = g := by ext i j; exact h.sym j i
  have h1 : gi * g = 1 := mul_eq_one_comm.mp h.inv
  have h2 : gi.transpose * g = 1 := by
    have := congrArg Matrix.transpose h.inv
    rwa [Matrix.transpose_mul, hs, Matrix.transpose_one] at this
  have : gi.transpose = gi := by
    calc gi.transpose = gi.transpose * (g * gi) := by rw [h.inv, Matrix.mul_one]
      _ = gi := by rw [← Matrix.mul_assoc, h2, Matrix.one_mul]
  exact congrFun (congrFun this ν) μ

/-- Velocity and field of the general formulas. -/
noncomputable def velOf (g gi : M4) (uu : V4) : V4 :=
  let alpha := Real.sqrt (-1/gi 0 0)
  let gamma := Real.sqrt (1 + dot g uu uu)
  ![gamma / alpha, uu 1 - alpha * gamma * gi 0 1, uu 2 - alpha * gamma * gi 0 2, uu 3 - alpha * gamma * gi 0 3]

noncomputable def fieldOf (g : M4) (u B : V4) : V4 :=
  let b0 := dot g u B
  ![b0, (B 1 + b0 * u 1) / u 0, (B 2 + b0 * u 2) / u 0, (B 3 + b0 * u 3) / u 0]

theorem velOf_zero (g gi : M4) (uu : V4) :
    velOf g gi uu 0 = Real.sqrt (1 + dot g uu uu) / Real.sqrt (-1/gi 0 0) := rfl

theorem velOf_fourVel {g gi : M4} (h : IsMetric g gi) (h0 : gi 0 0 < 0) (uu : V4) (hu : uu 0 = 0)
    (hp : 0 ≤ dot g uu uu) : FourVel g gi uu (velOf g gi uu) := by
  have hα : 0 < -1 / gi 0 0 := by rw [neg_div, neg_pos]; exact one_div_neg.mpr h0
  have hz := h0.ne
  have ha := Real.sqrt_pos.mpr hα
  have hg : 0 < Real.sqrt (1 + dot g uu uu) := Real.sqrt_pos.mpr (by linarith)
  have ha2 := Real.sq_sqrt hα.le
  have hg2 := Real.sq_sqrt (show 0 ≤ 1 + dot g uu uu by linarith)
  have e1 : 1 / Real.sqrt (-1/gi 0 0) = - Real.sqrt (-1/gi 0 0) * gi 0 0 := by
    rw [div_eq_iff ha.ne']
    have : Real.sqrt (-1/gi 0 0)^2 * gi 0 0 = -1 := by rw [ha2]; field_simp
    linear_combination this
  refine ⟨?_, div_pos hg ha, ?_⟩
  · have hr : ∀ μ, velOf g gi uu μ = uu μ - Real.sqrt (-1/gi 0 0) * Real.sqrt (1 + dot g uu uu) * gi 0 μ := by
      intro μ
      fin_cases μ
      · change Real.sqrt (1 + dot g uu uu) / Real.sqrt (-1/gi 0 0) = uu 0 - _ * _ * gi 0 0
        rw [hu, div_eq_mul_one_div, e1]; ring
      all_goals rfl
    have key : Real.sqrt (-1/gi 0 0)^2 * gi 0 0 = -1 := by rw [ha2]; field_simp
    have hs := h.isymm
    have hd : dot g (velOf g gi uu) (velOf g gi uu) = dot g uu uu
        - 2 * (Real.sqrt (-1/gi 0 0) * Real.sqrt (1 + dot g uu uu)) * dot g uu (gi 0)
        + (Real.sqrt (-1/gi 0 0) * Real.sqrt (1 + dot g uu uu))^2 * dot g (gi 0) (gi 0) := by
      generalize Real.sqrt (-1/gi 0 0) * Real.sqrt (1 + dot g uu uu) = c at hr ⊢
      simp only [dot, sum4, hr]
      have s := h.sym
      rw [s 1 0, s 2 0, s 3 0, s 2 1, s 3 1, s 3 2]
      ring
    have c1 : dot g uu (gi 0) = 0 := by
      have a0 := h.at 0 0
      have a1 := h.at 1 0
      have a2 := h.at 2 0
      have a3 := h.at 3 0
      simp only [if_true, Fin.isValue, one_ne_zero, if_false, Fin.reduceEq] at a0 a1 a2 a3
      simp only [dot, sum4, hs 0]
      linear_combination (uu 0) * a0 + uu 1 * a1 + uu 2 * a2 + uu 3 * a3 + hu
    have c2 : dot g (gi 0) (gi 0) = gi 0 0 := by
      have a0 := h.at 0 0
      have a1 := h.at 1 0
      have a2 := h.at 2 0
      have a3 := h.at 3 0
      simp only [if_true, Fin.isValue, one_ne_zero, if_false, Fin.reduceEq] at a0 a1 a2 a3
      simp only [dot, sum4, hs 0]
      linear_combination (gi 0 0) * a0 + gi 1 0 * a1 + gi 2 0 * a2 + gi 3 0 * a3
    rw [hd, c1, c2]
    generalize Real.sqrt (-1/gi 0 0) = α at *
    generalize Real.sqrt (1 + dot g uu uu) = γ at *
    linear_combination γ^2 * key - hg2
  · intro i hi
    have key : Real.sqrt (-1/gi 0 0)^2 * gi 0 0 = -1 := by rw [ha2]; field_simp
    have e : Real.sqrt (1 + dot g uu uu) / Real.sqrt (-1/gi 0 0) * (1 / gi 0 0)
        = - (Real.sqrt (-1/gi 0 0) * Real.sqrt (1 + dot g uu uu)) := by
      rw [div_eq_mul_one_div, e1]; field_simp
    rw [velOf_zero]
    fin_cases i
    · exact absurd rfl hi
    · change uu 1 - Real.sqrt (-1/gi 0 0) * Real.sqrt (1 + dot g uu uu) * gi 0 1
        = uu 1 + Real.sqrt (1 + dot g uu uu) / Real.sqrt (-1/gi 0 0) * (gi 0 1 / gi 0 0)
      linear_combination -(gi 0 1) * e
    · change uu 2 - Real.sqrt (-1/gi 0 0) * Real.sqrt (1 + dot g uu uu) * gi 0 2
        = uu 2 + Real.sqrt (1 + dot g uu uu) / Real.sqrt (-1/gi 0 0) * (gi 0 2 / gi 0 0)
      linear_combination -(gi 0 2) * e
    · change uu 3 - Real.sqrt (-1/gi 0 0) * Real.sqrt (1 + dot g uu uu) * gi 0 3
        = uu 3 + Real.sqrt (1 + dot g uu uu) / Real.sqrt (-1/gi 0 0) * (gi 0 3 / gi 0 0)
      linear_combination -(gi 0 3) * e

theorem fieldOf_fourField {g gi : M4} (h : IsMetric g gi) {uu u : V4} (hv : FourVel g gi uu u) (B : V4)
    (hB : B 0 = 0) : FourField g u B (fieldOf g u B) := by
  have h0 := hv.future.ne'
  refine ⟨?_, ?_⟩
  · have hn := hv.norm
    have hr : ∀ μ, fieldOf g u B μ = (B μ + dot g u B * u μ) / u 0 := by
      intro μ
      fin_cases μ
      · change dot g u B = (B 0 + dot g u B * u 0) / u 0
        rw [hB]; field_simp; ring
      all_goals rfl
    have : dot g (fieldOf g u B) u = (dot g u B + dot g u B * dot g u u) / u 0 := by
      rw [eq_div_iff h0]
      have s := h.sym
      have hm : ∀ μ, fieldOf g u B μ * u 0 = B μ + dot g u B * u μ := fun μ => by
        rw [hr μ, div_mul_cancel₀ _ h0]
      have e : dot g (fieldOf g u B) u * u 0 = dot g (fun μ => fieldOf g u B μ * u 0) u := by
        simp only [dot, sum4]; ring
      rw [e]
      simp only [hm]
      generalize hc : dot g u B = c
      simp only [dot, sum4] at hc ⊢
      rw [← hc, s 1 0, s 2 0, s 3 0, s 2 1, s 3 1, s 3 2]
      ring
    rw [this, hn]; ring
  · intro i hi
    fin_cases i
    · exact absurd rfl hi
    · change (B 1 + dot g u B * u 1) / u 0 * u 0 - dot g u B * u 1 = B 1
      field_simp; ring
    · change (B 2 + dot g u B * u 2) / u 0 * u 0 - dot g u B * u 2 = B 2
      field_simp; ring
    · change (B 3 + dot g u B * u 3) / u 0 * u 0 - dot g u B * u 3 = B 3
      field_simp; ring

end Verif.Gr
