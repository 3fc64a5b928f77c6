import Verif.Lemmas.GrFrame
import Verif.Lemmas.GrDeriv

namespace Verif.Gr

/-- A frame from its dual forms. -/
theorem frame_of {g M E : M4} {n : Fin 4} (hinv : M * E = 1)
    (hg : ∀ μ ν, g μ ν = -(M 0 μ * M 0 ν) + M 1 μ * M 1 ν + M 2 μ * M 2 ν + M 3 μ * M 3 ν)
    (ht : ∀ j, j ≠ 0 → M 0 j = 0) (hf : 0 < M 0 0) (h2 : E n 2 = 0) (h3 : E n 3 = 0) (h1 : 0 < E n 1) :
    Frame g M E n := by
  refine ⟨hinv, ?_, ht, hf, ⟨h2, h3⟩, h1⟩
  have e : g = M.transpose * eta * M := by ext μ ν; rw [hg, sandwich]; rfl
  intro a b
  have h1 : E.transpose * M.transpose = 1 := by rw [← Matrix.transpose_mul, hinv, Matrix.transpose_one]
  have : E.transpose * g * E = eta := by
    rw [e]
    calc E.transpose * (M.transpose * eta * M) * E
        = (E.transpose * M.transpose) * eta * (M * E) := by simp only [Matrix.mul_assoc]
      _ = eta := by rw [h1, hinv, Matrix.one_mul, Matrix.mul_one]
  rw [← congrFun (congrFun this a) b]
  simp only [Matrix.mul_apply, Matrix.transpose_apply, dot, sum4]
  ring

/-! ## Schwarzschild -/

theorem sch_frame {m r s : ℝ} (h : 2*m/r < 1) (hr : 0 < r) (hs : 0 < s) {d : Fin 3} (hd : d ≠ 1 ∨ r = 1) :
    Frame (schMetric m r (s^2)) (schM d (Real.sqrt (1 - 2*m/r)) r s) (schE d (Real.sqrt (1 - 2*m/r)) r s) d.succ := by
  have ha : 0 < Real.sqrt (1 - 2*m/r) := Real.sqrt_pos.mpr (by linarith)
  rw [schMetric, schAlphaSq]
  generalize Real.sqrt (1 - 2*m/r) = A at ha
  fin_cases d
  · refine frame_of (symMul_one ?_) ?_ ?_ ha rfl rfl ha
    · intro i j
      fin_cases i <;> fin_cases j <;> simp [schM, schE] <;> field_simp
    · intro i j
      fin_cases i <;> fin_cases j <;> simp [schM, sym] <;> field_simp
    · intro j hj
      fin_cases j <;> first | exact absurd rfl hj | rfl
  · have hr1 : r = 1 := hd.resolve_left (fun h => h rfl)
    subst hr1
    refine frame_of (symMul_one ?_) ?_ ?_ ha rfl rfl (show (0 : ℝ) < 1/1 by norm_num)
    · intro i j
      fin_cases i <;> fin_cases j <;> simp [schM, schE] <;> field_simp
    · intro i j
      fin_cases i <;> fin_cases j <;> simp [schM, sym] <;> field_simp
    · intro j hj
      fin_cases j <;> first | exact absurd rfl hj | rfl
  · refine frame_of (symMul_one ?_) ?_ ?_ ha rfl rfl
      (show 0 < 1/(r*s) by positivity)
    · intro i j
      fin_cases i <;> fin_cases j <;> simp [schM, schE] <;> field_simp
    · intro i j
      fin_cases i <;> fin_cases j <;> simp [schM, sym] <;> field_simp
    · intro j hj
      fin_cases j <;> first | exact absurd rfl hj | rfl

/-! ## Kerr-Schild -/

/-- Kerr-Schild in terms of `q = √(1 + 2mr/Σ)`, `z = √Σ` and `s = |sin θ|`. -/
noncomputable def ksQ (a q z s : ℝ) : M4 :=
  sym (-(1 - (q^2-1))) (q^2-1) 0 (-a*(q^2-1)*s^2) (q^2) 0 (-(q^2*a*s^2)) (z^2) 0 ((z^2 + a^2*s^2 + a^2*(q^2-1)*s^2)*s^2)

theorem ks_vars {m a r si co : ℝ} (hm : 0 ≤ m) (hr : 0 < r) (hs : si ≠ 0) (h1 : si^2 + co^2 = 1) :
    ∃ q z s : ℝ, 0 < q ∧ 0 < z ∧ 0 < s ∧ s = |si| ∧ z = Real.sqrt (r^2 + a^2*co^2) ∧ z^2 = r^2 + a^2*co^2
      ∧ q = Real.sqrt (1 + 2*m*r/z^2) ∧ q^2 = 1 + 2*m*r/z^2 ∧ si^2 = s^2 ∧ 2*m*r = (q^2-1)*z^2
      ∧ r^2 + a^2 = z^2 + a^2*s^2 := by
  have hS : 0 < r^2 + a^2 * co^2 := by positivity
  have hz := Real.sqrt_pos.mpr hS
  have hz2 := Real.sq_sqrt hS.le
  have hq0 : 0 < 1 + 2*m*r/(Real.sqrt (r^2 + a^2 * co^2))^2 := by positivity
  have hq2 := Real.sq_sqrt hq0.le
  refine ⟨_, _, _, Real.sqrt_pos.mpr hq0, hz, abs_pos.mpr hs, rfl, rfl, hz2, rfl, hq2, (sq_abs si).symm, ?_, ?_⟩
  · rw [hq2]; field_simp; ring
  · rw [hz2, sq_abs]; linear_combination -a^2 * h1

theorem ksMetric_vars {m a r si co q z s : ℝ} (z2 : z^2 = r^2 + a^2*co^2) (q2 : q^2 = 1 + 2*m*r/z^2)
    (s2 : si^2 = s^2) (ra : r^2 + a^2 = z^2 + a^2*s^2) : ksMetric m a r (si^2) (co^2) = ksQ a q z s := by
  have h : 2*m*r/z^2 = q^2 - 1 := by linarith
  simp only [ksMetric, ksQ]
  rw [← z2, s2, ra, show -2*m*a*r/z^2 = -a*(2*m*r/z^2) by ring, show 2*m*a^2*r/z^2 = a^2*(2*m*r/z^2) by ring, h]
  congr 1 <;> ring

theorem ks_frame {m a r si co : ℝ} (hm : 0 ≤ m) (hr : 0 < r) (hs : si ≠ 0) (h1 : si^2 + co^2 = 1) (d : Fin 3) :
    Frame (ksMetric m a r (si^2) (co^2)) (ksM d m a r si co) (ksE d (ksM d m a r si co)) d.succ := by
  obtain ⟨q, z, s, hq, hz, hs, ds, dz, z2, dq, q2, s2, mr, ra⟩ := ks_vars (a := a) hm hr hs h1
  rw [ksMetric_vars z2 q2 s2 ra]
  have c1 : 1 / Real.sqrt (1 + 2*m*r/(r^2 + a^2*co^2)) = 1/q := by rw [← z2, ← dq]
  have c5 : 2*m*r / ((r^2 + a^2*co^2) * Real.sqrt (1 + 2*m*r/(r^2 + a^2*co^2))) = (q^2-1)/q := by
    rw [← z2, ← dq, mr]; field_simp
  have c2 : Real.sqrt (1 + 2*m*r/(r^2 + a^2*co^2)) = q := by rw [← z2, ← dq]
  have c6 : -a * si^2 * Real.sqrt (1 + 2*m*r/(r^2 + a^2*co^2)) = -a*s^2*q := by rw [c2, s2]
  have c4 : Real.sqrt (r^2 + a^2*co^2) * |si| = z * s := by rw [← dz, ← ds]
  fin_cases d
  · have hA : 0 < z^2 + a^2*s^2*q^2 := by positivity
    obtain ⟨w, hw⟩ : ∃ w, w = Real.sqrt (z^2 + a^2*s^2*q^2) := ⟨_, rfl⟩
    have hw0 : 0 < w := hw ▸ Real.sqrt_pos.mpr hA
    have hw2 : w^2 = z^2 + a^2*s^2*q^2 := by rw [hw]; exact Real.sq_sqrt hA.le
    have eA : r^2 + a^2 + 2*m*a^2*r/(r^2 + a^2*co^2) * si^2 = w^2 := by
      rw [hw2, ra, ← z2, s2, show 2*m*a^2*r/z^2 = a^2*(2*m*r/z^2) by ring, show 2*m*r/z^2 = q^2-1 by linarith]
      ring
    have eK : r^2 + a^2*co^2 + 2*m*r = z^2*q^2 := by rw [← z2, mr]; ring
    have eD : r^4 + a^2*r^2 + 2*m*a^2*r + (r^2 - 2*m*r + a^2)*a^2*co^2 = z^2*w^2 := by
      have s2' : s^2 = 1 - co^2 := by linarith
      rw [hw2, show 2*m*a^2*r = a^2*(2*m*r) by ring, mr]
      have r2 : r^2 = z^2 - a^2*co^2 := by linarith
      rw [show r^4 = (r^2)^2 by ring, r2, s2']
      ring
    have e1 : Real.sqrt ((r^2 + a^2*co^2 + 2*m*r) / (r^2 + a^2 + 2*m*a^2*r/(r^2 + a^2*co^2) * si^2)) = z*q/w := by
      rw [eA, eK, show z^2*q^2/w^2 = (z*q/w)^2 by ring, Real.sqrt_sq (by positivity)]
    have e2 : 2*m*r * Real.sqrt ((r^2 + a^2*co^2)/((r^2 + a^2*co^2 + 2*m*r)
        * (r^4 + a^2*r^2 + 2*m*a^2*r + (r^2 - 2*m*r + a^2)*a^2*co^2))) = (q^2-1)*z/(q*w) := by
      rw [eK, eD, ← z2, show z^2/(z^2*q^2*(z^2*w^2)) = (1/(z*q*w))^2 by field_simp, Real.sqrt_sq (by positivity), mr]
      field_simp
    have e3 : |si| * Real.sqrt (r^2 + a^2 + 2*m*a^2*r/(r^2 + a^2*co^2) * si^2) = s*w := by
      rw [eA, Real.sqrt_sq hw0.le, ← ds]
    have e4 : -2*m*a*r * |si| * Real.sqrt (r^2 + a^2 + 2*m*a^2*r/(r^2 + a^2*co^2) * si^2)
        / (r^4 + a^2*r^2 + 2*m*a^2*r + (r^2 - 2*m*r + a^2)*a^2*co^2) = -a*(q^2-1)*s/w := by
      rw [eA, eD, Real.sqrt_sq hw0.le, ← ds, show -2*m*a*r = -a*(2*m*r) by ring, mr]
      field_simp
    have e5 : -a * (r^2 + a^2*co^2 + 2*m*r) * |si| * Real.sqrt (r^2 + a^2 + 2*m*a^2*r/(r^2 + a^2*co^2) * si^2)
        / (r^4 + a^2*r^2 + 2*m*a^2*r + (r^2 - 2*m*r + a^2)*a^2*co^2) = -a*q^2*s/w := by
      rw [eA, eD, eK, Real.sqrt_sq hw0.le, ← ds]
      field_simp
    have hM : ksM 0 m a r si co = (![![1/q, 0, 0, 0], ![(q^2-1)*z/(q*w), z*q/w, 0, 0], ![0, 0, z, 0],
        ![-a*(q^2-1)*s/w, -a*q^2*s/w, 0, s*w]] : M4) := by
      rw [← c1, ← e1, ← e2, ← e3, ← e4, ← e5, dz]; rfl
    change Frame _ (ksM 0 m a r si co) (ksE 0 (ksM 0 m a r si co)) 1
    rw [hM]
    refine frame_of (symMul_one ?_) ?_ ?_ ?_ rfl rfl (show 0 < 1/(z*q/w) by positivity)
    · intro i j
      fin_cases i <;> fin_cases j <;> simp [ksE] <;> field_simp <;> ring
    · intro i j
      fin_cases i <;> fin_cases j <;> simp [ksQ, sym] <;> field_simp <;> (try rw [hw2]) <;> (try ring)
    · intro j hj
      fin_cases j <;> first | exact absurd rfl hj | rfl
    · change 0 < 1/q
      positivity
  · have hM : ksM 1 m a r si co = (![![1/q, 0, 0, 0], ![0, 0, z, 0], ![0, 0, 0, z*s], ![(q^2-1)/q, q, 0, -a*s^2*q]] : M4) := by
      rw [← c1, ← c5, ← c6, ← c4, ← c2, dz]; rfl
    change Frame _ (ksM 1 m a r si co) (ksE 1 (ksM 1 m a r si co)) 2
    rw [hM]
    refine frame_of (symMul_one ?_) ?_ ?_ ?_ rfl rfl (show 0 < 1/z by positivity)
    · intro i j
      fin_cases i <;> fin_cases j <;> simp [ksE] <;> field_simp <;> ring
    · intro i j
      fin_cases i <;> fin_cases j <;> simp [ksQ, sym] <;> field_simp <;> ring
    · intro j hj
      fin_cases j <;> first | exact absurd rfl hj | rfl
    · change 0 < 1/q
      positivity
  · have hM : ksM 2 m a r si co = (![![1/q, 0, 0, 0], ![0, 0, 0, z*s], ![(q^2-1)/q, q, 0, -a*s^2*q], ![0, 0, z, 0]] : M4) := by
      rw [← c1, ← c5, ← c6, ← c4, ← c2, dz]; rfl
    change Frame _ (ksM 2 m a r si co) (ksE 2 (ksM 2 m a r si co)) 3
    rw [hM]
    refine frame_of (symMul_one ?_) ?_ ?_ ?_ rfl rfl (show 0 < 1/(z*s) by positivity)
    · intro i j
      fin_cases i <;> fin_cases j <;> simp [ksE] <;> field_simp <;> ring
    · intro i j
      fin_cases i <;> fin_cases j <;> simp [ksQ, sym] <;> field_simp <;> ring
    · intro j hj
      fin_cases j <;> first | exact absurd rfl hj | rfl
    · change 0 < 1/q
      positivity
end Verif.Gr
