import Verif.Lemmas.LinAlg
import Verif.Props.RadAngles
import Mathlib.LinearAlgebra.Matrix.NonsingularInverse
import Mathlib.LinearAlgebra.Matrix.ToLinearEquiv
import Mathlib.Tactic.NormNum

/-!
# C86: the inverse of a matrix by LU decomposition
-/

namespace Verif.Lin

open Finset

/-- The leading `n` by `n` block of an array as a matrix. -/
def block (n : ℕ) (a : Mat) : Matrix (Fin n) (Fin n) ℝ := Matrix.of fun i j => a i j

theorem regular_of_det {n : ℕ} {a : Mat} (h : (block n a).det ≠ 0) : Regular n a := by
  intro x hx c hc
  have h1 : (block n a).mulVec (fun k : Fin n => x k) = 0 := by
    funext i
    have := hx i i.2
    rw [Finset.sum_range] at this
    exact this
  have := Matrix.eq_zero_of_mulVec_eq_zero h h1
  exact congrFun this ⟨c, hc⟩

theorem ludcmp_inv {n : ℕ} {a : Mat} (h : (block n a).det ≠ 0) :
    ∃ s, ludcmp n a = some s ∧ Inv n a s n := by
  classical
  have hno : ¬ ∃ i < n, rowMax a i n = 0 := by
    rintro ⟨i, hi, h0⟩
    rw [rowMax_zero] at h0
    refine h (Matrix.det_eq_zero_of_row_eq_zero ⟨i, hi⟩ fun c => h0 c c.2)
  refine ⟨_, if_neg hno, columns_inv (regular_of_det h) _ ?_ n le_rfl⟩
  refine ⟨fun k hk => absurd hk (Nat.not_lt_zero k), fun k hk => absurd hk (Nat.not_lt_zero k),
    fun c _ r _ => rfl, fun k hk => absurd hk (Nat.not_lt_zero k), fun r hr => ?_⟩
  push Not at hno
  exact one_div_pos.mpr (lt_of_le_of_ne (rowMax_nonneg a r n) (Ne.symm (hno r hr)))

/-- `Ludcmp_nr` and `Lubksb_nr` solve every system with a regular matrix. -/
theorem solve_correct (n : ℕ) (a : Mat) (h : (block n a).det ≠ 0) (b : ℕ → ℝ) :
    ∃ s, ludcmp n a = some s ∧
      (block n a).mulVec (fun c : Fin n => lubksb n s b c) = fun i : Fin n => b i := by
  obtain ⟨s, h1, h2⟩ := ludcmp_inv h
  refine ⟨s, h1, ?_⟩
  funext i
  have := lubksb_solves h2 b i i.2
  rw [Finset.sum_range] at this
  exact this

/-- `InverseMatrix` returns the inverse of every regular matrix. -/
theorem inverse_correct (n : ℕ) (a : Mat) (h : (block n a).det ≠ 0) :
    ∃ b, inverseMatrix n a = some b ∧ block n b = (block n a)⁻¹ := by
  obtain ⟨s, h1, h2⟩ := ludcmp_inv h
  refine ⟨_, by unfold inverseMatrix; rw [h1]; rfl, ?_⟩
  symm
  refine Matrix.inv_eq_right_inv ?_
  funext i j
  have := lubksb_solves h2 (fun r => if r = (j : ℕ) then 1 else 0) i i.2
  rw [Finset.sum_range] at this
  rw [Matrix.mul_apply, Matrix.one_apply]
  have e : (if i = j then (1 : ℝ) else 0) = if (i : ℕ) = (j : ℕ) then 1 else 0 := by
    simp only [Fin.ext_iff]
  rw [e, ← this]
  rfl

/-- The only matrices refused are those with a row of zeros. -/
theorem refused_iff (n : ℕ) (a : Mat) :
    inverseMatrix n a = none ↔ ∃ i < n, ∀ c < n, a i c = 0 := by
  classical
  unfold inverseMatrix ludcmp
  rw [Option.map_eq_none_iff]
  constructor
  · intro h
    by_contra hc
    rw [if_neg] at h
    · exact absurd h (by simp)
    · rintro ⟨i, hi, h0⟩
      exact hc ⟨i, hi, (rowMax_zero a i n).mp h0⟩
  · rintro ⟨i, hi, h0⟩
    rw [if_pos ⟨i, hi, (rowMax_zero a i n).mpr h0⟩]

/-- A matrix that has no inverse and is not refused: the pivot that vanishes is replaced by
`TINY_NUMBER`. -/
theorem singular_accepted : (block 2 fun _ _ => 1).det = 0 ∧
    ∃ b, inverseMatrix 2 (fun _ _ => 1) = some b := by
  constructor
  · rw [Matrix.det_fin_two]; simp [block]
  · cases h : inverseMatrix 2 (fun _ _ => 1) with
    | some b => exact ⟨b, rfl⟩
    | none =>
      obtain ⟨i, hi, h0⟩ := (refused_iff 2 _).mp h
      exact absurd (h0 0 (by norm_num)) one_ne_zero

/-- A matrix whose first pivot is zero: rows have to be interchanged. -/
example : ∃ b, inverseMatrix 2 (fun i j => if i = j then 0 else 2) = some b ∧
    b 0 1 = 1 / 2 ∧ b 0 0 = 0 := by
  have hd : (block 2 (fun i j => if i = j then 0 else 2)).det ≠ 0 := by
    rw [Matrix.det_fin_two]; simp [block]
  obtain ⟨b, h1, h2⟩ := inverse_correct 2 _ hd
  refine ⟨b, h1, ?_⟩
  have h3 : block 2 b * block 2 (fun i j => if i = j then 0 else 2) = 1 := by
    rw [h2]; exact Matrix.nonsing_inv_mul _ (isUnit_iff_ne_zero.mpr hd)
  have e1 := congrFun (congrFun h3 0) 0
  have e2 := congrFun (congrFun h3 0) 1
  rw [Matrix.mul_apply, Fin.sum_univ_two] at e1 e2
  simp [block] at e1 e2
  exact ⟨by linarith, e2⟩

/-! ### the weights of the level symmetric grid -/

/-- The linear solve of `AngularGrid`, angulargrid.cpp:140-144: inverse of the matrix of
families times the weights of the levels; `none` is an exception. -/
noncomputable def familyWeights (nmu : ℕ) : Option (ℕ → ℝ) :=
  (inverseMatrix (nmu - 1) fun i p => (Rad.pmat nmu i p : ℝ)).map fun b =>
    matVec (nmu - 1) b (Rad.wtmp nmu)

/-- The weights of the families solve the equations of the levels. -/
theorem family_weights (nmu : ℕ) (h2 : 2 ≤ nmu) (h6 : nmu ≤ 6) :
    ∃ w, familyWeights nmu = some w ∧
      ∀ i < nmu - 1, ∑ p ∈ range (nmu - 1), (Rad.pmat nmu i p : ℝ) * w p = Rad.wtmp nmu i := by
  have hd : (block (nmu - 1) fun i p => (Rad.pmat nmu i p : ℝ)).det ≠ 0 := by
    have hq := Rad.families_invertible nmu h2 h6
    have hm : (block (nmu - 1) fun i p => (Rad.pmat nmu i p : ℝ))
        = ((Matrix.of fun i p : Fin (nmu - 1) => (Rad.pmat nmu i p : ℚ)).map
            (Rat.castHom ℝ)) := by
      funext i p
      simp [block]
    rw [hm, ← RingHom.mapMatrix_apply, ← RingHom.map_det]
    simpa using hq
  obtain ⟨b, h1, h3⟩ := inverse_correct _ _ hd
  refine ⟨_, by unfold familyWeights; rw [h1]; rfl, fun i hi => ?_⟩
  have h4 : block (nmu - 1) (fun i p => (Rad.pmat nmu i p : ℝ)) * block (nmu - 1) b = 1 := by
    rw [h3]; exact Matrix.mul_nonsing_inv _ (isUnit_iff_ne_zero.mpr hd)
  have h5 : (block (nmu - 1) (fun i p => (Rad.pmat nmu i p : ℝ))).mulVec
      ((block (nmu - 1) b).mulVec fun k : Fin (nmu - 1) => Rad.wtmp nmu k) = fun k : Fin (nmu - 1) => Rad.wtmp nmu k := by
    rw [Matrix.mulVec_mulVec, h4, Matrix.one_mulVec]
  have h6 := congrFun h5 ⟨i, hi⟩
  have h7 : ∀ p : Fin (nmu - 1), matVec (nmu - 1) b (Rad.wtmp nmu) p
      = (block (nmu - 1) b).mulVec (fun k : Fin (nmu - 1) => Rad.wtmp nmu k) p := by
    intro p
    unfold matVec
    rw [Finset.sum_range]
    rfl
  rw [Finset.sum_range]
  simp only [h7]
  exact h6

/-- The grids of two to six levels as the code computes them are isotropic. -/
theorem level_grid (nmu : ℕ) (h2 : 2 ≤ nmu) (h6 : nmu ≤ 6) :
    ∃ w, familyWeights nmu = some w ∧ Rad.Spec.Isotropic (Rad.grid3 nmu w) ∧
      Rad.Spec.IsotropicPlane (Rad.grid2 nmu w) := by
  obtain ⟨w, h1, h3⟩ := family_weights nmu h2 h6
  exact ⟨w, h1, Rad.level_isotropic nmu h2 h6 w h3, Rad.level_isotropic_plane nmu h2 h6 w h3⟩

end Verif.Lin
