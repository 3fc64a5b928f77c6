import Verif.Spec.Coord
import Verif.Lemmas.Flux
import Mathlib.Analysis.SpecialFunctions.Integrals.Basic

/-! Helper lemmas for coordinate systems. -/
namespace Verif.Coord
open Verif.Grid Verif.Arr

theorem over_const (f : MeshGen.Faces) (i : ℤ) (a : ℝ) : over f i (fun _ => a) = (f.xf (i+1) - f.xf i) * a := by
  simp [over]
theorem over_mul (f : MeshGen.Faces) (i : ℤ) (a : ℝ) (φ : ℝ → ℝ) : over f i (fun x => a * φ x) = a * over f i φ := by
  simp [over]
theorem over_id (f : MeshGen.Faces) (i : ℤ) : over f i (fun x => x) = (f.xf (i+1) ^ 2 - f.xf i ^ 2) / 2 := by
  simp [over]
theorem over_pow (f : MeshGen.Faces) (i : ℤ) (n : ℕ) : over f i (fun x => x ^ n) = (f.xf (i+1) ^ (n+1) - f.xf i ^ (n+1)) / (n + 1) := by
  simp [over]
theorem over_sin (f : MeshGen.Faces) (i : ℤ) : over f i Real.sin = Real.cos (f.xf i) - Real.cos (f.xf (i+1)) := by
  simp [over]
theorem over_id_sin (f : MeshGen.Faces) (i : ℤ) : over f i (fun x => x * Real.sin x) =
    (Real.sin (f.xf (i+1)) - f.xf (i+1) * Real.cos (f.xf (i+1))) - (Real.sin (f.xf i) - f.xf i * Real.cos (f.xf i)) := by
  unfold over
  apply intervalIntegral.integral_eq_sub_of_hasDerivAt (f := fun x => Real.sin x - x * Real.cos x) (f' := fun x => x * Real.sin x)
  · intro x _
    have := (Real.hasDerivAt_sin x).sub ((hasDerivAt_id x).mul (Real.hasDerivAt_cos x))
    exact this.congr_deriv (by simp only [id]; ring)
  · apply Continuous.intervalIntegrable
    fun_prop

theorem over_idr (f : MeshGen.Faces) (i : ℤ) (a : ℝ) : over f i (fun x => x * a) = (f.xf (i+1) ^ 2 - f.xf i ^ 2) / 2 * a := by
  simp [over]
theorem over_sinr (f : MeshGen.Faces) (i : ℤ) (a : ℝ) :
    over f i (fun x => Real.sin x * a) = (Real.cos (f.xf i) - Real.cos (f.xf (i+1))) * a := by
  simp [over]
theorem over_sq (f : MeshGen.Faces) (i : ℤ) (a : ℝ) :
    over f i (fun x => x * (x * a)) = (f.xf (i+1) ^ 3 - f.xf i ^ 3) / 3 * a := by
  have : (fun x : ℝ => x * (x * a)) = fun x => a * x ^ 2 := by funext x; ring
  rw [this, over_mul, over_pow]; norm_num; ring

theorem over_mulr (f : MeshGen.Faces) (i : ℤ) (a : ℝ) (φ : ℝ → ℝ) : over f i (fun x => φ x * a) = over f i φ * a := by
  simp [over]

theorem over_inv_id (f : MeshGen.Faces) (i : ℤ) (h0 : 0 ≤ f.xf i) (hl : f.xf i < f.xf (i+1)) :
    over f i (fun x => 1 / x * x) = f.xf (i+1) - f.xf i := by
  unfold over
  rw [intervalIntegral.integral_congr_Ioo_of_le (g := fun _ => 1) hl.le]
  · simp
  · intro x hx
    have : x ≠ 0 := by have := hx.1; linarith
    simp [this]
theorem over_cot_sin (f : MeshGen.Faces) (i : ℤ) (h0 : 0 ≤ f.xf i) (hl : f.xf i < f.xf (i+1)) (hp : f.xf (i+1) ≤ Real.pi) :
    over f i (fun x => Real.cos x / Real.sin x * Real.sin x) = Real.sin (f.xf (i+1)) - Real.sin (f.xf i) := by
  unfold over
  rw [intervalIntegral.integral_congr_Ioo_of_le (g := Real.cos) hl.le]
  · simp
  · intro x hx
    have : Real.sin x ≠ 0 := (Real.sin_pos_of_pos_of_lt_pi (lt_of_le_of_lt h0 hx.1) (lt_of_lt_of_le hx.2 hp)).ne'
    exact div_mul_cancel₀ _ this

/-- Integrals of products of functions of one variable. -/
theorem inCell_prod {c : Sys} {X : XF} {k j i : ℤ} {φ : ℝ → ℝ → ℝ → ℝ} (f1 f2 f3 : ℝ → ℝ)
    (h : ∀ x1 x2 x3, φ x1 x2 x3 * (h2 c x1 x2 * h3 c x1 x2) = f1 x1 * (f2 x2 * f3 x3)) :
    inCell c X k j i φ = over X.x1 i f1 * over X.x2 j f2 * over X.x3 k f3 := by
  simp only [inCell, h, over_mulr]
  simp only [over_mul, over_mulr]
  ring
theorem onFace1_prod {c : Sys} {X : XF} {k j i : ℤ} {φ : ℝ → ℝ} (a : ℝ) (f2 : ℝ → ℝ)
    (h : ∀ x2, φ x2 * (h2 c (X.x1.xf i) x2 * h3 c (X.x1.xf i) x2) = a * f2 x2) :
    onFace1 c X k j i φ = a * over X.x2 j f2 * (X.x3.xf (k+1) - X.x3.xf k) := by
  simp only [onFace1, h, over_mul, over_const]; ring
theorem onFace2_prod {c : Sys} {X : XF} {k j i : ℤ} {φ : ℝ → ℝ} (a : ℝ) (f1 : ℝ → ℝ)
    (h : ∀ x1, φ x1 * h3 c x1 (X.x2.xf j) = a * f1 x1) :
    onFace2 c X k j i φ = a * over X.x1 i f1 * (X.x3.xf (k+1) - X.x3.xf k) := by
  simp only [onFace2, h, over_mul, over_const]; ring
theorem onFace3_prod {c : Sys} {X : XF} {j i : ℤ} {φ : ℝ → ℝ → ℝ} (f1 f2 : ℝ → ℝ)
    (h : ∀ x1 x2, φ x1 x2 * h2 c x1 x2 = f1 x1 * f2 x2) :
    onFace3 c X j i φ = over X.x1 i f1 * over X.x2 j f2 := by
  simp only [onFace3, h, over_mul, over_mulr]

/-- Cosine falls and sine is not negative between `0` and `π`. -/
theorem cos_fall {a b : ℝ} (h0 : 0 ≤ a) (hab : a < b) (hb : b ≤ Real.pi) : Real.cos b < Real.cos a :=
  Real.cos_lt_cos_of_nonneg_of_le_pi h0 hb hab

theorem sin_pair {a b : ℝ} (h0 : 0 ≤ a) (hab : a < b) (hb : b ≤ Real.pi) : 0 ≤ Real.sin a ∧ 0 ≤ Real.sin b ∧
    (0 < a ∨ b < Real.pi → 0 < Real.sin a + Real.sin b) := by
  have h1 := Real.sin_nonneg_of_nonneg_of_le_pi h0 (by linarith)
  have h2 := Real.sin_nonneg_of_nonneg_of_le_pi (by linarith : 0 ≤ b) hb
  refine ⟨h1, h2, ?_⟩
  rintro (h | h)
  · have := Real.sin_pos_of_pos_of_lt_pi h (by linarith); linarith
  · have := Real.sin_pos_of_pos_of_lt_pi (by linarith : 0 < b) h; linarith

/-! ## Loops whose body works on one cell -/

theorem cells_fold {ι : Type} (l : List ι) (cell : ι → ℤ × ℤ × ℤ) (f : ι → A4 ℝ → A4 ℝ)
    (ha : ∀ x u n q, q ≠ cell x → f x u (n, q) = u (n, q))
    (hb : ∀ x u v, (∀ n, u (n, cell x) = v (n, cell x)) → ∀ n, f x u (n, cell x) = f x v (n, cell x))
    (hnd : (l.map cell).Nodup) (u : A4 ℝ) :
    (∀ x ∈ l, ∀ n, l.foldl (fun u x => f x u) u (n, cell x) = f x u (n, cell x)) ∧
    ∀ q, q ∉ l.map cell → ∀ n, l.foldl (fun u x => f x u) u (n, q) = u (n, q) := by
  induction l generalizing u with
  | nil => simp
  | cons y l ih =>
    rw [List.map_cons, List.nodup_cons] at hnd
    obtain ⟨i1, i2⟩ := ih hnd.2 (f y u)
    constructor
    · intro x hx n
      rw [List.foldl_cons]
      by_cases hxy : cell x = cell y
      · have : cell x ∉ l.map cell := by rw [hxy]; exact hnd.1
        rw [i2 _ this]
        rcases List.mem_cons.1 hx with rfl | hx
        · rfl
        · exact absurd (List.mem_map_of_mem hx) this
      · rcases List.mem_cons.1 hx with rfl | hx
        · exact absurd rfl hxy
        · rw [i1 x hx n]
          exact hb x _ _ (fun n => ha y u n _ hxy) n
    · intro q hq n
      rw [List.map_cons, List.mem_cons, not_or] at hq
      rw [List.foldl_cons, i2 q hq.2 n, ha y u n q hq.1]

/-- A loop over the active cells whose body works on one cell. -/
theorem loop_cells (d : Dims) (f : ℤ → ℤ → ℤ → A4 ℝ → A4 ℝ)
    (ha : ∀ k j i u n q, q ≠ (k, j, i) → f k j i u (n, q) = u (n, q))
    (hb : ∀ k j i u v, (∀ n, u (n, k, j, i) = v (n, k, j, i)) → ∀ n, f k j i u (n, k, j, i) = f k j i v (n, k, j, i))
    (u : A4 ℝ) (n k j i : ℤ) :
    (loop d.ks d.ke fun k => loop d.js d.je fun j => loop d.is d.ie fun i => f k j i) u (n, k, j, i) =
      if (d.ks ≤ k ∧ k ≤ d.ke) ∧ (d.js ≤ j ∧ j ≤ d.je) ∧ (d.is ≤ i ∧ i ≤ d.ie) then f k j i u (n, k, j, i)
      else u (n, k, j, i) := by
  have h := cells_fold (prodL (rng d.ks d.ke) (prodL (rng d.js d.je) (rng d.is d.ie))) id
    (fun x => f x.1 x.2.1 x.2.2) (fun x u n q hq => ha _ _ _ u n q hq) (fun x u v h => hb _ _ _ u v h)
    (by rw [List.map_id]
        exact nodup_prodL (nodup_rng _ _) (nodup_prodL (nodup_rng _ _) (nodup_rng _ _))) u
  simp only [foldl_prodL] at h
  split
  · next hc => exact h.1 (k, j, i) (by simp only [mem_prodL, mem_rng]; exact hc) n
  · next hc => exact h.2 (k, j, i) (by rw [List.map_id]; simp only [mem_prodL, mem_rng]; exact hc) n

theorem add_at (n k j i : ℤ) (x : ℝ) (u : A4 ℝ) (n' : ℤ) :
    add n k j i x u (n', k, j, i) = u (n', k, j, i) + if n' = n then x else 0 := by
  unfold add Function.update
  by_cases h : n' = n <;> simp [h]
theorem sub_at (n k j i : ℤ) (x : ℝ) (u : A4 ℝ) (n' : ℤ) :
    sub n k j i x u (n', k, j, i) = u (n', k, j, i) - if n' = n then x else 0 := by
  unfold sub Function.update
  by_cases h : n' = n <;> simp [h]
theorem add_off (n k j i : ℤ) (x : ℝ) (u : A4 ℝ) (n' : ℤ) (q : ℤ × ℤ × ℤ) (h : q ≠ (k, j, i)) :
    add n k j i x u (n', q) = u (n', q) := by
  unfold add; rw [Function.update_of_ne]; simp [h]
theorem sub_off (n k j i : ℤ) (x : ℝ) (u : A4 ℝ) (n' : ℤ) (q : ℤ × ℤ × ℤ) (h : q ≠ (k, j, i)) :
    sub n k j i x u (n', q) = u (n', q) := by
  unfold sub; rw [Function.update_of_ne]; simp [h]

/-- What the source terms add to a cell, apart from what was there. -/
noncomputable def inc (X : XF) (c : Sys) (d : Dims) (S : Src) (dt : ℝ) (F : Flx ℝ) (n k j i : ℤ) : ℝ :=
  match c with
  | .cartesian => 0
  | .cylindrical => cylCell X S dt F k j i (fun _ => 0) (n, k, j, i)
  | .spherical => sphCell X d S dt F k j i (fun _ => 0) (n, k, j, i)

theorem addCoordTerms_at (X : XF) (c : Sys) (d : Dims) (S : Src) (dt : ℝ) (F : Flx ℝ) (u : A4 ℝ) (n k j i : ℤ) :
    addCoordTerms X c d S dt F u (n, k, j, i) =
      if (d.ks ≤ k ∧ k ≤ d.ke) ∧ (d.js ≤ j ∧ j ≤ d.je) ∧ (d.is ≤ i ∧ i ≤ d.ie) then
        u (n, k, j, i) + inc X c d S dt F n k j i
      else u (n, k, j, i) := by
  cases c
  · simp [addCoordTerms, inc]
  · unfold addCoordTerms inc
    simp only []
    rw [loop_cells d (fun k j i => cylCell X S dt F k j i)]
    · split
      · unfold cylCell
        simp only [add_at, sub_at]
        ring
      · rfl
    · intro k j i u n q h
      unfold cylCell
      simp only [add_off, sub_off, h, ne_eq, not_false_eq_true]
    · intro k j i u v h n
      unfold cylCell
      simp only [add_at, sub_at, h]
  · unfold addCoordTerms inc
    simp only []
    rw [loop_cells d (fun k j i => sphCell X d S dt F k j i)]
    · split
      · unfold sphCell
        by_cases h2 : d.nx2 > 1
        · simp only [if_pos h2, add_at, sub_at]
          ring
        · simp only [if_neg h2, add_at, sub_at]
          ring
      · rfl
    · intro k j i u n q h
      unfold sphCell
      by_cases h2 : d.nx2 > 1
      · simp only [if_pos h2, add_off, sub_off, h, ne_eq, not_false_eq_true]
      · simp only [if_neg h2, add_off, sub_off, h, ne_eq, not_false_eq_true]
    · intro k j i u v h n
      unfold sphCell
      by_cases h2 : d.nx2 > 1
      · simp only [if_pos h2, add_at, sub_at, h]
      · simp only [if_neg h2, add_at, sub_at, h]

end Verif.Coord
