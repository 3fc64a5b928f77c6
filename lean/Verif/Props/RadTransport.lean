import Verif.Model.RadTransport
import Mathlib.Tactic
import Mathlib.Algebra.BigOperators.Intervals

/-!
C99: implicit transport of radiation.
-/

namespace Verif.RadTransport

open scoped BigOperators

/-! ### Specification -/

namespace Spec

/-- The flux through a face of the method of Harten, Lax and van Leer for the flux `v I`; none where
the two speeds agree (division by zero gives zero here). -/
noncomputable def flux (f : Face) (L R : ℝ) : ℝ :=
  (f.smax * (f.v * L) - f.smin * (f.v * R) + f.smax * f.smin * (R - L)) / (f.smax - f.smin)

/-- What leaves the cell `(k, j, i)` in one step through its faces: implicit and explicit flux. -/
noncomputable def outflow (s : Step) (I : ℕ → ℕ → ℕ → ℝ) (k j i : ℕ) : ℝ :=
  s.wght *
    (((s.fx k j (i + 1)).area * (flux (s.fx k j (i + 1)) (I k j i) (I k j (i + 1)) + s.ax k j (i + 1))
      - (s.fx k j i).area * (flux (s.fx k j i) (I k j (i - 1)) (I k j i) + s.ax k j i)) +
    (if s.two then
      (s.fy k (j + 1) i).area * (flux (s.fy k (j + 1) i) (I k j i) (I k (j + 1) i) + s.ay k (j + 1) i)
      - (s.fy k j i).area * (flux (s.fy k j i) (I k (j - 1) i) (I k j i) + s.ay k j i) else 0) +
    (if s.three then
      (s.fz (k + 1) j i).area * (flux (s.fz (k + 1) j i) (I k j i) (I (k + 1) j i) + s.az (k + 1) j i)
      - (s.fz k j i).area * (flux (s.fz k j i) (I (k - 1) j i) (I k j i) + s.az k j i) else 0))

/-- What leaves the block of cells `1 .. n` in each direction through its surface. -/
noncomputable def boundary (s : Step) (n1 n2 n3 : ℕ) (I : ℕ → ℕ → ℕ → ℝ) : ℝ :=
  let F (g : Face) (L R a : ℝ) : ℝ := g.area * (flux g L R + a)
  s.wght *
    (∑ k ∈ Finset.Ico 1 (n3 + 1), ∑ j ∈ Finset.Ico 1 (n2 + 1),
      (F (s.fx k j (n1 + 1)) (I k j n1) (I k j (n1 + 1)) (s.ax k j (n1 + 1)) -
        F (s.fx k j 1) (I k j 0) (I k j 1) (s.ax k j 1)) +
    (if s.two then ∑ k ∈ Finset.Ico 1 (n3 + 1), ∑ i ∈ Finset.Ico 1 (n1 + 1),
      (F (s.fy k (n2 + 1) i) (I k n2 i) (I k (n2 + 1) i) (s.ay k (n2 + 1) i) -
        F (s.fy k 1 i) (I k 0 i) (I k 1 i) (s.ay k 1 i)) else 0) +
    (if s.three then ∑ j ∈ Finset.Ico 1 (n2 + 1), ∑ i ∈ Finset.Ico 1 (n1 + 1),
      (F (s.fz (n3 + 1) j i) (I n3 j i) (I (n3 + 1) j i) (s.az (n3 + 1) j i) -
        F (s.fz 1 j i) (I 0 j i) (I 1 j i) (s.az 1 j i)) else 0))

end Spec

/-- Sum over the cells of a block. -/
noncomputable def total (n1 n2 n3 : ℕ) (q : ℕ → ℕ → ℕ → ℝ) : ℝ :=
  ∑ k ∈ Finset.Ico 1 (n3 + 1), ∑ j ∈ Finset.Ico 1 (n2 + 1), ∑ i ∈ Finset.Ico 1 (n1 + 1), q k j i

/-- A face whose speeds are either told apart by the code or both zero. -/
def Resolved (tiny : ℝ) (f : Face) : Prop := tiny ≤ |f.smax - f.smin| ∨ (f.smax = 0 ∧ f.smin = 0)

theorem inv_eq {tiny : ℝ} {f : Face} (h : Resolved tiny f) :
    f.inv tiny = 1 / (f.smax - f.smin) := by
  unfold Face.inv
  split
  · rename_i h1
    rcases h with h | ⟨h, h'⟩
    · linarith
    · rw [h, h']; simp
  · rfl

/-- The coefficients at the right face of a cell make up the flux. -/
theorem right_flux (split : Bool) {tiny : ℝ} {f : Face} (h : Resolved tiny f)
    (L R : ℝ) :
    f.area * (splitR split f).2 * f.inv tiny * L + f.area * (splitR split f).1 * f.inv tiny * L +
      coefR tiny f * R = f.area * Spec.flux f L R := by
  unfold coefR Spec.flux
  rw [inv_eq h, div_eq_mul_one_div (_ + _) (f.smax - f.smin)]
  generalize 1 / (f.smax - f.smin) = d
  cases split
  · simp only [splitR, Bool.false_eq_true, if_false]; ring
  · simp only [splitR, if_true]
    split <;> ring

/-- So do those at the left face. -/
theorem left_flux (split : Bool) {tiny : ℝ} {f : Face} (h : Resolved tiny f)
    (L R : ℝ) :
    -f.area * (splitL split f).2 * f.inv tiny * R + -f.area * (splitL split f).1 * f.inv tiny * R +
      coefL tiny f * L = -(f.area * Spec.flux f L R) := by
  unfold coefL Spec.flux
  rw [inv_eq h, div_eq_mul_one_div (_ + _) (f.smax - f.smin)]
  generalize 1 / (f.smax - f.smin) = d
  cases split
  · simp only [splitL, Bool.false_eq_true, if_false]; ring
  · simp only [splitL, if_true]
    split <;> ring

/-- One direction of a cell. -/
theorem dir_flux (split : Bool) {tiny : ℝ} {l r : Face} (hl : Resolved tiny l)
    (hr : Resolved tiny r) (L C R : ℝ) :
    coefIm split tiny l r * C + coefEx split tiny l r * C + coefL tiny l * L + coefR tiny r * R =
      r.area * Spec.flux r C R - l.area * Spec.flux l L C := by
  have h1 := right_flux split hr C R
  have h2 := left_flux split hl L C
  unfold coefIm coefEx
  linarith

/-- All faces of a cell are resolved. -/
def Step.Ok (s : Step) : Prop :=
  ∀ k j i, Resolved s.tiny (s.fx k j i) ∧ Resolved s.tiny (s.fy k j i) ∧
    Resolved s.tiny (s.fz k j i)

/-- **C99.** Once the iteration has converged, the equation of a cell is that of the finite-volume
method with the fluxes of Harten, Lax and van Leer of the new intensities, for both ways of iterating
and in one, two and three dimensions: what the gas gets is the change of the intensity plus what
left the cell. -/
theorem transport_partial (s : Step) (hs : s.Ok) (I0 I : ℕ → ℕ → ℕ → ℝ) {k j i : ℕ}
    (hv : s.vol k j i ≠ 0) :
    s.vol k j i * s.given I0 I I k j i =
      s.vol k j i * (I k j i - I0 k j i) + Spec.outflow s I k j i := by
  have hf := hs
  have hx := dir_flux s.split (hf k j i).1 (hf k j (i + 1)).1 (I k j (i - 1)) (I k j i)
    (I k j (i + 1))
  have hy := dir_flux s.split (hf k j i).2.1 (hf k (j + 1) i).2.1 (I k (j - 1) i) (I k j i)
    (I k (j + 1) i)
  have hz := dir_flux s.split (hf k j i).2.2 (hf (k + 1) j i).2.2 (I (k - 1) j i) (I k j i)
    (I (k + 1) j i)
  unfold Step.given Step.div Step.const Step.exp Step.adv Spec.outflow
  generalize Spec.flux (s.fx k j (i + 1)) (I k j i) (I k j (i + 1)) = a1 at *
  generalize Spec.flux (s.fx k j i) (I k j (i - 1)) (I k j i) = a2 at *
  generalize Spec.flux (s.fy k (j + 1) i) (I k j i) (I k (j + 1) i) = a3 at *
  generalize Spec.flux (s.fy k j i) (I k (j - 1) i) (I k j i) = a4 at *
  generalize Spec.flux (s.fz (k + 1) j i) (I k j i) (I (k + 1) j i) = a5 at *
  generalize Spec.flux (s.fz k j i) (I (k - 1) j i) (I k j i) = a6 at *
  cases s.two <;> cases s.three <;>
    simp only [Bool.false_eq_true, if_false, if_true] <;> field_simp
  · linear_combination s.wght * hx
  · linear_combination s.wght * (hx + hz)
  · linear_combination s.wght * (hx + hy)
  · linear_combination s.wght * (hx + hy + hz)

/-- A step in three dimensions between moving cells with different speeds meets the hypotheses. -/
example : Step.Ok ⟨true, true, true, 1e-20, 0.5, fun _ _ _ => 2, fun _ _ i => ⟨1, 0.5, 1 + i, -1⟩,
    fun _ _ _ => ⟨3, -0.5, 0.1, -1⟩, fun _ _ _ => ⟨1, 0, 0, 0⟩, fun _ _ i => i, fun _ _ _ => 0,
    fun _ _ _ => 0⟩ := by
  intro k j i
  refine ⟨Or.inl ?_, Or.inl ?_, Or.inr ⟨rfl, rfl⟩⟩
  · have : (0 : ℝ) ≤ i := Nat.cast_nonneg i
    refine le_trans ?_ (le_abs_self _)
    norm_num
    linarith
  · refine le_trans ?_ (le_abs_self _)
    norm_num

theorem sum_tele (n : ℕ) (F : ℕ → ℝ) :
    ∑ i ∈ Finset.Ico 1 (n + 1), (F (i + 1) - F i) = F (n + 1) - F 1 :=
  Finset.sum_Ico_sub F (by omega)

/-- Fluxes between the cells of a block cancel. -/
theorem total_outflow (s : Step) (n1 n2 n3 : ℕ) (I : ℕ → ℕ → ℕ → ℝ) :
    total n1 n2 n3 (Spec.outflow s I) = Spec.boundary s n1 n2 n3 I := by
  unfold total Spec.outflow Spec.boundary
  simp only [← Finset.mul_sum]
  congr 1
  have hx : ∀ k j, ∑ i ∈ Finset.Ico 1 (n1 + 1),
      ((s.fx k j (i + 1)).area * (Spec.flux (s.fx k j (i + 1)) (I k j i) (I k j (i + 1)) +
        s.ax k j (i + 1)) -
      (s.fx k j i).area * (Spec.flux (s.fx k j i) (I k j (i - 1)) (I k j i) + s.ax k j i)) =
      (s.fx k j (n1 + 1)).area * (Spec.flux (s.fx k j (n1 + 1)) (I k j n1) (I k j (n1 + 1)) +
        s.ax k j (n1 + 1)) -
      (s.fx k j 1).area * (Spec.flux (s.fx k j 1) (I k j 0) (I k j 1) + s.ax k j 1) :=
    fun k j => sum_tele n1 fun i => (s.fx k j i).area *
      (Spec.flux (s.fx k j i) (I k j (i - 1)) (I k j i) + s.ax k j i)
  have hy : ∀ k i, ∑ j ∈ Finset.Ico 1 (n2 + 1),
      ((s.fy k (j + 1) i).area * (Spec.flux (s.fy k (j + 1) i) (I k j i) (I k (j + 1) i) +
        s.ay k (j + 1) i) -
      (s.fy k j i).area * (Spec.flux (s.fy k j i) (I k (j - 1) i) (I k j i) + s.ay k j i)) =
      (s.fy k (n2 + 1) i).area * (Spec.flux (s.fy k (n2 + 1) i) (I k n2 i) (I k (n2 + 1) i) +
        s.ay k (n2 + 1) i) -
      (s.fy k 1 i).area * (Spec.flux (s.fy k 1 i) (I k 0 i) (I k 1 i) + s.ay k 1 i) :=
    fun k i => sum_tele n2 fun j => (s.fy k j i).area *
      (Spec.flux (s.fy k j i) (I k (j - 1) i) (I k j i) + s.ay k j i)
  have hz : ∀ j i, ∑ k ∈ Finset.Ico 1 (n3 + 1),
      ((s.fz (k + 1) j i).area * (Spec.flux (s.fz (k + 1) j i) (I k j i) (I (k + 1) j i) +
        s.az (k + 1) j i) -
      (s.fz k j i).area * (Spec.flux (s.fz k j i) (I (k - 1) j i) (I k j i) + s.az k j i)) =
      (s.fz (n3 + 1) j i).area * (Spec.flux (s.fz (n3 + 1) j i) (I n3 j i) (I (n3 + 1) j i) +
        s.az (n3 + 1) j i) -
      (s.fz 1 j i).area * (Spec.flux (s.fz 1 j i) (I 0 j i) (I 1 j i) + s.az 1 j i) :=
    fun j i => sum_tele n3 fun k => (s.fz k j i).area *
      (Spec.flux (s.fz k j i) (I (k - 1) j i) (I k j i) + s.az k j i)
  simp only [Finset.sum_add_distrib, hx]
  congr 1
  · congr 1
    cases s.two
    · simp
    · simp only [if_true]
      apply Finset.sum_congr rfl
      intro k _
      rw [Finset.sum_comm]
      apply Finset.sum_congr rfl
      intro i _
      exact hy k i
  · cases s.three
    · simp
    · simp only [if_true]
      rw [Finset.sum_comm]
      apply Finset.sum_congr rfl
      intro j _
      rw [Finset.sum_comm]
      apply Finset.sum_congr rfl
      intro i _
      exact hz j i

/-- **C99.** Energy: once the iteration has converged, what the gas of a block gains is what the
radiation loses, less what leaves through the surface of the block. -/
theorem block_energy_partial {N : ℕ} (prat invred : ℝ) (w : Fin N → ℝ) (s : Fin N → Step)
    (vol : ℕ → ℕ → ℕ → ℝ) (hvol : ∀ n, (s n).vol = vol) (hv : ∀ k j i, vol k j i ≠ 0)
    (hs : ∀ n, (s n).Ok) (I0 I : Fin N → ℕ → ℕ → ℕ → ℝ) (n1 n2 n3 : ℕ) :
    total n1 n2 n3 (fun k j i => vol k j i * radSource prat invred w s I0 I I k j i) =
      -prat * invred * ∑ n, w n *
        (total n1 n2 n3 (fun k j i => vol k j i * (I n k j i - I0 n k j i)) +
          Spec.boundary (s n) n1 n2 n3 (I n)) := by
  have h1 : ∀ k j i, vol k j i * radSource prat invred w s I0 I I k j i =
      -prat * invred * ∑ n, w n * (vol k j i * (I n k j i - I0 n k j i) +
        Spec.outflow (s n) (I n) k j i) := by
    intro k j i
    have h2 : ∀ n, vol k j i * (I n k j i - I0 n k j i) + Spec.outflow (s n) (I n) k j i =
        vol k j i * (s n).given (I0 n) (I n) (I n) k j i := by
      intro n
      have := transport_partial (s n) (hs n) (I0 n) (I n) (k := k) (j := j) (i := i)
        (by rw [hvol]; exact hv k j i)
      rw [hvol] at this
      exact this.symm
    simp only [h2]
    unfold radSource Step.given
    rw [← Finset.sum_sub_distrib, Finset.mul_sum, Finset.sum_mul, Finset.mul_sum, Finset.mul_sum]
    apply Finset.sum_congr rfl
    intro n _
    ring
  simp only [h1]
  unfold total
  simp only [← Finset.mul_sum]
  congr 1
  have h3 : ∀ q : Fin N → ℕ → ℕ → ℕ → ℝ,
      ∑ k ∈ Finset.Ico 1 (n3 + 1), ∑ j ∈ Finset.Ico 1 (n2 + 1), ∑ i ∈ Finset.Ico 1 (n1 + 1),
        ∑ n, q n k j i = ∑ n, total n1 n2 n3 (q n) := by
    intro q
    unfold total
    symm
    rw [Finset.sum_comm]
    apply Finset.sum_congr rfl
    intro k _
    rw [Finset.sum_comm]
    apply Finset.sum_congr rfl
    intro j _
    rw [Finset.sum_comm]
  rw [h3]
  apply Finset.sum_congr rfl
  intro n _
  unfold total
  simp only [← Finset.mul_sum, Finset.sum_add_distrib]
  congr 2
  exact total_outflow (s n) n1 n2 n3 (I n)

/-! ### The flux -/

/-- **C99.** The flux of equal states on both sides is the exact one. -/
theorem flux_consistent (f : Face) (h : f.smax ≠ f.smin) (I : ℝ) : Spec.flux f I I = f.v * I := by
  unfold Spec.flux
  have : f.smax - f.smin ≠ 0 := sub_ne_zero.mpr h
  field_simp
  ring

/-- **C99.** The speeds enclose zero, as the flux needs. -/
theorem speeds_enclose (advFlag : Bool) {adv fl fr vel : ℝ} (hl : 0 ≤ fl) (hr : 0 ≤ fr) :
    (speeds advFlag adv fl fr vel).2 ≤ 0 ∧ 0 ≤ (speeds advFlag adv fl fr vel).1 := by
  have ha := abs_nonneg adv
  unfold speeds
  by_cases h : vel > 0
  · have h1 := mul_nonneg hl h.le
    have h2 := mul_nonneg hr h.le
    cases advFlag <;> simp only [h, if_true, Bool.false_eq_true, if_false] <;>
      constructor <;> linarith
  · have h0 : 0 ≤ -vel := by linarith [not_lt.mp h]
    have h1 := mul_nonneg hl h0
    have h2 := mul_nonneg hr h0
    cases advFlag <;> simp only [h, if_true, Bool.false_eq_true, if_false] <;>
      constructor <;> linarith

/-- **C99.** The factors lie between zero and one, so that no speed exceeds that of light. -/
theorem tau_factor_range (one : Bool) {lim tau : ℝ} (h0 : 0 ≤ lim) (h1 : lim ≤ 1) (ht : 0 ≤ tau)
    (fwd : Bool) : 0 ≤ tauFactor one lim tau fwd ∧ tauFactor one lim tau fwd ≤ 1 := by
  have hq : 0 ≤ tau * tau := mul_nonneg ht ht
  unfold tauFactor
  cases fwd <;> cases one <;> simp only [Bool.false_eq_true, if_false, if_true]
  · split
    · rename_i h
      exact ⟨by positivity, by rw [div_le_one (by linarith)]; linarith⟩
    · rename_i h
      exact ⟨ht, not_lt.mp h⟩
  · refine ⟨Real.sqrt_nonneg _, ?_⟩
    rw [Real.sqrt_le_one]
    split
    · rename_i h
      have hp : 0 < tau * tau := by linarith
      generalize tau * tau = t at *
      rw [div_le_one hp]
      have e1 := Real.add_one_le_exp (-t * t)
      have e2 := Real.exp_pos (-t * t)
      by_cases ht1 : t ≤ 1
      · nlinarith
      · linarith
    · rename_i h
      linarith [not_lt.mp h]
  · split
    · rename_i h
      exact ⟨by positivity, by rw [div_le_one (by linarith)]; linarith⟩
    · exact ⟨by norm_num, le_refl _⟩
  · refine ⟨Real.sqrt_nonneg _, ?_⟩
    rw [Real.sqrt_le_one]
    split
    · rename_i h
      have hp : 0 < tau * tau := by linarith
      rw [div_le_one hp]
      have e1 := Real.add_one_le_exp (-(tau * tau))
      linarith
    · linarith

example : (0 : ℝ) ≤ 1e-3 ∧ (1e-3 : ℝ) ≤ 1 ∧ (0 : ℝ) ≤ 5 := by norm_num

/-- The face seen by a direction `vel` between cells, with the optical depth `tau` and no
advection, for both values of `tau_flag_`. -/
noncomputable def still (one : Bool) (lim area vel tau : ℝ) : Face :=
  let s := speeds false 0 (tauFactor one lim tau false) (tauFactor one lim tau true) vel
  ⟨area, vel, s.1, s.2⟩

open Classical in
/-- **C99.** Without opacity the flux is the upwind one. -/
theorem vacuum_upwind (one : Bool) {lim : ℝ} (h0 : 0 ≤ lim) (area vel L R : ℝ) :
    Spec.flux (still one lim area vel 0) L R = vel * (if vel > 0 then L else R) := by
  have hf : tauFactor one lim 0 true = 1 := by
    unfold tauFactor
    cases one <;> simp [not_lt.mpr h0]
  have hb : tauFactor one lim 0 false = 0 := by
    unfold tauFactor
    cases one <;> simp [not_lt.mpr h0]
  unfold still
  rw [hf, hb]
  unfold Spec.flux speeds
  by_cases h : vel > 0
  · simp only [h, if_true, Bool.false_eq_true, if_false, abs_zero]
    have : vel ≠ 0 := h.ne'
    field_simp
    ring_nf
    field_simp
  · simp only [h, Bool.false_eq_true, if_false, abs_zero]
    by_cases h2 : vel = 0
    · simp [h2]
    · field_simp
      ring_nf
      field_simp

/-- **C99.** With a large opacity (`tau_flag_ == 2`) the numerical diffusion of the flux falls off
with the optical depth, so that the physical diffusion is not swamped. -/
theorem thick_flux (lim area vel L R : ℝ) {tau : ℝ} (ht : 1 < tau) :
    Spec.flux (still false lim area vel tau) L R =
      vel * (L + R) / 2 - |vel| / tau * (R - L) / 2 := by
  have hf : ∀ b, tauFactor false lim tau b = 1 / tau := by
    intro b
    unfold tauFactor
    cases b <;> simp [ht]
  have h0 : tau ≠ 0 := by linarith
  unfold still
  rw [hf, hf]
  unfold Spec.flux speeds
  by_cases h : vel > 0
  · simp only [h, if_true, Bool.false_eq_true, if_false, abs_zero, abs_of_pos h]
    have : vel ≠ 0 := h.ne'
    field_simp
    ring_nf
    field_simp
  · simp only [h, Bool.false_eq_true, if_false, abs_zero, abs_of_nonpos (not_lt.mp h)]
    by_cases h2 : vel = 0
    · simp [h2]
    · field_simp
      ring_nf
      field_simp

/-- **C99, finding F104.** With `adv_flag_ > 0` the implicit flux is meant to have the velocity
`vel - adv`, the rest `adv I` being explicit.  For a direction along the face (`vel == 0`) both speeds
are zero and the implicit flux vanishes whatever `adv` is, so the explicit flux is not balanced:
radiation in uniform gas, which should not cross the face at all, is carried along with the gas. -/
theorem along_face_carried (area adv fl fr tiny : ℝ) (ht : 0 < tiny) (L R : ℝ) (split : Bool) :
    let s := speeds true adv fl fr 0
    let f : Face := ⟨area, 0 - adv, s.1, s.2⟩
    f.area * (splitR split f).2 * f.inv tiny * L + f.area * (splitR split f).1 * f.inv tiny * L +
      coefR tiny f * R = 0 := by
  intro s f
  have hs : f.inv tiny = 0 := by
    unfold Face.inv
    have h1 : f.smax = 0 := by simp [f, s, speeds]
    have h2 : f.smin = 0 := by simp [f, s, speeds]
    rw [h1, h2]
    simp [ht]
  unfold coefR
  rw [hs]
  ring

/-! ### Angular fluxes -/

/-- **C99.** Fluxes in the polar angle only move radiation between directions, once converged, but for
what passes the two ends (nothing where `g` or the area is zero there). -/
theorem zeta_conserves_partial {N : ℕ} (hN : 0 < N) (c : ℝ) (g area vol I : ℕ → ℝ)
    (hv : ∀ n, vol n ≠ 0) :
    ∑ n ∈ Finset.range N, vol n * zetaTerm N c g area vol I I n =
      c * (g 0 * area 0) * I 0 - c * (g N * area N) * I (N - 1) := by
  have hstep : ∀ n, vol n * zetaTerm N c g area vol I I n =
      -((fun m => c * (g m * area m) * I (if m = N then N - 1 else m)) (n + 1) -
        (fun m => c * (g m * area m) * I (if m = N then N - 1 else m)) n) ∨ N ≤ n := by
    intro n
    by_cases hn : N ≤ n
    · exact Or.inr hn
    · left
      have := hv n
      unfold zetaTerm
      by_cases hl : n = N - 1
      · have e1 : n + 1 = N := by omega
        have e2 : n ≠ N := by omega
        simp only [hl, if_true]
        simp only [← hl, e1, e2, if_true, if_false]
        field_simp
        ring
      · have e1 : n + 1 ≠ N := by omega
        have e2 : n ≠ N := by omega
        simp only [hl, e1, e2, if_false]
        field_simp
        ring
  rw [Finset.sum_congr rfl fun n hn =>
    (hstep n).resolve_right (by have := Finset.mem_range.mp hn; omega)]
  rw [Finset.sum_neg_distrib,
    Finset.sum_range_sub fun m => c * (g m * area m) * I (if m = N then N - 1 else m)]
  simp only [if_true, Ne.symm hN.ne', if_false]
  ring

/-- Angles whose end fluxes vanish. -/
example (c : ℝ) (I : ℕ → ℝ) : ∑ n ∈ Finset.range 3,
    1 * zetaTerm 3 c (fun n => n * (3 - n)) (fun _ => 1) (fun _ => 1) I I n = 0 := by
  have := zeta_conserves_partial (N := 3) (by norm_num) c (fun n => n * (3 - n)) (fun _ => 1)
    (fun _ => 1) I (fun _ => one_ne_zero)
  rw [this]
  norm_num

/-- **C99.** The same for both angles, around the full circle of the second, if the sign of its
coefficient does not change within a cell. -/
theorem psi_conserves_partial {N M : ℕ} (hN : 0 < N) (hM : 1 < M) (c : ℝ) (gz : ℕ → ℝ)
    (gp : ℕ → ℕ → ℝ) (areaZ areaP vol I : ℕ → ℕ → ℝ) (hv : ∀ n m, vol n m ≠ 0)
    (hper : ∀ n, gp n 0 = gp n M ∧ areaP n 0 = areaP n M)
    (hsign : ∀ n m, m < M → 0 ≤ gp n m * gp n (m + 1)) :
    ∑ n ∈ Finset.range N, ∑ m ∈ Finset.range M,
      vol n m * psiTerm N M c gz gp areaZ areaP vol I I n m =
      ∑ m ∈ Finset.range M,
        (c * (gz 0 * areaZ m 0) * I 0 m - c * (gz N * areaZ m N) * I (N - 1) m) := by
  classical
  let Z : ℕ → ℕ → ℝ := fun m n => c * (gz n * areaZ m n) * I (if n = N then N - 1 else n) m
  let P : ℕ → ℕ → ℝ := fun n m => c * (gp n m * areaP n m) *
    I n (if gp n m < 0 then (if m = 0 then M - 1 else m - 1) else (if m = M then 0 else m))
  have hstep : ∀ n, n < N → ∀ m, m < M → vol n m * psiTerm N M c gz gp areaZ areaP vol I I n m =
      -(Z m (n + 1) - Z m n) - (P n (m + 1) - P n m) := by
    intro n hn m hm
    have hz : vol n m * ((c * gz n * areaZ m n / vol n m) * I n m +
        (-(c * gz (n + 1)) * areaZ m (n + 1) / vol n m) *
          (if n = N - 1 then I n m else I (n + 1) m)) = -(Z m (n + 1) - Z m n) := by
      have := hv n m
      have e2 : n ≠ N := by omega
      simp only [Z, e2, if_false]
      by_cases hl : n = N - 1
      · have e1 : n + 1 = N := by omega
        simp only [e1, if_true, ← hl]
        field_simp
        ring
      · have e1 : n + 1 ≠ N := by omega
        simp only [e1, if_false, if_neg hl]
        field_simp
        ring
    have hp : vol n m *
        ((if gp n m < 0 ∨ gp n (m + 1) < 0 then -(c * gp n (m + 1)) * areaP n (m + 1) / vol n m
          else if gp n m > 0 ∨ gp n (m + 1) > 0 then c * gp n m * areaP n m / vol n m else 0) *
            I n m +
          ((if gp n m < 0 ∨ gp n (m + 1) < 0 then c * gp n m * areaP n m / vol n m else 0) *
            I n (if m = 0 then M - 1 else m - 1) +
          (if gp n m < 0 ∨ gp n (m + 1) < 0 then 0
            else if gp n m > 0 ∨ gp n (m + 1) > 0 then
              -(c * gp n (m + 1)) * areaP n (m + 1) / vol n m else 0) *
            I n (if m = M - 1 then 0 else m + 1))) = -(P n (m + 1) - P n m) := by
      have hvv := hv n m
      have hs := hsign n m hm
      have e2 : m ≠ M := by omega
      have e4 : (if m + 1 = M then 0 else m + 1) = (if m = M - 1 then 0 else m + 1) := by
        by_cases h : m + 1 = M
        · rw [if_pos h, if_pos (by omega)]
        · rw [if_neg h, if_neg (by omega)]
      simp only [P, e2, e4, if_false, Nat.add_sub_cancel, Nat.succ_ne_zero]
      by_cases hneg : gp n m < 0 ∨ gp n (m + 1) < 0
      · simp only [if_pos hneg]
        have a1 : gp n m < 0 ∨ gp n m = 0 := by
          rcases hneg with h | h
          · exact Or.inl h
          · by_contra hc
            push Not at hc
            have : 0 < gp n m := lt_of_le_of_ne hc.1 (Ne.symm hc.2)
            nlinarith
        have a2 : gp n (m + 1) < 0 ∨ gp n (m + 1) = 0 := by
          rcases hneg with h | h
          · by_contra hc
            push Not at hc
            have : 0 < gp n (m + 1) := lt_of_le_of_ne hc.1 (Ne.symm hc.2)
            nlinarith
          · exact Or.inl h
        rcases a1 with a1 | a1 <;> rcases a2 with a2 | a2
        · simp only [if_pos a1, if_pos a2]; field_simp; ring
        · simp only [if_pos a1, a2]; field_simp; ring
        · simp only [a1, if_pos a2]; field_simp; ring
        · simp only [a1, a2]; ring
      · simp only [if_neg hneg]
        push Not at hneg
        simp only [if_neg (not_lt.mpr hneg.1), if_neg (not_lt.mpr hneg.2)]
        by_cases hpos : gp n m > 0 ∨ gp n (m + 1) > 0
        · simp only [if_pos hpos]; field_simp; ring
        · simp only [if_neg hpos]
          push Not at hpos
          have a1 : gp n m = 0 := le_antisymm hpos.1 hneg.1
          have a2 : gp n (m + 1) = 0 := le_antisymm hpos.2 hneg.2
          rw [a1, a2]; ring
    rw [sub_eq_add_neg, ← hz, ← hp]
    unfold psiTerm
    by_cases hl : n = N - 1
    · simp only [if_pos hl]; ring
    · simp only [if_neg hl]; ring
  rw [Finset.sum_congr rfl fun n hn => Finset.sum_congr rfl fun m hm =>
    hstep n (Finset.mem_range.mp hn) m (Finset.mem_range.mp hm)]
  simp only [Finset.sum_sub_distrib, Finset.sum_neg_distrib]
  have hP : ∀ n, ∑ m ∈ Finset.range M, P n (m + 1) - ∑ m ∈ Finset.range M, P n m = 0 := by
    intro n
    rw [← Finset.sum_sub_distrib, Finset.sum_range_sub]
    have e0 : M ≠ 0 := by omega
    simp only [P, ← (hper n).1, ← (hper n).2, e0, if_false, if_true, Ne.symm e0]
    ring
  have hZ : ∑ n ∈ Finset.range N, ∑ m ∈ Finset.range M, Z m (n + 1) -
      ∑ n ∈ Finset.range N, ∑ m ∈ Finset.range M, Z m n = ∑ m ∈ Finset.range M,
        c * (gz N * areaZ m N) * I (N - 1) m - ∑ m ∈ Finset.range M,
        c * (gz 0 * areaZ m 0) * I 0 m := by
    rw [← Finset.sum_sub_distrib, Finset.sum_range_sub fun n => ∑ m ∈ Finset.range M, Z m n]
    simp only [Z, if_true, Ne.symm hN.ne', if_false]
  have hP2 : ∑ n ∈ Finset.range N, ∑ m ∈ Finset.range M, P n (m + 1) -
      ∑ n ∈ Finset.range N, ∑ m ∈ Finset.range M, P n m = 0 := by
    rw [← Finset.sum_sub_distrib]
    exact Finset.sum_eq_zero fun n _ => hP n
  linarith

/-- A coefficient that is positive on one half of the circle and negative on the other. -/
example : let g : ℕ → ℝ := fun m => if m = 1 then 1 else if m = 3 then -1 else 0
    g 0 = g 4 ∧ ∀ m, m < 4 → 0 ≤ g m * g (m + 1) := by
  intro g
  refine ⟨by simp [g], ?_⟩
  intro m hm
  interval_cases m <;> simp [g]

/-- **C99.** The hypothesis on the sign is needed: a cell with faces of opposite signs takes its left
neighbour's radiation where that neighbour counts on the cell's own. -/
theorem psi_sign_needed :
    let gp : ℕ → ℕ → ℝ := fun _ m => if m = 1 then 1 else if m = 2 then -1 else 0
    let I : ℕ → ℕ → ℝ := fun _ m => m
    ∑ n ∈ Finset.range 1, ∑ m ∈ Finset.range 3,
      1 * psiTerm 1 3 1 (fun _ => 0) gp (fun _ _ => 1) (fun _ _ => 1) (fun _ _ => 1) I I n m ≠ 0 := by
  intro gp I
  simp [Finset.sum_range_succ, psiTerm, gp, I]

end Verif.RadTransport
