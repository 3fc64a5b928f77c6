import Verif.Model.RadAngular
import Mathlib.Tactic
import Mathlib.Algebra.BigOperators.Intervals

/-!
C102: explicit angular fluxes of radiation.
-/

namespace Verif.RadAngular

open scoped BigOperators

/-- **C102.** Angular fluxes move radiation between angles only: if no floor acts and the end areas
vanish (`cos zeta = 1` and `-1`), the sum over angles is kept, whatever states the reconstruction
gives. -/
theorem zeta_conserves (tiny wght c : ℝ) (g ql qr old cz I : ℕ → ℝ) (N : ℕ) (h0 : cz 0 = 1)
    (hN : cz N = -1) (hlen : ∀ n, n < N → cz (n + 1) < cz n)
    (hfl : ∀ n, n < N → tiny ≤ I n - wght * (zetaArea cz (n + 1) * zetaFlux c g ql qr old (n + 1) -
      zetaArea cz n * zetaFlux c g ql qr old n) / lenZeta cz n) :
    ∑ n ∈ Finset.range N, lenZeta cz n *
      zetaUpdate tiny wght (zetaArea cz) (lenZeta cz) (zetaFlux c g ql qr old) I n =
    ∑ n ∈ Finset.range N, lenZeta cz n * I n := by
  have hs : ∀ n ∈ Finset.range N, lenZeta cz n *
      zetaUpdate tiny wght (zetaArea cz) (lenZeta cz) (zetaFlux c g ql qr old) I n =
      lenZeta cz n * I n - (wght * (zetaArea cz (n + 1) * zetaFlux c g ql qr old (n + 1)) -
        wght * (zetaArea cz n * zetaFlux c g ql qr old n)) := by
    intro n hn
    have hn' := Finset.mem_range.mp hn
    have hl : lenZeta cz n ≠ 0 := by
      have := hlen n hn'
      unfold lenZeta
      linarith
    unfold zetaUpdate
    rw [max_eq_left (hfl n hn')]
    field_simp
  rw [Finset.sum_congr rfl hs, Finset.sum_sub_distrib,
    Finset.sum_range_sub fun n => wght * (zetaArea cz n * zetaFlux c g ql qr old n)]
  have a0 : zetaArea cz 0 = 0 := by unfold zetaArea; rw [h0]; ring
  have aN : zetaArea cz N = 0 := by unfold zetaArea; rw [hN]; ring
  rw [a0, aN]
  ring

/-- Two angles, pointing up and down, meet the hypotheses on the faces. -/
example : let cz : ℕ → ℝ := fun n => 1 - n
    cz 0 = 1 ∧ cz 2 = -1 ∧ ∀ n, n < 2 → cz (n + 1) < cz n := by
  norm_num

/-- **C102.** With first-order states and a time step that takes from an angle no more than it holds,
radiation stays non-negative without help from the floor: the new intensity is a mean of old ones,
plus what enters. -/
theorem zeta_positive (wght c : ℝ) (hw : 0 ≤ wght * c) (g cz I : ℕ → ℝ) (N : ℕ) (hg : ∀ n, 0 < g n)
    (hI : ∀ n, 0 ≤ I n) (hcz : ∀ n, cz n * cz n ≤ 1) {n : ℕ} (hn : n < N)
    (hlen : cz (n + 1) < cz n) (old : ℕ → ℝ)
    (hstep : wght * c * (zetaArea cz n * g n) ≤ lenZeta cz n) :
    0 ≤ I n - wght * (zetaArea cz (n + 1) *
        zetaFlux c g (donorL I) (donorR N I) old (n + 1) -
      zetaArea cz n * zetaFlux c g (donorL I) (donorR N I) old n) / lenZeta cz n := by
  have hl : 0 < lenZeta cz n := by unfold lenZeta; linarith
  have f1 : zetaFlux c g (donorL I) (donorR N I) old (n + 1) =
      -c * donorR N I (n + 1) * g (n + 1) := by
    unfold zetaFlux faceFlux
    rw [if_pos (hg _)]
    rfl
  have f0 : zetaFlux c g (donorL I) (donorR N I) old n = -c * I n * g n := by
    unfold zetaFlux faceFlux donorR
    rw [if_pos (hg _), if_neg (by omega)]
    rfl
  rw [f1, f0]
  have hJ : 0 ≤ donorR N I (n + 1) := by
    unfold donorR
    split_ifs
    · exact hI _
    · exact hI _
  generalize donorR N I (n + 1) = J at hJ ⊢
  have ha : 0 ≤ zetaArea cz (n + 1) := by unfold zetaArea; linarith [hcz (n + 1)]
  have e : I n - wght * (zetaArea cz (n + 1) * (-c * J * g (n + 1)) -
      zetaArea cz n * (-c * I n * g n)) / lenZeta cz n =
      (I n * (lenZeta cz n - wght * c * (zetaArea cz n * g n)) +
        wght * c * (zetaArea cz (n + 1) * g (n + 1) * J)) / lenZeta cz n := by
    field_simp
    ring
  rw [e]
  apply div_nonneg _ hl.le
  apply add_nonneg
  · exact mul_nonneg (hI n) (by linarith)
  · exact mul_nonneg hw (mul_nonneg (mul_nonneg ha (hg _).le) hJ)

/-- Two angles and a step of one half meet the bound on the step. -/
example : let cz : ℕ → ℝ := fun n => 1 - n
    (1 / 2 : ℝ) * 1 * (zetaArea cz 1 * 1) ≤ lenZeta cz 1 := by
  norm_num [zetaArea, lenZeta]

/-- **C102, finding F108.** Outside spherical polar coordinates the geometric factor is one, not zero:
with `angle_flag == 1` uniform isotropic radiation, which should stay as it is, is changed in every
angle off the equator. -/
theorem flat_space_rotates {tiny wght c i0 : ℝ} (hw : wght * c * i0 ≠ 0) (N : ℕ) (cz old : ℕ → ℝ) {n : ℕ}
    (hlen : cz (n + 1) < cz n) (hmu : cz n + cz (n + 1) ≠ 0) (hi : tiny < i0) :
    zetaUpdate tiny wght (zetaArea cz) (lenZeta cz)
      (zetaFlux c geomFlat (donorL fun _ => i0) (donorR N fun _ => i0) old) (fun _ => i0) n ≠ i0 := by
  have hl : lenZeta cz n ≠ 0 := by unfold lenZeta; linarith
  have f : ∀ m, zetaFlux c geomFlat (donorL fun _ => i0) (donorR N fun _ => i0) old m = -c * i0 := by
    intro m
    unfold zetaFlux faceFlux geomFlat donorR
    rw [if_pos (by norm_num)]
    simp
  unfold zetaUpdate
  rw [f, f]
  have e : i0 - wght * (zetaArea cz (n + 1) * (-c * i0) - zetaArea cz n * (-c * i0)) / lenZeta cz n =
      i0 + wght * c * i0 * (cz n + cz (n + 1)) := by
    have : wght * (zetaArea cz (n + 1) * (-c * i0) - zetaArea cz n * (-c * i0)) =
        -(wght * c * i0 * (cz n + cz (n + 1))) * lenZeta cz n := by
      unfold zetaArea lenZeta
      ring
    rw [this, mul_div_assoc, div_self hl]
    ring
  rw [e]
  have hne : wght * c * i0 * (cz n + cz (n + 1)) ≠ 0 := mul_ne_zero hw hmu
  intro hc
  rcases max_choice (i0 + wght * c * i0 * (cz n + cz (n + 1))) tiny with h | h
  · rw [h] at hc
    exact hne (by linarith)
  · rw [h] at hc
    linarith

/-- Angular part of the divergence for uniform isotropic radiation in spherical coordinates. -/
theorem spherical_angular {c i0 r1 r2 : ℝ} (hr : 0 < x1v r1 r2) (N : ℕ) (cz old : ℕ → ℝ) {n : ℕ}
    (hlen : cz (n + 1) < cz n) :
    (zetaArea cz (n + 1) * zetaFlux c (geomSpherical r1 r2) (donorL fun _ => i0)
        (donorR N fun _ => i0) old (n + 1) -
      zetaArea cz n * zetaFlux c (geomSpherical r1 r2) (donorL fun _ => i0)
        (donorR N fun _ => i0) old n) / lenZeta cz n =
      -(c * i0 * (cz n + cz (n + 1)) / x1v r1 r2) := by
  have hl : lenZeta cz n ≠ 0 := by unfold lenZeta; linarith
  have f : ∀ m, zetaFlux c (geomSpherical r1 r2) (donorL fun _ => i0) (donorR N fun _ => i0) old m =
      -c * i0 * (1 / x1v r1 r2) := by
    intro m
    unfold zetaFlux faceFlux geomSpherical donorR
    rw [if_pos (by positivity)]
    simp
  rw [f, f]
  have : zetaArea cz (n + 1) * (-c * i0 * (1 / x1v r1 r2)) -
      zetaArea cz n * (-c * i0 * (1 / x1v r1 r2)) =
      -(c * i0 * (cz n + cz (n + 1)) / x1v r1 r2) * lenZeta cz n := by
    unfold zetaArea lenZeta
    field_simp
    ring
  rw [this, mul_div_assoc, div_self hl, mul_one]

/-- The factor on the cosines exceeds one. -/
theorem normalization_gt_one {nzeta : ℕ} (h : 1 ≤ nzeta) : 1 < normalization nzeta := by
  have h' : (1 : ℝ) ≤ nzeta := by exact_mod_cast h
  have hp : 0 < 4 * (nzeta : ℝ) * nzeta - 1 := by nlinarith
  unfold normalization
  rw [lt_div_iff₀ (Real.sqrt_pos.mpr hp), one_mul, Real.sqrt_lt' (by linarith)]
  nlinarith

/-- **C102, finding F109.** In spherical polar coordinates the radial and the angular divergence of
uniform isotropic radiation should cancel.  They do up to two factors: the ratio of the two ways of
averaging `1/r`, between one and nine eighths, and the normalisation of the cosines.  Both exceed one,
so isotropic radiation is never quite at rest: outward directions lose. -/
theorem isotropic_residual {c i0 r1 r2 : ℝ} (hc : 0 < c) (hi : 0 < i0) (h1 : 0 ≤ r1) (h2 : r1 < r2)
    {nzeta : ℕ} (hz : 1 ≤ nzeta) (N : ℕ) (cz old : ℕ → ℝ) {n : ℕ} (hlen : cz (n + 1) < cz n)
    (hmu : 0 < cz n + cz (n + 1)) :
    ∃ q, 1 < q ∧ q ≤ 9 / 8 ∧
      radialDiv c (cosCentre (normalization nzeta) cz n) i0 r1 r2 +
        (zetaArea cz (n + 1) * zetaFlux c (geomSpherical r1 r2) (donorL fun _ => i0)
          (donorR N fun _ => i0) old (n + 1) -
        zetaArea cz n * zetaFlux c (geomSpherical r1 r2) (donorL fun _ => i0)
          (donorR N fun _ => i0) old n) / lenZeta cz n =
      c * i0 * (cz n + cz (n + 1)) / x1v r1 r2 * (q * normalization nzeta - 1) ∧
      0 < c * i0 * (cz n + cz (n + 1)) / x1v r1 r2 * (q * normalization nzeta - 1) := by
  have h3 : 0 < r2 ^ 3 - r1 ^ 3 := by
    have := pow_lt_pow_left₀ h2 h1 (by norm_num : (3 : ℕ) ≠ 0)
    linarith
  have h4 : 0 < r2 ^ 4 - r1 ^ 4 := by
    have := pow_lt_pow_left₀ h2 h1 (by norm_num : (4 : ℕ) ≠ 0)
    linarith
  have hx : 0 < x1v r1 r2 := by unfold x1v; positivity
  have hd : 0 < r2 - r1 := by linarith
  refine ⟨9 * (r2 ^ 2 - r1 ^ 2) * (r2 ^ 4 - r1 ^ 4) / (8 * (r2 ^ 3 - r1 ^ 3) ^ 2), ?_, ?_, ?_, ?_⟩
  · rw [lt_div_iff₀ (by positivity)]
    have e : 9 * (r2 ^ 2 - r1 ^ 2) * (r2 ^ 4 - r1 ^ 4) - 1 * (8 * (r2 ^ 3 - r1 ^ 3) ^ 2) =
        (r2 - r1) ^ 4 * (r2 ^ 2 + 4 * r1 * r2 + r1 ^ 2) := by ring
    have : 0 < (r2 - r1) ^ 4 * (r2 ^ 2 + 4 * r1 * r2 + r1 ^ 2) := by
      have : 0 < r2 := by linarith
      positivity
    linarith
  · rw [div_le_div_iff₀ (by positivity) (by norm_num)]
    have e : 9 * (8 * (r2 ^ 3 - r1 ^ 3) ^ 2) - 9 * (r2 ^ 2 - r1 ^ 2) * (r2 ^ 4 - r1 ^ 4) * 8 =
        72 * (r1 ^ 2 * r2 ^ 2 * (r2 - r1) ^ 2) := by ring
    have : 0 ≤ 72 * (r1 ^ 2 * r2 ^ 2 * (r2 - r1) ^ 2) := by positivity
    linarith
  · rw [spherical_angular hx N cz old hlen]
    unfold radialDiv cosCentre x1v
    field_simp
    ring
  · have hq : 1 < 9 * (r2 ^ 2 - r1 ^ 2) * (r2 ^ 4 - r1 ^ 4) / (8 * (r2 ^ 3 - r1 ^ 3) ^ 2) := by
      rw [lt_div_iff₀ (by positivity)]
      have e : 9 * (r2 ^ 2 - r1 ^ 2) * (r2 ^ 4 - r1 ^ 4) - 1 * (8 * (r2 ^ 3 - r1 ^ 3) ^ 2) =
          (r2 - r1) ^ 4 * (r2 ^ 2 + 4 * r1 * r2 + r1 ^ 2) := by ring
      have : 0 < (r2 - r1) ^ 4 * (r2 ^ 2 + 4 * r1 * r2 + r1 ^ 2) := by
        have : 0 < r2 := by linarith
        positivity
      linarith
    apply mul_pos
    · positivity
    · nlinarith [normalization_gt_one hz]

/-- The unit shell and the upper of two angles meet the hypotheses. -/
example : let cz : ℕ → ℝ := fun n => 1 - n
    (0 : ℝ) ≤ 1 ∧ (1 : ℝ) < 2 ∧ 1 ≤ 1 ∧ cz 1 < cz 0 ∧ 0 < cz 0 + cz 1 := by
  norm_num

/-! ### The second angle -/

/-- A write leaves alone the slots where rows meet if nothing crosses the ends of a row. -/
theorem write_ends {M : ℕ} {c : ℝ} {g ql qr : ℕ → ℕ → ℝ} {n m : ℕ} (hm : m ≤ M)
    (h0 : g n 0 = 0) (hM : g n M = 0) (a : ℕ → ℝ) (j : ℕ) :
    psiWrite M c g ql qr n m a (j * M) = a (j * M) := by
  unfold psiWrite
  by_cases hg : g n m = 0
  · have : faceFlux c (g n m) (ql n m) (qr n m) = none := by
      unfold faceFlux
      simp [hg]
    rw [this]
  · have hm0 : m ≠ 0 := fun h => hg (by rw [h, h0])
    have hmM : m ≠ M := fun h => hg (by rw [h, hM])
    have hne : j * M ≠ n * M + m := by
      intro h
      have hd : (n * M + m) % M = m := by
        rw [Nat.mul_comm, Nat.mul_add_mod, Nat.mod_eq_of_lt (by omega)]
      rw [← h, Nat.mul_mod_left] at hd
      omega
    cases faceFlux c (g n m) (ql n m) (qr n m) with
    | none => rfl
    | some f => exact Function.update_of_ne hne _ _

theorem fill_ends {N M : ℕ} {c : ℝ} {g ql qr : ℕ → ℕ → ℝ} (h0 : ∀ n, g n 0 = 0)
    (hM : ∀ n, g n M = 0) (old : ℕ → ℝ) (j : ℕ) :
    psiFill N M c g ql qr old (j * M) = old (j * M) := by
  unfold psiFill
  have inner : ∀ (l : List ℕ) (n : ℕ) (a : ℕ → ℝ), (∀ m ∈ l, m ≤ M) →
      (l.foldl (fun a m => psiWrite M c g ql qr n m a) a) (j * M) = a (j * M) := by
    intro l
    induction l with
    | nil => intro n a _; rfl
    | cons m l ih =>
      intro n a hl
      rw [List.foldl_cons, ih n _ fun k hk => hl k (List.mem_cons_of_mem _ hk)]
      exact write_ends (hl m List.mem_cons_self) (h0 n) (hM n) a j
  generalize List.range N = l
  induction l generalizing old with
  | nil => rfl
  | cons n l ih =>
    rw [List.foldl_cons, ih]
    exact inner _ n old fun m hm => by have := List.mem_range.mp hm; omega

/-- **C102.** The fluxes in the second angle keep the sum over each row, if the geometric factor
vanishes at both ends of the row (spherical polar coordinates, where it goes with `sin psi`) and the
array was zero there. -/
theorem psi_conserves_partial {N M : ℕ} (c : ℝ) (g ql qr area : ℕ → ℕ → ℝ) (h0 : ∀ n, g n 0 = 0)
    (hM : ∀ n, g n M = 0) (old : ℕ → ℝ) (hold : ∀ j, old (j * M) = 0) (n : ℕ) :
    ∑ m ∈ Finset.range M, psiDiv M area (psiFill N M c g ql qr old) n m = 0 := by
  unfold psiDiv
  rw [Finset.sum_range_sub fun m => area n m * psiFill N M c g ql qr old (n * M + m)]
  have e1 := fill_ends (N := N) (c := c) (ql := ql) (qr := qr) h0 hM old (n + 1)
  have e0 := fill_ends (N := N) (c := c) (ql := ql) (qr := qr) h0 hM old n
  rw [Nat.add_mul, Nat.one_mul] at e1
  simp only [Nat.add_zero]
  rw [e1, e0, ← Nat.succ_mul, hold, hold]
  ring

/-- A factor like `sin psi` on four faces meets the hypotheses. -/
example : let g : ℕ → ℕ → ℝ := fun _ m => if m = 1 then 1 else if m = 3 then -1 else 0
    (∀ n, g n 0 = 0) ∧ ∀ n, g n 4 = 0 := by
  simp

/-- **C102, finding F110.** Elsewhere the factor is one, and the last face of a row shares its slot with
the first face of the next: the sum over a row is not kept, though both ends of the row are the same
face of the circle. -/
theorem shared_slot :
    let I : ℕ → ℕ → ℝ := fun n _ => n
    let q : ℕ → ℕ → ℝ := fun n m => I n (m % 2)
    ∑ m ∈ Finset.range 2, psiDiv 2 (fun _ _ => 1) (psiFill 2 2 1 (fun _ _ => 1) q q fun _ => 0) 0 m
      ≠ 0 := by
  intro I q
  simp [Finset.sum_range_succ, psiDiv, psiFill, psiWrite, faceFlux, List.range_succ, Function.update, I, q]

end Verif.RadAngular
