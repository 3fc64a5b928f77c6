import Verif.Lemmas.RadAngles
import Mathlib.LinearAlgebra.Matrix.NonsingularInverse
import Mathlib.LinearAlgebra.Matrix.Notation

/-!
# C83: the angular grids integrate isotropic radiation exactly

For isotropic intensity the quadratures give energy density one, no flux and an isotropic
pressure tensor.  Which grids do so, for every number of angles, and which do not.
-/

namespace Verif.Rad

open Verif.Rad.Spec

/-! ### `angle_flag = 0` -/

/-- The first family weights exist for the numbers of levels the code can handle: the matrix
of families is invertible. -/
theorem families_invertible (nmu : ℕ) (h2 : 2 ≤ nmu) (h6 : nmu ≤ 6) :
    (Matrix.of fun i p : Fin (nmu - 1) => (pmat nmu i p : ℚ)).det ≠ 0 := by
  interval_cases nmu
  · decide +kernel
  · decide +kernel
  · decide +kernel
  · decide +kernel
  · decide +kernel

/-- Every angle of the grid reads a weight that exists, for two to six levels. -/
theorem labels_in_range (nmu : ℕ) (h2 : 2 ≤ nmu) (h6 : nmu ≤ 6) :
    ∀ e ∈ labels nmu, e.2 < nmu - 1 := by
  interval_cases nmu <;> decide +kernel

/-- With seven levels or more some angle reads `wpf` past its end (`nmu-1` entries): there are
more families of permutations than equations. -/
theorem labels_out_of_range (nmu : ℕ) (h7 : 7 ≤ nmu) : ∃ e ∈ labels nmu, nmu - 1 ≤ e.2 := by
  by_contra hc
  push Not at hc
  let m := nmu - 1
  let rep : Fin nmu → Tri := fun q =>
    if q.1 ≤ m / 2 then (0, q.1, m - q.1)
    else if q.1 < m then (1, q.1 - m / 2, m - 1 - (q.1 - m / 2)) else (2, 2, m - 4)
  have hm : ∀ q, rep q ∈ triples nmu := by
    intro q
    have hq := q.2
    rw [mem_triples (by omega)]
    simp only [rep]
    split_ifs <;> dsimp only <;> omega
  have hinj : ∀ q q', sameFam (rep q) (rep q') = true → q = q' := by
    intro q q' hh
    have hq := q.2
    have hq' := q'.2
    apply Fin.ext
    rw [sameFam_iff] at hh
    simp only [rep] at hh
    split_ifs at hh <;> dsimp only at hh <;> omega
  let f : Fin nmu → Fin (nmu - 1) := fun q => ⟨lab nmu (rep q), hc _ (lab_mem (hm q))⟩
  have hf : Function.Injective f := by
    intro q q' hh
    refine hinj q q' ?_
    rw [label_iff (lab_mem (hm q)) (lab_mem (hm q'))]
    exact Fin.mk.inj_iff.mp hh
  have := Fintype.card_le_of_injective f hf
  simp only [Fintype.card_fin] at this
  omega

/-- With nine levels or more the table of families itself (`nmu` rows) overflows. -/
theorem table_overflow (nmu : ℕ) (h9 : 9 ≤ nmu) : ∃ e ∈ labels nmu, nmu ≤ e.2 := by
  by_contra hc
  push Not at hc
  let m := nmu - 1
  let rep : Fin (nmu + 1) → Tri := fun q =>
    if q.1 ≤ m / 2 then (0, q.1, m - q.1)
    else if q.1 < m then (1, q.1 - m / 2, m - 1 - (q.1 - m / 2))
    else if q.1 = m then (2, 2, m - 4) else (2, 3, m - 5)
  have hm : ∀ q, rep q ∈ triples nmu := by
    intro q
    have hq := q.2
    rw [mem_triples (by omega)]
    simp only [rep]
    split_ifs <;> dsimp only <;> omega
  have hinj : ∀ q q', sameFam (rep q) (rep q') = true → q = q' := by
    intro q q' hh
    have hq := q.2
    have hq' := q'.2
    apply Fin.ext
    rw [sameFam_iff] at hh
    simp only [rep] at hh
    split_ifs at hh <;> dsimp only at hh <;> omega
  let f : Fin (nmu + 1) → Fin nmu := fun q => ⟨lab nmu (rep q), hc _ (lab_mem (hm q))⟩
  have hf : Function.Injective f := by
    intro q q' hh
    refine hinj q q' ?_
    rw [label_iff (lab_mem (hm q)) (lab_mem (hm q'))]
    exact Fin.mk.inj_iff.mp hh
  have := Fintype.card_le_of_injective f hf
  simp only [Fintype.card_fin] at this
  omega

/-- All directions of the level symmetric grid are unit vectors. -/
theorem level_unit (nmu : ℕ) (h : 1 ≤ nmu) (wpf : ℕ → ℝ) : Unit (grid3 nmu wpf) := by
  intro r hr
  simp only [grid3, List.mem_flatMap, List.mem_map] at hr
  obtain ⟨o, _, e, he, rfl⟩ := hr
  have hsq : ∀ b v, sgn b v * sgn b v = v * v := by
    intro b v; unfold sgn; split_ifs <;> ring
  have ht : e.1 ∈ triples nmu := by
    have : e.1 ∈ (labels nmu).map Prod.fst := List.mem_map_of_mem he
    rwa [labels, families_fst] at this
  rw [mem_triples h] at ht
  simp only [hsq, mutmp]
  rw [Real.mul_self_sqrt (mu2_pos h _).le, Real.mul_self_sqrt (mu2_pos h _).le,
    Real.mul_self_sqrt (mu2_pos h _).le]
  linarith [mu2_sum h ht]

/-- The three dimensional grid of two to six levels is isotropic.  `wpf` is what the linear
solve returns: a solution of the equations of the first `nmu-1` levels. -/
theorem level_isotropic (nmu : ℕ) (h2 : 2 ≤ nmu) (h6 : nmu ≤ 6) (wpf : ℕ → ℝ)
    (hs : ∀ i < nmu - 1, ∑ p ∈ Finset.range (nmu - 1), (pmat nmu i p : ℝ) * wpf p = wtmp nmu i) :
    Isotropic (grid3 nmu wpf) := by
  have h1 : 1 ≤ nmu := by omega
  obtain ⟨hA, hB⟩ := level_moment h2 wpf (labels_in_range nmu h2 h6) hs
  have hy := moment_y h1 wpf (mu2 nmu)
  have hz := moment_z h1 wpf (mu2 nmu)
  have sq : ∀ i, √(mu2 nmu i) * √(mu2 nmu i) = mu2 nmu i := fun i =>
    Real.mul_self_sqrt (mu2_pos h1 i).le
  have red : ∀ (f : Ray → ℝ) (g : Tri × ℕ → ℝ),
      (∀ e, (octants.map fun o => wpf e.2 * 0.125 * f
        { x := sgn o.2.2 (mutmp nmu e.1).1, y := sgn o.2.1 (mutmp nmu e.1).2.1,
          z := sgn o.1 (mutmp nmu e.1).2.2, w := wpf e.2 * 0.125 }).sum = g e) →
      quad (grid3 nmu wpf) f = ((labels nmu).map g).sum := by
    intro f g hg
    rw [grid3, quad_flatMap]
    congr 1
    exact List.map_congr_left fun e _ => hg e
  have zero : ((labels nmu).map fun _ => (0:ℝ)).sum = 0 := by simp
  refine ⟨?_, ?_, ?_, ?_, ?_, ?_, ?_, ?_, ?_, ?_⟩
  · rw [red _ (fun e => wpf e.2), hB]
    intro e; simp [octants_eq]; ring
  · rw [red _ (fun e => 0), zero]; intro e; simp [octants_eq, sgn]
  · rw [red _ (fun e => 0), zero]; intro e; simp [octants_eq, sgn]
  · rw [red _ (fun e => 0), zero]; intro e; simp [octants_eq, sgn]
  · rw [red _ (fun e => wpf e.2 * mu2 nmu e.1.2.1), hy, hA]
    intro e
    simp only [octants_eq, sgn, mutmp, List.map_cons, List.map_nil, List.sum_cons, List.sum_nil]
    simp [sq]; ring
  · rw [red _ (fun e => wpf e.2 * mu2 nmu e.1.2.2), hz, hA]
    intro e
    simp only [octants_eq, sgn, mutmp, List.map_cons, List.map_nil, List.sum_cons, List.sum_nil]
    simp [sq]; ring
  · rw [red _ (fun e => wpf e.2 * mu2 nmu e.1.1), hA]
    intro e
    simp only [octants_eq, sgn, mutmp, List.map_cons, List.map_nil, List.sum_cons, List.sum_nil]
    simp [sq]; ring
  · rw [red _ (fun e => 0), zero]; intro e; simp [octants_eq, sgn]
  · rw [red _ (fun e => 0), zero]; intro e; simp [octants_eq, sgn]
  · rw [red _ (fun e => 0), zero]; intro e; simp [octants_eq, sgn]

/-- The two dimensional grid of two to six levels is isotropic in the plane, with a third of
the energy in each pressure: the third direction is kept in the norm. -/
theorem level_isotropic_plane (nmu : ℕ) (h2 : 2 ≤ nmu) (h6 : nmu ≤ 6) (wpf : ℕ → ℝ)
    (hs : ∀ i < nmu - 1, ∑ p ∈ Finset.range (nmu - 1), (pmat nmu i p : ℝ) * wpf p = wtmp nmu i) :
    IsotropicPlane (grid2 nmu wpf) := by
  have h1 : 1 ≤ nmu := by omega
  obtain ⟨hA, hB⟩ := level_moment h2 wpf (labels_in_range nmu h2 h6) hs
  have hy := moment_y h1 wpf (mu2 nmu)
  have hz := moment_z h1 wpf (mu2 nmu)
  have sq : ∀ i, √(mu2 nmu i) * √(mu2 nmu i) = mu2 nmu i := fun i =>
    Real.mul_self_sqrt (mu2_pos h1 i).le
  have red : ∀ (f : Ray → ℝ) (g : Tri × ℕ → ℝ),
      (∀ e, (quadrants.map fun o => wpf e.2 * 0.25 * f
        { x := sgn o.2 (mutmp nmu e.1).1, y := sgn o.1 (mutmp nmu e.1).2.1,
          z := 0, w := wpf e.2 * 0.25 }).sum = g e) →
      quad (grid2 nmu wpf) f = ((labels nmu).map g).sum := by
    intro f g hg
    rw [grid2, quad_flatMap]
    congr 1
    exact List.map_congr_left fun e _ => hg e
  have zero : ((labels nmu).map fun _ => (0:ℝ)).sum = 0 := by simp
  refine ⟨?_, ?_, ?_, ?_, ?_, ?_⟩
  · rw [red _ (fun e => wpf e.2), hB]
    intro e; simp [quadrants_eq]; ring
  · rw [red _ (fun e => 0), zero]; intro e; simp [quadrants_eq, sgn]
  · rw [red _ (fun e => 0), zero]; intro e; simp [quadrants_eq, sgn]
  · rw [red _ (fun e => wpf e.2 * mu2 nmu e.1.2.1), hy, hA]
    intro e
    simp only [quadrants_eq, sgn, mutmp, List.map_cons, List.map_nil, List.sum_cons, List.sum_nil]
    simp [sq]; ring
  · rw [red _ (fun e => wpf e.2 * mu2 nmu e.1.2.2), hz, hA]
    intro e
    simp only [quadrants_eq, sgn, mutmp, List.map_cons, List.map_nil, List.sum_cons, List.sum_nil]
    simp [sq]; ring
  · rw [red _ (fun e => 0), zero]; intro e; simp [quadrants_eq, sgn]

/-- Two levels: one family of three angles per octant, weight `wtmp(0)/2`. -/
example : Isotropic (grid3 2 fun _ => wtmp 2 0 / 2) := by
  refine level_isotropic 2 le_rfl (by norm_num) _ ?_
  intro i hi
  obtain rfl : i = 0 := by omega
  have : pmat 2 0 0 = 2 := by decide
  simp [this]; ring

/-- The numbers of directions: `nmu(nmu+1)/2` in each octant. -/
example : (labels 3).length = 6 ∧ (famTable 3).length = 2 := by decide

/-! ### `angle_flag = 10` -/

/-- The grid of `angle_flag = 10` is isotropic in the plane. -/
theorem ten_isotropic_plane (nmu : ℕ) (h : 1 ≤ nmu) : IsotropicPlane (grid10 nmu) := by
  have hn : (nmu : ℝ) ≠ 0 := by positivity
  have hs2 : √(2:ℝ) * √2 = 2 := Real.mul_self_sqrt (by norm_num)
  have hs3 : √(3:ℝ) * √3 = 3 := Real.mul_self_sqrt (by norm_num)
  have h3 : √(3:ℝ) ≠ 0 := by positivity
  have hq : √(2:ℝ) / √3 * (√2 / √3) = 2 / 3 := by
    field_simp; nlinarith
  have hcos : ∑ i ∈ Finset.range nmu, Real.cos (2 * phi10 nmu i) = 0 := by
    have e0 : ∀ i : ℕ, 2 * phi10 nmu i = (2 * i + 1) * (Real.pi / ((2 * nmu : ℕ) : ℝ)) := by
      intro i; unfold phi10; push_cast; field_simp; ring
    simp only [e0]
    have ht := sum_cos_tele (Real.pi / ((2 * nmu : ℕ) : ℝ)) nmu
    have hp := sin_pi_div_pos (n := 2 * nmu) (by omega)
    have e : 2 * (nmu : ℝ) * (Real.pi / ((2 * nmu : ℕ) : ℝ)) = Real.pi := by
      push_cast; field_simp
    rw [e, Real.sin_pi] at ht
    rcases mul_eq_zero.mp ht with ht | ht
    · linarith
    · exact ht
  have red : ∀ (f : Ray → ℝ) (g : ℕ → ℝ),
      (∀ i, (quadrants.map fun o => 0.25 / (nmu:ℝ) * f
        { x := sgn o.2 (√2 / √3 * Real.cos (phi10 nmu i)),
          y := sgn o.1 (√2 / √3 * Real.sin (phi10 nmu i)),
          z := 0, w := 0.25 / nmu }).sum = g i) →
      quad (grid10 nmu) f = ∑ i ∈ Finset.range nmu, g i := by
    intro f g hg
    rw [grid10, quad_flatMap, ← sum_range_list]
    congr 1
    exact List.map_congr_left fun e _ => hg e
  refine ⟨?_, ?_, ?_, ?_, ?_, ?_⟩
  · rw [red _ (fun _ => 1 / nmu)]
    · simp [hn]
    · intro i; simp [quadrants_eq]; ring
  · rw [red _ (fun _ => 0)]
    · simp
    · intro i; simp [quadrants_eq, sgn]
  · rw [red _ (fun _ => 0)]
    · simp
    · intro i; simp [quadrants_eq, sgn]
  · rw [red _ (fun i => 3⁻¹ * (nmu:ℝ)⁻¹ + 1 / nmu * (1 / 3) * Real.cos (2 * phi10 nmu i))]
    · rw [Finset.sum_add_distrib, ← Finset.mul_sum (f := fun i => Real.cos (2 * phi10 nmu i)), hcos]
      simp; field_simp
    · intro i
      have : √2 / √3 * Real.cos (phi10 nmu i) * (√2 / √3 * Real.cos (phi10 nmu i))
          = 1 / 3 + 1 / 3 * Real.cos (2 * phi10 nmu i) := by
        rw [Real.cos_two_mul]
        linear_combination hq * Real.cos (phi10 nmu i) ^ 2
      simp only [quadrants_eq, sgn, List.map_cons, List.map_nil, List.sum_cons, List.sum_nil]
      simp only [if_true, one_ne_zero, if_false, neg_mul_neg, this]
      ring
  · rw [red _ (fun i => 3⁻¹ * (nmu:ℝ)⁻¹ - 1 / nmu * (1 / 3) * Real.cos (2 * phi10 nmu i))]
    · rw [Finset.sum_sub_distrib, ← Finset.mul_sum (f := fun i => Real.cos (2 * phi10 nmu i)), hcos]
      simp; field_simp
    · intro i
      have : √2 / √3 * Real.sin (phi10 nmu i) * (√2 / √3 * Real.sin (phi10 nmu i))
          = 1 / 3 - 1 / 3 * Real.cos (2 * phi10 nmu i) := by
        rw [Real.cos_two_mul, Real.cos_sq']
        linear_combination hq * Real.sin (phi10 nmu i) ^ 2
      simp only [quadrants_eq, sgn, List.map_cons, List.map_nil, List.sum_cons, List.sum_nil]
      simp only [if_true, one_ne_zero, if_false, neg_mul_neg, this]
      ring
  · rw [red _ (fun _ => 0)]
    · simp
    · intro i; simp [quadrants_eq, sgn]

/-! ### `angle_flag = 1` -/

/-- All directions are unit vectors, with and without the polar angles. -/
theorem zeta_unit (polar : Bool) (nang nz np : ℕ) (hn : 2 ≤ nang) (hz : 1 ≤ nz) :
    Unit (gridZ polar nang nz np) := by
  have hn' : (2:ℝ) ≤ nang := by exact_mod_cast hn
  intro r hr
  rw [gridZ, List.mem_append] at hr
  rcases hr with hr | hr
  · simp only [List.mem_flatMap, List.mem_map, List.mem_range] at hr
    obtain ⟨n, hn2, m, _, rfl⟩ := hr
    have hle : coszeta polar (coszetaMax polar nang) nz n *
        coszeta polar (coszetaMax polar nang) nz n ≤ 1 := by
      cases polar
      · exact (coszeta_le_one_false hz hn2).le
      · refine (coszeta_le_one_true _ ?_ ?_ hz hn2).le
        · simp only [coszetaMax, if_true]; exact div_nonneg (by linarith) (by linarith)
        · simp only [coszetaMax, if_true]; rw [div_le_one (by linarith)]; linarith
    have hs := Real.mul_self_sqrt (sub_nonneg.mpr hle)
    dsimp only
    have hcs := Real.sin_sq_add_cos_sq (psiV np m)
    generalize coszeta polar (coszetaMax polar nang) nz n = c at *
    generalize √(1 - c * c) = s at *
    linear_combination (s * s) * hcs + hs
  · cases polar
    · simp at hr
    · simp only [if_true, poles, List.mem_cons, List.not_mem_nil, or_false] at hr
      rcases hr with rfl | rfl <;> norm_num

/-- Moments of the part of the grid without the poles. -/
theorem zeta_moment (nang nz np : ℕ) (c : ℕ → ℝ) (f : ℝ → ℝ → ℝ) (F : Ray → ℝ)
    (hF : ∀ n m, F ⟨√(1 - c n * c n) * Real.cos (psiV np m),
      √(1 - c n * c n) * Real.sin (psiV np m), c n, 1 / (nang:ℝ)⟩
        = f (c n) (psiV np m)) :
    quad ((List.range (2 * nz)).flatMap fun n => (List.range (2 * np)).map fun m =>
      { x := √(1 - c n * c n) * Real.cos (psiV np m),
        y := √(1 - c n * c n) * Real.sin (psiV np m), z := c n, w := 1 / (nang:ℝ) }) F
      = 1 / nang * ∑ n ∈ Finset.range (2 * nz), ∑ m ∈ Finset.range (2 * np),
          f (c n) (psiV np m) := by
  rw [quad_flatMap', sum_range_list, Finset.mul_sum]
  refine Finset.sum_congr rfl fun n _ => ?_
  rw [sum_range_list, Finset.mul_sum]
  exact Finset.sum_congr rfl fun m _ => by rw [hF]

/-- The three dimensional grid without polar angles is isotropic for every number of angles
for which `nzeta*npsi` is even. -/
theorem zeta_isotropic (nz np : ℕ) (hz : 1 ≤ nz) (hp : 2 ≤ np) (he : 2 ∣ nz * np) :
    Isotropic (gridZ false (nangZeta 3 false false nz np) nz np) := by
  have hN : ((nangZeta 3 false false nz np : ℕ) : ℝ) = 4 * nz * np := by
    obtain ⟨k, hk⟩ := he
    have : nangZeta 3 false false nz np = 4 * (nz * np) := by
      simp [nangZeta, hk]; omega
    rw [this]; push_cast; ring
  have hz0 : (nz : ℝ) ≠ 0 := by positivity
  have hp0 : (np : ℝ) ≠ 0 := by positivity
  set nang := nangZeta 3 false false nz np
  set c := coszeta false 1 nz with hc
  have hg : gridZ false nang nz np
      = (List.range (2 * nz)).flatMap fun n => (List.range (2 * np)).map fun m =>
        { x := √(1 - c n * c n) * Real.cos (psiV np m),
          y := √(1 - c n * c n) * Real.sin (psiV np m), z := c n, w := 1 / (nang:ℝ) } := by
    simp [gridZ, coszetaMax, hc]
  rw [hg]
  have hsq : ∀ n ∈ Finset.range (2 * nz), √(1 - c n * c n) * √(1 - c n * c n) = 1 - c n * c n :=
    fun n hn => Real.mul_self_sqrt
      (sub_nonneg.mpr (coszeta_le_one_false hz (Finset.mem_range.mp hn)).le)
  have hc1 : ∑ n ∈ Finset.range (2 * nz), c n = 0 := coszeta_sum false 1 hz
  have hc2 : ∑ n ∈ Finset.range (2 * nz), c n * c n = 2 * nz / 3 := by
    rw [hc, coszeta_sq false 1 hz]
    linear_combination (2 * (nz:ℝ) / 3) * zfac_sq_false hz
  have hone : ∑ n ∈ Finset.range (2 * nz), (1 - c n * c n) = 4 * nz / 3 := by
    rw [Finset.sum_sub_distrib, hc2]; simp; ring
  have cc := psi_cc hp
  have ss := psi_ss hp
  have cs := psi_cs hp
  have co := psi_cos (np := np) (by omega)
  have si := psi_sin (np := np) (by omega)
  refine ⟨?_, ?_, ?_, ?_, ?_, ?_, ?_, ?_, ?_, ?_⟩
  · rw [zeta_moment nang nz np c (fun _ _ => 1) _ (fun _ _ => rfl), hN]
    simp; field_simp; norm_num
  · rw [zeta_moment nang nz np c (fun z p => √(1 - z * z) * Real.cos p) _ (fun _ _ => rfl)]
    simp only [← Finset.mul_sum, co, mul_zero, Finset.sum_const_zero]
  · rw [zeta_moment nang nz np c (fun z p => √(1 - z * z) * Real.sin p) _ (fun _ _ => rfl)]
    simp only [← Finset.mul_sum, si, mul_zero, Finset.sum_const_zero]
  · rw [zeta_moment nang nz np c (fun z p => z) _ (fun _ _ => rfl)]
    simp only [Finset.sum_const, ← Finset.smul_sum, hc1, smul_zero, mul_zero]
  · rw [zeta_moment nang nz np c (fun z p => √(1 - z * z) * √(1 - z * z) *
      (Real.cos p * Real.cos p)) _ (fun _ _ => by ring)]
    simp only [← Finset.mul_sum, cc]
    rw [Finset.sum_congr rfl fun n hn => by rw [hsq n hn], ← Finset.sum_mul, hone, hN]
    field_simp
  · rw [zeta_moment nang nz np c (fun z p => √(1 - z * z) * √(1 - z * z) *
      (Real.sin p * Real.sin p)) _ (fun _ _ => by ring)]
    simp only [← Finset.mul_sum, ss]
    rw [Finset.sum_congr rfl fun n hn => by rw [hsq n hn], ← Finset.sum_mul, hone, hN]
    field_simp
  · rw [zeta_moment nang nz np c (fun z p => z * z) _ (fun _ _ => rfl)]
    simp only [Finset.sum_const, ← Finset.smul_sum, hc2, hN, Finset.card_range]
    simp; field_simp; ring
  · rw [zeta_moment nang nz np c (fun z p => √(1 - z * z) * √(1 - z * z) *
      (Real.cos p * Real.sin p)) _ (fun _ _ => by ring)]
    simp only [← Finset.mul_sum, cs, mul_zero, Finset.sum_const_zero]
  · rw [zeta_moment nang nz np c (fun z p => √(1 - z * z) * z * Real.cos p) _
      (fun _ _ => by ring)]
    simp only [← Finset.mul_sum, co, mul_zero, Finset.sum_const_zero]
  · rw [zeta_moment nang nz np c (fun z p => √(1 - z * z) * z * Real.sin p) _
      (fun _ _ => by ring)]
    simp only [← Finset.mul_sum, si, mul_zero, Finset.sum_const_zero]

/-- Two by two angles, as in the tests of the code. -/
example : Isotropic (gridZ false 16 2 2) :=
  zeta_isotropic 2 2 (by norm_num) le_rfl ⟨2, rfl⟩

/-- One angle in `psi` in two dimensions: all directions lie in a plane that contains the polar
axis, so that isotropic radiation has twice the pressure along the other axis. -/
theorem slab_pressure (nz : ℕ) (hz : 1 ≤ nz) :
    quad (gridZ1 (nangZeta 2 false false nz 1) nz) (fun _ => 1) = 1 ∧
    quad (gridZ1 (nangZeta 2 false false nz 1) nz) (fun r => r.z * r.z) = 1 / 3 ∧
    quad (gridZ1 (nangZeta 2 false false nz 1) nz) (fun r => r.x * r.x) = 2 / 3 := by
  have hN : ((nangZeta 2 false false nz 1 : ℕ) : ℝ) = 4 * nz := by
    simp [nangZeta]; ring
  have hz0 : (nz : ℝ) ≠ 0 := by positivity
  have hc2 : ∑ n ∈ Finset.range (2 * nz), coszeta false 1 nz n * coszeta false 1 nz n
      = 2 * nz / 3 := by
    rw [coszeta_sq false 1 hz]
    linear_combination (2 * (nz:ℝ) / 3) * zfac_sq_false hz
  have hsq : ∀ n ∈ Finset.range (2 * nz), √(1 - coszeta false 1 nz n * coszeta false 1 nz n) *
      √(1 - coszeta false 1 nz n * coszeta false 1 nz n)
        = 1 - coszeta false 1 nz n * coszeta false 1 nz n :=
    fun n hn => Real.mul_self_sqrt
      (sub_nonneg.mpr (coszeta_le_one_false hz (Finset.mem_range.mp hn)).le)
  refine ⟨?_, ?_, ?_⟩
  · rw [gridZ1, quad_flatMap', sum_range_list, hN]
    simp [List.range_succ]; field_simp; norm_num
  · rw [gridZ1, quad_flatMap', sum_range_list, hN]
    simp only [sum_range_list, Finset.sum_const, Finset.card_range, nsmul_eq_mul,
      ← Finset.mul_sum, hc2]
    field_simp; norm_num
  · rw [gridZ1, quad_flatMap', sum_range_list, hN]
    simp only [List.range_succ, List.range_zero, List.nil_append, List.cons_append,
      List.map_cons, List.map_nil, List.sum_cons, List.sum_nil, if_true, one_ne_zero, if_false,
      neg_mul_neg]
    rw [Finset.sum_congr rfl fun n hn => by rw [hsq n hn], Finset.sum_add_distrib]
    simp only [add_zero, ← Finset.mul_sum, Finset.sum_sub_distrib, hc2]
    simp; field_simp; norm_num

/-- The grid in the plane has half of the energy in each pressure: the directions are those of
radiation confined to two dimensions, not a third as on the other grids. -/
theorem circle_pressure (np : ℕ) (hp : 2 ≤ np) (he : 2 ∣ np) :
    quad (gridPlane (nangZeta 2 false false 0 np) np) (fun _ => 1) = 1 ∧
    quad (gridPlane (nangZeta 2 false false 0 np) np) (fun r => r.x * r.x) = 1 / 2 ∧
    quad (gridPlane (nangZeta 2 false false 0 np) np) (fun r => r.y * r.y) = 1 / 2 := by
  have hp0 : (np : ℝ) ≠ 0 := by positivity
  have hN : nangZeta 2 false false 0 np = 2 * np := by
    obtain ⟨k, rfl⟩ := he
    simp [nangZeta, show ¬ 2 * k ≤ 1 by omega]; omega
  rw [hN]
  refine ⟨?_, ?_, ?_⟩
  · simp only [quad, gridPlane, List.map_map, Function.comp_def, sum_range_list]
    simp; field_simp
  · simp only [quad, gridPlane, List.map_map, Function.comp_def, sum_range_list]
    rw [Finset.sum_congr rfl fun m hm => by rw [if_pos (Finset.mem_range.mp hm)],
      ← Finset.mul_sum, psi_cc hp]
    push_cast; field_simp
  · simp only [quad, gridPlane, List.map_map, Function.comp_def, sum_range_list]
    rw [Finset.sum_congr rfl fun m hm => by rw [if_pos (Finset.mem_range.mp hm)],
      ← Finset.mul_sum, psi_ss hp]
    push_cast; field_simp

/-- Asking for `nzeta > 0` as well in the plane only adds angles without a direction: the
weights are shared with them and the pressures drop to `1/(4 nzeta)`. -/
theorem plane_zeta_pressure (nz np : ℕ) (hz : 1 ≤ nz) (hp : 2 ≤ np) :
    quad (gridPlane (nangZeta 2 false false nz np) np) (fun _ => 1) = 1 ∧
    quad (gridPlane (nangZeta 2 false false nz np) np) (fun r => r.x * r.x) = 1 / (4 * nz) ∧
    ∃ r ∈ gridPlane (nangZeta 2 false false nz np) np, r.x = 0 ∧ r.y = 0 ∧ 0 < r.w := by
  have hp0 : (np : ℝ) ≠ 0 := by positivity
  have hz0 : (nz : ℝ) ≠ 0 := by positivity
  have hN : nangZeta 2 false false nz np = 2 * np + (2 * nz - 1) * (2 * np) := by
    obtain ⟨k, rfl⟩ : ∃ k, nz = k + 1 := ⟨nz - 1, by omega⟩
    simp [nangZeta, show ¬ np ≤ 1 by omega]
    rw [show 2 * (k + 1) - 1 = 2 * k + 1 by omega]; ring
  have hR : ((nangZeta 2 false false nz np : ℕ) : ℝ) = 4 * nz * np := by
    have hz' : nz ≠ 0 := by omega
    simp [nangZeta, show ¬ np ≤ 1 by omega, hz']; ring
  have hpos : 0 < nangZeta 2 false false nz np := by rw [hN]; omega
  refine ⟨?_, ?_, ?_⟩
  · simp only [quad, gridPlane, List.map_map, Function.comp_def, sum_range_list]
    simp [hpos.ne']
  · simp only [quad, gridPlane, List.map_map, Function.comp_def, sum_range_list]
    rw [hR, ← Finset.mul_sum, hN, Finset.sum_range_add]
    rw [Finset.sum_congr rfl fun m hm => by rw [if_pos (Finset.mem_range.mp hm)], psi_cc hp]
    simp; field_simp
  · refine ⟨_, List.mem_map.mpr ⟨2 * np, List.mem_range.mpr ?_, rfl⟩, ?_, ?_, ?_⟩
    · rw [hN]
      have : 0 < (2 * nz - 1) * (2 * np) := Nat.mul_pos (by omega) (by omega)
      omega
    · simp
    · simp
    · dsimp only; positivity

/-- With the two polar angles the grid still has energy one and no flux along the axis, but its
pressure along the axis is never a third: the cosines are not renormalised then. -/
theorem polar_not_isotropic (nz np : ℕ) (hz : 1 ≤ nz) (hp : 1 ≤ np) (he : 2 ∣ nz * np) :
    quad (gridZ true (nangZeta 3 false true nz np) nz np) (fun _ => 1) = 1 ∧
    quad (gridZ true (nangZeta 3 false true nz np) nz np) (fun r => r.z) = 0 ∧
    quad (gridZ true (nangZeta 3 false true nz np) nz np) (fun r => r.z * r.z) ≠ 1 / 3 := by
  have hN : ((nangZeta 3 false true nz np : ℕ) : ℝ) = 4 * nz * np + 2 := by
    obtain ⟨k, hk⟩ := he
    have : nangZeta 3 false true nz np = 4 * (nz * np) + 2 := by
      simp [nangZeta, hk]; omega
    rw [this]; push_cast; ring
  have hz0 : (0:ℝ) < nz := by positivity
  have hp0 : (0:ℝ) < np := by positivity
  set nang := nangZeta 3 false true nz np
  set cm := coszetaMax true nang with hcm
  have hcmv : cm * (4 * nz * np + 2) = 4 * nz * np := by
    rw [hcm]; simp only [coszetaMax, if_true, hN]; field_simp; ring
  set c := coszeta true cm nz with hc
  have hg : gridZ true nang nz np
      = ((List.range (2 * nz)).flatMap fun n => (List.range (2 * np)).map fun m =>
        { x := √(1 - c n * c n) * Real.cos (psiV np m),
          y := √(1 - c n * c n) * Real.sin (psiV np m), z := c n, w := 1 / (nang:ℝ) })
        ++ poles nang := by
    simp [gridZ, hc, hcm]
  have hc1 : ∑ n ∈ Finset.range (2 * nz), c n = 0 := coszeta_sum true cm hz
  have hc2 : ∑ n ∈ Finset.range (2 * nz), c n * c n
      = cm ^ 2 * (4 * nz ^ 2 - 1) / (6 * nz) := by
    rw [hc, coszeta_sq true cm hz]
    simp only [zfac, if_true]; field_simp; ring
  rw [hg]
  refine ⟨?_, ?_, ?_⟩
  · rw [quad_append, zeta_moment nang nz np c (fun _ _ => 1) _ (fun _ _ => rfl)]
    simp only [quad, poles, hN]
    simp; field_simp; ring
  · rw [quad_append, zeta_moment nang nz np c (fun z p => z) _ (fun _ _ => rfl)]
    simp only [Finset.sum_const, ← Finset.smul_sum, hc1, smul_zero, mul_zero]
    simp [quad, poles]
  · rw [quad_append, zeta_moment nang nz np c (fun z p => z * z) _ (fun _ _ => rfl)]
    simp only [Finset.sum_const, ← Finset.smul_sum, hc2, Finset.card_range]
    simp only [quad, poles, hN]
    intro hh
    -- the condition reduces to an equation without integer solutions
    have hD : (0:ℝ) < 4 * nz * np + 2 := by positivity
    have hcm' : cm = 4 * nz * np / (4 * nz * np + 2) := by
      rw [eq_div_iff hD.ne']; exact hcmv
    rw [hcm'] at hh
    simp at hh
    field_simp at hh
    have hkey : (nz:ℝ) * np * np * np = 3 * nz * np + 1 := by
      linear_combination hh * (-1 / 96)
    have hnat : nz * np * np * np = 3 * nz * np + 1 := by exact_mod_cast hkey
    have hd : nz * np ∣ 1 := by
      have h1 : nz * np ∣ nz * np * np * np := ⟨np * np, by ring⟩
      have h2 : nz * np ∣ 3 * nz * np := ⟨3, by ring⟩
      rw [hnat] at h1
      exact (Nat.dvd_add_right h2).mp h1
    have h1 : nz * np = 1 := Nat.dvd_one.mp hd
    rw [h1] at he
    omega

/-- An odd number `nzeta*npsi` in three dimensions, or an odd `npsi` in the plane, loses a half
in the integer division: the loops fill more angles than there are. -/
theorem odd_angles_overflow (nz np : ℕ) (h : ¬ 2 ∣ nz * np) :
    nangZeta 3 false false nz np + 4 = (2 * nz) * (2 * np) ∧
    (2 ≤ np → nangZeta 2 false false 0 np + 2 = 2 * np) := by
  have e : (2 * nz) * (2 * np) = 4 * (nz * np) := by ring
  have hp : ¬ 2 ∣ np := fun hd => h (Dvd.dvd.mul_left hd nz)
  constructor
  · rw [e]; simp [nangZeta]; omega
  · intro h2
    simp [nangZeta, show ¬ np ≤ 1 by omega]; omega

end Verif.Rad
