import Verif.Lemmas.RkSteps
import Verif.Lemmas.Orbital
import Mathlib.Algebra.Module.LinearMap.Defs

/-!
# Properties of the time integrator
-/
namespace Verif.Integrator

variable {V : Type} [AddCommGroup V] [Module ℚ V]

/-! ## WeightedAve -/

/-- If every input the call reads is allocated, the result is the weighted sum of output and inputs. -/
theorem weightedAve_sum (w : Wghts) (out in1 : V) (in2 in3 in4 : Option V)
    (h2 : w.w2 ≠ 0 ∨ w.w3 ≠ 0 ∨ w.w4 ≠ 0 → in2.isSome) (h3 : w.w3 ≠ 0 ∨ w.w4 ≠ 0 → in3.isSome)
    (h4 : w.w4 ≠ 0 → in4.isSome) :
    weightedAve w out in1 in2 in3 in4 = some (w.w0 • out + w.w1 • in1 + w.w2 • in2.getD 0 + w.w3 • in3.getD 0
      + w.w4 • in4.getD 0) := wave_aux w out in1 in2 in3 in4 h2 h3 h4

/-- It reads an unallocated input exactly when that input, or a later one, has a non-zero weight. -/
theorem weightedAve_none_iff (w : Wghts) (out in1 : V) (in2 in3 in4 : Option V) :
    weightedAve w out in1 in2 in3 in4 = none ↔
      ((w.w2 ≠ 0 ∨ w.w3 ≠ 0 ∨ w.w4 ≠ 0) ∧ in2 = none) ∨ ((w.w3 ≠ 0 ∨ w.w4 ≠ 0) ∧ in3 = none) ∨
      (w.w4 ≠ 0 ∧ in4 = none) := by
  refine ⟨fun h => ?_, wave_none w out in1 in2 in3 in4⟩
  by_contra hc
  rw [not_or, not_or] at hc
  obtain ⟨c2, c3, c4⟩ := hc
  have key := wave_aux w out in1 in2 in3 in4
    (fun hu => by cases in2 with | none => exact absurd ⟨hu, rfl⟩ c2 | some _ => rfl)
    (fun hu => by cases in3 with | none => exact absurd ⟨hu, rfl⟩ c3 | some _ => rfl)
    (fun hu => by cases in4 with | none => exact absurd ⟨hu, rfl⟩ c4 | some _ => rfl)
  rw [h] at key
  exact absurd key (by simp)

example : weightedAve ⟨1/2, 1/3, 1/6, 0, 0⟩ (6 : ℚ) 3 (some 12) none none = some 6 := by
  rw [weightedAve_sum _ _ _ _ _ _ (by simp) (by simp) (by simp)]; norm_num

/-- Face fields: the weighted sum component by component, unless `w0 = 1` and the last weight is non-zero. -/
theorem weightedAveFace_sum_partial (w : Wghts) (out in1 i2 i3 i4 : Face V) (hw : ¬ (w.w0 = 1 ∧ w.w4 ≠ 0)) :
    weightedAveFace w out in1 (some i2) (some i3) (some i4) = some
      ⟨w.w0 • out.x1 + w.w1 • in1.x1 + w.w2 • i2.x1 + w.w3 • i3.x1 + w.w4 • i4.x1,
       w.w0 • out.x2 + w.w1 • in1.x2 + w.w2 • i2.x2 + w.w3 • i3.x2 + w.w4 • i4.x2,
       w.w0 • out.x3 + w.w1 • in1.x3 + w.w2 • i2.x3 + w.w3 • i3.x3 + w.w4 • i4.x3⟩ := by
  unfold weightedAveFace
  simp only [Option.map_some, if_neg hw]
  simp [wave_aux]

example : ¬ ((⟨0, 1/2, 1/2, 0, 1⟩ : Wghts).w0 = 1 ∧ (⟨0, 1/2, 1/2, 0, 1⟩ : Wghts).w4 ≠ 0) := by norm_num

/-- In the remaining case the second component takes the third component of the third input: the sum is wrong
exactly if `w3 (B3 - B2) ≠ 0` for that input. -/
theorem weightedAveFace_wrong (w : Wghts) (out in1 i2 i3 i4 : Face V) (hw : w.w0 = 1 ∧ w.w4 ≠ 0) :
    ∃ r, weightedAveFace w out in1 (some i2) (some i3) (some i4) = some r ∧
      (r.x2 = w.w0 • out.x2 + w.w1 • in1.x2 + w.w2 • i2.x2 + w.w3 • i3.x2 + w.w4 • i4.x2 ↔
        w.w3 • (i3.x3 - i3.x2) = 0) := by
  unfold weightedAveFace
  simp only [Option.map_some, if_pos hw]
  rw [wave_aux _ _ _ _ _ _ (by simp) (by simp) (by simp), wave_aux _ _ _ _ _ _ (by simp) (by simp) (by simp),
    wave_aux _ _ _ _ _ _ (by simp) (by simp) (by simp)]
  refine ⟨_, rfl, ?_⟩
  simp only [Option.getD_some, add_left_inj, add_right_inj, smul_sub, sub_eq_zero]

example : ∃ r, weightedAveFace ⟨1, 0, 0, 1, 1⟩ (⟨0, 0, 0⟩ : Face ℚ) ⟨0, 0, 0⟩ (some ⟨0, 0, 0⟩) (some ⟨1, 2, 3⟩)
    (some ⟨0, 0, 0⟩) = some r ∧ r.x2 ≠ 2 := by
  obtain ⟨r, h, hiff⟩ := weightedAveFace_wrong ⟨1, 0, 0, 1, 1⟩ (⟨0, 0, 0⟩ : Face ℚ) ⟨0, 0, 0⟩ ⟨0, 0, 0⟩ ⟨1, 2, 3⟩
    ⟨0, 0, 0⟩ (by norm_num)
  refine ⟨r, h, fun hr => ?_⟩
  have := hiff.mp (by rw [hr]; norm_num)
  norm_num at this

/-! ## The integrators are Runge-Kutta methods of their order -/

/-- rk1 is the forward Euler method, of first order. -/
theorem rk1_euler : (∀ {V : Type} [AddCommGroup V] [Module ℚ V] (sm : Bool) (P : Phys V) (u : V),
    step .rk1 0 sm P u = some (euler.eval P u)) ∧ euler.Order 1 0 ∧ euler.Uniform ∧ euler.FullOrder := by
  refine ⟨fun sm P u => rk1_step sm P u, ?_, ?_, ?_⟩
  · norm_num [Tableau.Order, Tableau.abs, near, euler, dot]
  · simp [Tableau.Uniform, euler]
  · simp [Tableau.FullOrder, euler]

/-- rk2 is Heun's method, of second order. -/
theorem rk2_heun : (∀ {V : Type} [AddCommGroup V] [Module ℚ V] (sm : Bool) (P : Phys V) (u : V),
    step .rk2 0 sm P u = some (heun.eval P u)) ∧ heun.Order 2 0 ∧ heun.Uniform ∧ heun.FullOrder := by
  refine ⟨fun sm P u => rk2_step sm P u, ?_, ?_, ?_⟩
  · norm_num [Tableau.Order, Tableau.abs, near, heun, dot]
  · simp [Tableau.Uniform, heun]
  · simp [Tableau.FullOrder, heun]

/-- vl2 is the midpoint rule, of second order, with the low-order flux in the predictor. -/
theorem vl2_midpoint : (∀ {V : Type} [AddCommGroup V] [Module ℚ V] (sm : Bool) (P : Phys V) (u : V),
    step .vl2 0 sm P u = some (midpoint.eval P u)) ∧ midpoint.Order 2 0 ∧ midpoint.Uniform ∧
    midpoint.rows.map (·.low) = [true, false] := by
  refine ⟨fun sm P u => vl2_step sm P u, ?_, ?_, rfl⟩
  · norm_num [Tableau.Order, Tableau.abs, near, midpoint, dot]
  · simp [Tableau.Uniform, midpoint]

/-- rk3 is the method of Shu and Osher, of third order. -/
theorem rk3_ssp3 : (∀ {V : Type} [AddCommGroup V] [Module ℚ V] (sm : Bool) (P : Phys V) (u : V),
    step .rk3 0 sm P u = some (ssp3.eval P u)) ∧ ssp3.Order 3 0 ∧ ssp3.Uniform ∧ ssp3.FullOrder := by
  refine ⟨fun sm P u => rk3_step sm P u, ?_, ?_, ?_⟩
  · norm_num [Tableau.Order, Tableau.abs, Tableau.app, had, near, ssp3, dot]
  · norm_num [Tableau.Uniform, ssp3]
  · simp [Tableau.FullOrder, ssp3]

/-- rk4 is a Runge-Kutta method meeting the fourth-order conditions to within 1e-14 (decimal weights); sources
and fluxes carry the same weights. -/
theorem rk4_fourth : ∃ t : Tableau, (∀ {V : Type} [AddCommGroup V] [Module ℚ V] (sm : Bool) (P : Phys V) (u : V),
    step .rk4 0 sm P u = some (t.eval P u)) ∧ t.Order 4 (1/10^14) ∧ t.FullOrder ∧
    t.bS = t.b ∧ ∀ r ∈ t.rows, r.aS = r.a := by
  refine ⟨rk4Tab, fun sm P u => rk4_step sm P u, ?_, ?_, rfl, ?_⟩
  · norm_num [Tableau.Order, Tableau.abs, Tableau.app, had, near, rk4Tab, dot, abs_le]
  · simp [Tableau.FullOrder, rk4Tab]
  · simp [rk4Tab]

/-- ssprk5_4 is a Runge-Kutta method meeting the fourth-order conditions for the fluxes to within 1e-14. -/
theorem ssprk54_fourth : ∃ t : Tableau, (∀ {V : Type} [AddCommGroup V] [Module ℚ V] (sm : Bool) (P : Phys V) (u : V),
    step .ssprk54 0 sm P u = some (t.eval P u)) ∧ t.Order 4 (1/10^14) ∧ t.FullOrder ∧
    ∀ r ∈ t.rows, r.aS = r.a := by
  refine ⟨sspTab, fun sm P u => ssprk54_step sm P u, ?_, ?_, ?_⟩
  · norm_num [Tableau.Order, Tableau.abs, Tableau.app, had, near, sspTab, dot, abs_le]
  · simp [Tableau.FullOrder, sspTab]
  · simp [sspTab]

/-- For a linear flux the exact integrators give the Taylor polynomial of the exponential. -/
theorem linear_taylor (A : V →ₗ[ℚ] V) (u : V) (sm : Bool) :
    step .rk1 0 sm (linear A) u = some (u + A u) ∧
    step .rk2 0 sm (linear A) u = some (u + A u + (1/2 : ℚ) • A (A u)) ∧
    step .vl2 0 sm (linear A) u = some (u + A u + (1/2 : ℚ) • A (A u)) ∧
    step .rk3 0 sm (linear A) u = some (u + A u + (1/2 : ℚ) • A (A u) + (1/6 : ℚ) • A (A (A u))) := by
  refine ⟨?_, ?_, ?_, ?_⟩
  · rw [rk1_step]
    simp only [Tableau.eval, euler, slopes, comb, linear, List.nil_append, smul_zero, add_zero, one_smul]
  · rw [rk2_step]
    simp only [Tableau.eval, heun, slopes, comb, linear, List.nil_append, List.cons_append, smul_zero, add_zero, one_smul,
      map_add, map_smul]
    congr 1; module
  · rw [vl2_step]
    simp only [Tableau.eval, midpoint, slopes, comb, linear, List.nil_append, List.cons_append, smul_zero, add_zero, one_smul,
      map_add, map_smul]
    congr 1; module
  · rw [rk3_step]
    simp only [Tableau.eval, ssp3, slopes, comb, linear, List.nil_append, List.cons_append, smul_zero, add_zero, one_smul,
      map_add, map_smul]
    congr 1; module

example : step .rk3 0 false (linear (LinearMap.id : ℚ →ₗ[ℚ] ℚ)) (6 : ℚ) = some 16 := by
  rw [(linear_taylor _ _ _).2.2.2]; norm_num

/-! ## Stage times -/

/-- Without orbital advection every stage of rk1, rk2, vl2 and rk3 starts at `sbeta` and ends at `ebeta`. -/
theorem stage_times_partial (g : Integ) (hg : g = .rk1 ∨ g = .rk2 ∨ g = .vl2 ∨ g = .rk3) (sm : Bool) (sts : List Stage)
    (hs : stages g 0 sm = some sts) (n : Nat) (st : Stage) (hn : sts[n]? = some st) :
    clockAfter g sts n = some st.sbeta ∧ clockAfter g sts (n + 1) = some st.ebeta := by
  rcases hg with rfl | rfl | rfl | rfl
  all_goals
    simp only [stages, mainStages, plainTimes, simpleTimes, betas, gammas, List.replicate, List.zipWith, List.length,
      if_true, Option.some.injEq] at hs
    subst hs
    rcases n with _ | _ | _ | n <;> simp at hn
    all_goals
      subst hn
      norm_num [clockAfter, runStages, stageStep, integrate, weightedAve, clock]

example : ∃ st, (stages .rk3 0 false).bind (·[1]?) = some st ∧ st.sbeta = 1 ∧ st.ebeta = 1/2 :=
  ⟨_, rfl, rfl, rfl⟩

/-- rk4 passes a wrong time in its third stage: it tells the sources 0.287 instead of 0.431. -/
theorem rk4_times_wrong (sm : Bool) : ∃ sts st t, stages .rk4 0 sm = some sts ∧ sts[2]? = some st ∧
    clockAfter .rk4 sts 2 = some t ∧ 1/10 < |st.sbeta - t| := by
  refine ⟨stages_rk4, _, 215700660890402360339959392071334733112810837/500000000000000000000000000000000000000000000, stages_rk4_eq sm, rfl, ?_, ?_⟩
  · norm_num [clockAfter, runStages, stageStep, integrate, weightedAve, clock, stages_rk4]
  · norm_num [lt_abs]

/-- So does ssprk5_4: 0.368 instead of 0.586. -/
theorem ssprk54_times_wrong (sm : Bool) : ∃ sts st t, stages .ssprk54 0 sm = some sts ∧ sts[2]? = some st ∧
    clockAfter .ssprk54 sts 2 = some t ∧ 1/5 < |st.sbeta - t| := by
  refine ⟨stages_ssprk54, _, 11721593786230795589733704317/20000000000000000000000000000, stages_ssprk54_eq sm, rfl, ?_, ?_⟩
  · norm_num [clockAfter, runStages, stageStep, integrate, weightedAve, clock, stages_ssprk54]
  · norm_num [lt_abs]

/-- Consequence: for `du/dt = t` over a unit step rk4 is off by more than 1e-2 and ssprk5_4 by more than 0.15; the
integral is 1/2, which any method of second order hits. -/
theorem time_source_wrong (sm : Bool) : ∃ x y : ℚ,
    step .rk4 0 sm ⟨fun _ _ => 0, fun τ _ => τ, fun _ u => u⟩ (0 : ℚ) = some x ∧ 1/100 < |x - 1/2| ∧
    step .ssprk54 0 sm ⟨fun _ _ => 0, fun τ _ => τ, fun _ u => u⟩ (0 : ℚ) = some y ∧ 15/100 < |y - 1/2| := by
  refine ⟨16060247372316285925723479689372204657069621004626734699850832600045876121409754403322991/31250000000000000000000000000000000000000000000000000000000000000000000000000000000000000, 2171279451207209631506606826237733321913103788065615555295786103044475927/6250000000000000000000000000000000000000000000000000000000000000000000000, ?_, ?_, ?_, ?_⟩
  · rw [rk4_step]
    norm_num [Tableau.eval, rk4Tab, slopes, comb]
  · norm_num [lt_abs]
  · rw [ssprk54_step]
    norm_num [Tableau.eval, sspTab, slopes, comb]
  · norm_num [lt_abs]

/-- The other integrators are exact there (rk1 excepted, which is of first order). -/
theorem time_source_right (sm : Bool) (g : Integ) (hg : g = .rk2 ∨ g = .vl2 ∨ g = .rk3) :
    step g 0 sm ⟨fun _ _ => 0, fun τ _ => τ, fun _ u => u⟩ (0 : ℚ) = some (1/2) := by
  rcases hg with rfl | rfl | rfl
  · rw [rk2_step]; norm_num [Tableau.eval, heun, slopes, comb]
  · rw [vl2_step]; norm_num [Tableau.eval, midpoint, slopes, comb]
  · rw [rk3_step]; norm_num [Tableau.eval, ssp3, slopes, comb]

/-! ## Orbital advection splitting -/

/-- First-order splitting: the Runge-Kutta step (sources taken at the start time), then orbital advection over the
full step. -/
theorem orbital_first (g : Integ) (sm : Bool) (h : stages g 1 sm ≠ none) (P : Phys V) (u : V) :
    step g 1 sm P u = (step g 0 sm (P.frozen 0) u).map (P.orb 1) := by
  have h0 : stages g 0 sm = some (plainStages g) := by simp [stages, plainStages]
  have hf0 : firstOrb (plainStages g) = false := by
    cases g <;> simp [firstOrb, plainStages, mainStages, betas, gammas, plainTimes, simpleTimes, timesLoop]
  rw [step_eq h0, hf0]
  cases sm with
  | true =>
    have hg : ¬ (true && (g = .rk4 || g = .ssprk54)) = true := by
      intro hc
      exact h (by simp only [stages, if_neg (show (1 : Nat) ≠ 0 by decide), if_pos hc])
    have h1 : stages g 1 true = some (mainStages g (List.replicate (betas g).length (0, 0))
        (List.replicate (betas g).length false) ++ [orbitalOnly 0 1]) := by
      simp only [stages, if_neg (show (1 : Nat) ≠ 0 by decide), if_neg hg, if_true]
    have hf1 : firstOrb (mainStages g (List.replicate (betas g).length (0, 0))
        (List.replicate (betas g).length false) ++ [orbitalOnly 0 1]) = false := by
      cases g <;> simp [firstOrb, mainStages, betas, gammas]
    rw [step_eq h1, hf1, run_append, run_same (P := P) (P' := P.frozen 0) rfl (same_plain g P 0 0) false false 1 1 _ (Or.inl rfl)
      (fun _ => rfl) (by simp) (by simp)]
    cases runStages g (P.frozen 0) false 1 (plainStages g) ⟨u, 0, if g = .ssprk54 then some u else none⟩ with
    | none => rfl
    | some r =>
      simp only [Option.bind_some, run_orbitalOnly]
      simp [runStages, orbU]
  | false =>
    have h1 : stages g 1 false = some (mainStages g (List.replicate ((betas g).length - 1) (0, 0) ++ [(0, 1)])
        (List.replicate ((betas g).length - 1) false ++ [true])) := by
      simp [stages]
    obtain ⟨l, st, hl, hm, ho, hs, he, hsame⟩ := same_last g P 0 0 1
    have hf1 : g = .vl2 → firstOrb (l ++ [st]) = false := by
      rw [← hl]; rintro rfl; simp [firstOrb, mainStages, betas, gammas]
    rw [hl] at h1
    rw [step_eq h1, run_last 1 l st hm ho, run_same (P := P) (P' := P.frozen 0) rfl hsame (firstOrb (l ++ [st])) false 1 1 _ (Or.inl rfl)
      (fun hv => by rw [hf1 hv]) (by split_ifs <;> simp) (by simp), hs, he]
    cases runStages g (P.frozen 0) false 1 (plainStages g) ⟨u, 0, if g = .ssprk54 then some u else none⟩ with
    | none => rfl
    | some r => simp [orbU]

/-- Second-order (Strang) splitting: half a step of orbital advection, the Runge-Kutta step (sources taken at the
middle), the other half. ssprk5_4 excepted, see `ssprk54_orbital_wrong`. -/
theorem orbital_second (g : Integ) (hg : g ≠ .ssprk54) (sm : Bool) (orb : Nat) (ho : 2 ≤ orb)
    (h : stages g orb sm ≠ none) (P : Phys V) (u : V) :
    step g orb sm P u = (step g 0 sm (P.frozen (1/2)) (P.orb (1/2) u)).map (P.orb (1/2)) := by
  have n0 : ¬ orb = 0 := by omega
  have n1 : ¬ orb = 1 := by omega
  have h0 : stages g 0 sm = some (plainStages g) := by simp [stages, plainStages]
  have hf0 : firstOrb (plainStages g) = false := by
    cases g <;> simp [firstOrb, plainStages, mainStages, betas, gammas, plainTimes, simpleTimes, timesLoop]
  have e1 : (1/2 : ℚ) - 0 = 1/2 := by norm_num
  have e2 : (1 : ℚ) - 1/2 = 1/2 := by norm_num
  rw [step_eq h0, hf0]
  cases sm with
  | true =>
    have hg' : ¬ (true && (g = .rk4 || g = .ssprk54)) = true := by
      intro hc
      exact h (by simp only [stages, if_neg n0, if_pos hc])
    have h1 : stages g orb true = some (orbitalOnly 0 (1/2) :: mainStages g (List.replicate (betas g).length (1/2, 1/2))
        (List.replicate (betas g).length false) ++ [orbitalOnly (1/2) 1]) := by
      simp only [stages, if_neg n0, if_neg hg', if_neg n1, if_true]
    have hf1 : ∀ l, firstOrb (orbitalOnly 0 (1/2) :: l) = true := fun _ => rfl
    rw [step_eq h1, List.cons_append, hf1, run_orbitalOnly, run_append,
      run_same (P := P) (P' := P.frozen (1/2)) rfl (same_plain g P (1/2) (1/2)) true false 2 1 _ (Or.inr hg)
      (fun _ => rfl) (by simp) (by simp), e1]
    simp only [orbU, if_neg hg]
    cases runStages g (P.frozen (1/2)) false 1 (plainStages g) ⟨P.orb (1/2) u, 0, none⟩ with
    | none => rfl
    | some r =>
      simp only [Option.bind_some, run_orbitalOnly]
      simp only [runStages, orbU, Option.map_some, e2]
  | false =>
    have h1 : stages g orb false = some (orbitalOnly 0 (1/2) ::
        mainStages g (List.replicate ((betas g).length - 1) (1/2, 1/2) ++ [(1/2, 1)])
        (List.replicate ((betas g).length - 1) false ++ [true])) := by
      simp [stages, n0, n1]
    obtain ⟨l, st, hl, hm, ho, hs, he, hsame⟩ := same_last g P (1/2) (1/2) 1
    rw [hl] at h1
    have hf1 : ∀ l, firstOrb (orbitalOnly 0 (1/2) :: l) = true := fun _ => rfl
    rw [step_eq h1, hf1, run_orbitalOnly, run_last 2 l st hm ho,
      run_same (P := P) (P' := P.frozen (1/2)) rfl hsame true false 2 1 _ (Or.inr hg)
      (fun _ => rfl) (by simp) (by simp), hs, he, e1, e2]
    simp only [orbU, if_neg hg]
    cases runStages g (P.frozen (1/2)) false 1 (plainStages g) ⟨P.orb (1/2) u, 0, none⟩ with
    | none => rfl
    | some r => rfl

example : stages .rk3 1 true ≠ none ∧ stages .rk4 2 false ≠ none ∧ stages .vl2 2 true ≠ none := by
  refine ⟨?_, ?_, ?_⟩ <;> simp [stages]

/-! ## Consistency -/

/-- A uniform flux divergence `K` changes the state by `K` and, without it, the state stays, for every integrator and
every splitting that is not a fatal error, to within 1e-14 for the decimal weights and exactly otherwise; ssprk5_4
with second-order splitting excepted. -/
theorem consistent_partial (g : Integ) (orb : Nat) (sm : Bool) (hn : stages g orb sm ≠ none)
    (hg : ¬ (g = .ssprk54 ∧ 2 ≤ orb)) :
    ∃ κ ω : ℚ, |κ - 1| ≤ 1/10^14 ∧ |ω - 1| ≤ 1/10^14 ∧ (g ≠ .rk4 → κ = 1) ∧ (g ≠ .rk4 → g ≠ .ssprk54 → ω = 1) ∧
      ∀ {V : Type} [AddCommGroup V] [Module ℚ V] (u K : V),
        step g orb sm (uniform K 0) u = some (κ • u + ω • K) := by
  have red : ∀ {V : Type} [AddCommGroup V] [Module ℚ V] (u K : V),
      step g orb sm (uniform K 0) u = step g 0 sm (uniform K 0) u := by
    intro V _ _ u K
    rcases Nat.lt_or_ge orb 2 with h | h
    · rcases Nat.lt_or_ge orb 1 with h' | h'
      · rw [show orb = 0 by omega]
      · obtain rfl : orb = 1 := by omega
        rw [orbital_first g sm hn]
        show (step g 0 sm (uniform K 0) u).map (fun u => u) = _
        simp
    · rw [orbital_second g (fun h' => hg ⟨h', h⟩) sm orb h hn]
      show (step g 0 sm (uniform K 0) u).map (fun u => u) = _
      simp
  have e : (1 : ℚ) - 1 = 0 := by norm_num
  cases g with
  | rk1 =>
    refine ⟨1, 1, by norm_num, by norm_num, fun _ => rfl, fun _ _ => rfl, fun u K => ?_⟩
    rw [red, rk1_step]
    simp only [Tableau.eval, euler, slopes, comb, uniform, List.nil_append, List.cons_append]
    congr 1; module
  | rk2 =>
    refine ⟨1, 1, by norm_num, by norm_num, fun _ => rfl, fun _ _ => rfl, fun u K => ?_⟩
    rw [red, rk2_step]
    simp only [Tableau.eval, heun, slopes, comb, uniform, List.nil_append, List.cons_append]
    congr 1; module
  | vl2 =>
    refine ⟨1, 1, by norm_num, by norm_num, fun _ => rfl, fun _ _ => rfl, fun u K => ?_⟩
    rw [red, vl2_step]
    simp only [Tableau.eval, midpoint, slopes, comb, uniform, List.nil_append, List.cons_append]
    congr 1; module
  | rk3 =>
    refine ⟨1, 1, by norm_num, by norm_num, fun _ => rfl, fun _ _ => rfl, fun u K => ?_⟩
    rw [red, rk3_step]
    simp only [Tableau.eval, ssp3, slopes, comb, uniform, List.nil_append, List.cons_append]
    congr 1; module
  | rk4 =>
    refine ⟨rk4Tab.u0, rk4Tab.b.sum, by norm_num [rk4Tab, abs_le], by norm_num [rk4Tab, abs_le], by simp, by simp,
      fun u K => ?_⟩
    rw [red, rk4_step]
    simp only [Tableau.eval, rk4Tab, slopes, comb, uniform, List.nil_append, List.cons_append, List.sum_cons, List.sum_nil]
    congr 1; module
  | ssprk54 =>
    refine ⟨sspTab.u0, sspTab.b.sum, by norm_num [sspTab, abs_le], by norm_num [sspTab, abs_le], fun _ => rfl, by simp,
      fun u K => ?_⟩
    rw [red, ssprk54_step]
    simp only [Tableau.eval, sspTab, slopes, comb, uniform, List.nil_append, List.cons_append, List.sum_cons, List.sum_nil]
    congr 1; module

example : stages .ssprk54 1 false ≠ none ∧ ¬ (Integ.ssprk54 = .ssprk54 ∧ 2 ≤ 1) := by simp [stages]

/-- ssprk5_4 with second-order orbital splitting multiplies a state on which nothing acts by about 0.862. -/
theorem ssprk54_orbital_wrong (orb : Nat) (ho : 2 ≤ orb) (u : V) :
    ∃ κ : ℚ, step .ssprk54 orb false still u = some (κ • u) ∧ |κ - 862/1000| < 1/1000 := by
  have n0 : ¬ orb = 0 := by omega
  have n1 : ¬ orb = 1 := by omega
  refine ⟨26945934189474181718377077789/31250000000000000000000000000, ?_, by norm_num [abs_lt]⟩
  have hst : stages .ssprk54 orb false = some (orbitalOnly 0 (1/2) :: mainStages .ssprk54
      [(1/2, 1/2), (1/2, 1/2), (1/2, 1/2), (1/2, 1/2), (1/2, 1)] [false, false, false, false, true]) := by
    simp [stages, n0, n1, betas]
  rw [step_eq hst, run_orbitalOnly]
  simp only [mainStages, betas, gammas, List.zipWith]
  simp only [runStages, stageStep, still, firstOrb, orbU]
  norm_num [integrate, wave_aux]
  module

/-- A uniform source is applied by ssprk5_4 with total weight 0.9363 only: the extra update of stage 4 leaves
sources out. -/
theorem ssprk54_source_wrong (sm : Bool) (u J : V) :
    ∃ ω : ℚ, step .ssprk54 0 sm (uniform 0 J) u = some (u + ω • J) ∧ |ω - 9363/10000| < 1/10000 := by
  refine ⟨sspTab.bS.sum, ?_, by norm_num [sspTab, abs_lt]⟩
  rw [ssprk54_step]
  simp only [Tableau.eval, sspTab, slopes, comb, uniform, List.nil_append, List.cons_append, List.sum_cons, List.sum_nil]
  congr 1; module

/-- The other integrators apply a uniform source with weight one (rk4: within 1e-14). -/
theorem source_weight (g : Integ) (hg : g ≠ .ssprk54) (sm : Bool) :
    ∃ ω : ℚ, |ω - 1| ≤ 1/10^14 ∧ ∀ {V : Type} [AddCommGroup V] [Module ℚ V] (J : V),
      step g 0 sm (uniform 0 J) 0 = some (ω • J) := by
  cases g with
  | rk1 =>
    refine ⟨1, by norm_num, fun J => ?_⟩
    rw [rk1_step]
    simp only [Tableau.eval, euler, slopes, comb, uniform, List.nil_append, List.cons_append]
    congr 1; module
  | rk2 =>
    refine ⟨1, by norm_num, fun J => ?_⟩
    rw [rk2_step]
    simp only [Tableau.eval, heun, slopes, comb, uniform, List.nil_append, List.cons_append]
    congr 1; module
  | vl2 =>
    refine ⟨1, by norm_num, fun J => ?_⟩
    rw [vl2_step]
    simp only [Tableau.eval, midpoint, slopes, comb, uniform, List.nil_append, List.cons_append]
    congr 1; module
  | rk3 =>
    refine ⟨1, by norm_num, fun J => ?_⟩
    rw [rk3_step]
    simp only [Tableau.eval, ssp3, slopes, comb, uniform, List.nil_append, List.cons_append]
    congr 1; module
  | rk4 =>
    refine ⟨rk4Tab.bS.sum, by norm_num [rk4Tab, abs_le], fun J => ?_⟩
    rw [rk4_step]
    simp only [Tableau.eval, rk4Tab, slopes, comb, uniform, List.nil_append, List.cons_append, List.sum_cons, List.sum_nil]
    congr 1; module
  | ssprk54 => exact absurd rfl hg

end Verif.Integrator
