import Verif.Spec.Integrator
import Mathlib.Tactic.Module
import Mathlib.Tactic.NormNum
import Mathlib.Tactic.FieldSimp

namespace Verif.Integrator

variable {V : Type} [AddCommGroup V] [Module ℚ V]

theorem wave_aux (w : Wghts) (out in1 : V) (in2 in3 in4 : Option V)
    (h2 : w.w2 ≠ 0 ∨ w.w3 ≠ 0 ∨ w.w4 ≠ 0 → in2.isSome) (h3 : w.w3 ≠ 0 ∨ w.w4 ≠ 0 → in3.isSome)
    (h4 : w.w4 ≠ 0 → in4.isSome) :
    weightedAve w out in1 in2 in3 in4 = some (w.w0 • out + w.w1 • in1 + w.w2 • in2.getD 0 + w.w3 • in3.getD 0
      + w.w4 • in4.getD 0) := by
  obtain ⟨w0, w1, w2, w3, w4⟩ := w
  simp only at h2 h3 h4
  by_cases c4 : w4 = 0
  · by_cases c3 : w3 = 0
    · by_cases c2 : w2 = 0
      · unfold weightedAve
        split_ifs <;> simp_all
        all_goals first | module | skip
      · obtain ⟨i2, rfl⟩ := Option.isSome_iff_exists.mp (h2 (Or.inl c2))
        unfold weightedAve
        split_ifs <;> simp_all <;> module
    · obtain ⟨i2, rfl⟩ := Option.isSome_iff_exists.mp (h2 (Or.inr (Or.inl c3)))
      obtain ⟨i3, rfl⟩ := Option.isSome_iff_exists.mp (h3 (Or.inl c3))
      unfold weightedAve
      split_ifs <;> simp_all <;> module
  · obtain ⟨i2, rfl⟩ := Option.isSome_iff_exists.mp (h2 (Or.inr (Or.inr c4)))
    obtain ⟨i3, rfl⟩ := Option.isSome_iff_exists.mp (h3 (Or.inr c4))
    obtain ⟨i4, rfl⟩ := Option.isSome_iff_exists.mp (h4 c4)
    unfold weightedAve
    split_ifs <;> simp_all <;> module

theorem wave_none (w : Wghts) (out in1 : V) (in2 in3 in4 : Option V)
    (h : ((w.w2 ≠ 0 ∨ w.w3 ≠ 0 ∨ w.w4 ≠ 0) ∧ in2 = none) ∨ ((w.w3 ≠ 0 ∨ w.w4 ≠ 0) ∧ in3 = none) ∨
      (w.w4 ≠ 0 ∧ in4 = none)) : weightedAve w out in1 in2 in3 in4 = none := by
  obtain ⟨w0, w1, w2, w3, w4⟩ := w
  simp only at h
  unfold weightedAve
  by_cases c4 : w4 = 0 <;> by_cases c3 : w3 = 0 <;> by_cases c2 : w2 = 0 <;> cases in2 <;> cases in3 <;>
    cases in4 <;> simp_all

/-- Register update of a main stage. -/
theorem integrate_eq (g : Integ) (n : Nat) (st : Stage) (kL kS : V) (r : Regs V) (X Y : V)
    (h2 : st.g3 ≠ 0 → r.u2.isSome) (hn : ¬ (n = 4 ∧ g = .ssprk54))
    (hX : X = st.g1 • r.u + st.g2 • (r.u1 + st.delta • r.u) + st.g3 • r.u2.getD 0 + st.beta • kL + st.beta • kS)
    (hY : Y = if st.g1 = 0 ∧ st.g2 = 1 ∧ st.g3 = 0 then r.u else r.u1 + st.delta • r.u) :
    integrate g n st kL kS r = some ⟨X, Y, r.u2⟩ := by
  unfold integrate
  rw [wave_aux _ _ _ _ _ _ (by simp) (by simp) (by simp)]
  by_cases hs : st.g1 = 0 ∧ st.g2 = 1 ∧ st.g3 = 0
  · simp only [if_pos hs] at hY
    simp only [hs, Option.bind_eq_bind, Option.bind_some, if_neg hn, and_self, if_true]
    subst hX hY
    simp [hs.1, hs.2.1, hs.2.2]
  · simp only [if_neg hs] at hY
    simp only [if_neg hs, Option.bind_eq_bind, Option.bind_some]
    rw [wave_aux _ _ _ _ _ _ (by simpa using h2) (by simp) (by simp)]
    simp only [if_neg hs, Option.map_some, Option.bind_eq_bind, Option.bind_some, if_neg hn]
    subst hX hY
    simp

/-- Register update of stage 4 of ssprk5_4. -/
theorem integrate_eq4 (st : Stage) (kL kS u u1 u2 : V) (X Y Z : V)
    (hX : X = st.g1 • u + st.g2 • (u1 + st.delta • u) + st.g3 • u2 + st.beta • kL + st.beta • kS)
    (hY : Y = if st.g1 = 0 ∧ st.g2 = 1 ∧ st.g3 = 0 then u else u1 + st.delta • u)
    (hZ : Z = (63692468666290/10^15 : ℚ) • kL - u2) :
    integrate .ssprk54 4 st kL kS ⟨u, u1, some u2⟩ = some ⟨X, Y, some Z⟩ := by
  unfold integrate
  rw [wave_aux _ _ _ _ _ _ (by simp) (by simp) (by simp)]
  have hZ' : (-1 : ℚ) • u2 + (63692468666290/10^15 : ℚ) • kL = Z := by subst hZ; module
  by_cases hs : st.g1 = 0 ∧ st.g2 = 1 ∧ st.g3 = 0
  · simp only [if_pos hs] at hY
    simp only [hs, Option.bind_eq_bind, Option.bind_some, and_self, if_true]
    rw [wave_aux _ _ _ _ _ _ (by simp) (by simp) (by simp)]
    simp only [Option.bind_some, zero_smul, add_zero, hZ']
    subst hX hY
    simp [hs.1, hs.2.1, hs.2.2]
  · simp only [if_neg hs] at hY
    simp only [if_neg hs, Option.bind_eq_bind, Option.bind_some]
    rw [wave_aux _ u _ _ _ _ (by simp) (by simp) (by simp)]
    simp only [if_neg hs, Option.map_some, Option.bind_eq_bind, Option.bind_some, and_self, if_true]
    rw [wave_aux _ _ _ _ _ _ (by simp) (by simp) (by simp)]
    simp only [Option.bind_some, zero_smul, add_zero, hZ']
    subst hX hY
    simp

theorem run_cons {g : Integ} {P : Phys V} {first : Bool} {n : Nat} {st : Stage} {sts : List Stage} {r r' : Regs V}
    (hm : st.main = true) (ho : st.orbital = false)
    (h : integrate g n st (P.flux (g = .vl2 && n - (if first then 1 else 0) == 1) r.u) (P.src st.sbeta r.u) r
      = some r') :
    runStages g P first n (st :: sts) r = runStages g P first (n + 1) sts r' := by
  simp only [runStages, stageStep, hm, ho, if_true]
  rw [h]
  rfl

theorem run_cons_orb {g : Integ} {P : Phys V} {first : Bool} {n : Nat} {st : Stage} {sts : List Stage} {r r' : Regs V}
    (hm : st.main = true) (ho : st.orbital = true)
    (h : integrate g n st (P.flux (g = .vl2 && n - (if first then 1 else 0) == 1) r.u) (P.src st.sbeta r.u) r
      = some r') :
    runStages g P first n (st :: sts) r =
      runStages g P first (n + 1) sts ⟨P.orb (st.ebeta - st.sbeta) r'.u, r'.u1, r'.u2⟩ := by
  simp only [runStages, stageStep, hm, ho, if_true]
  rw [h]
  rfl

/-- Main stage without orbital advection, with named slopes. -/
theorem run_main {g : Integ} {P : Phys V} {first : Bool} {n : Nat} {st : Stage} {sts : List Stage} {u u1 : V}
    {u2 : Option V} (low : Bool) (F S X Y : V)
    (hF : F = P.flux low u) (hS : S = P.src st.sbeta u)
    (hlow : (decide (g = .vl2) && n - (if first then 1 else 0) == 1) = low)
    (hm : st.main = true) (ho : st.orbital = false)
    (h2 : st.g3 ≠ 0 → u2.isSome) (hn : ¬ (n = 4 ∧ g = .ssprk54))
    (hX : X = st.g1 • u + st.g2 • (u1 + st.delta • u) + st.g3 • u2.getD 0 + st.beta • F + st.beta • S)
    (hY : Y = if st.g1 = 0 ∧ st.g2 = 1 ∧ st.g3 = 0 then u else u1 + st.delta • u) :
    runStages g P first n (st :: sts) ⟨u, u1, u2⟩ = runStages g P first (n + 1) sts ⟨X, Y, u2⟩ := by
  refine run_cons hm ho ?_
  rw [hlow, ← hF, ← hS]
  exact integrate_eq g n st F S ⟨u, u1, u2⟩ X Y h2 hn hX hY

/-- Stage 4 of ssprk5_4. -/
theorem run_main4 {P : Phys V} {first : Bool} {st : Stage} {sts : List Stage} {u u1 u2 : V} (F S X Y Z : V)
    (hF : F = P.flux false u) (hS : S = P.src st.sbeta u)
    (hm : st.main = true) (ho : st.orbital = false)
    (hX : X = st.g1 • u + st.g2 • (u1 + st.delta • u) + st.g3 • u2 + st.beta • F + st.beta • S)
    (hY : Y = if st.g1 = 0 ∧ st.g2 = 1 ∧ st.g3 = 0 then u else u1 + st.delta • u)
    (hZ : Z = (63692468666290/10^15 : ℚ) • F - u2) :
    runStages .ssprk54 P first 4 (st :: sts) ⟨u, u1, some u2⟩ = runStages .ssprk54 P first 5 sts ⟨X, Y, some Z⟩ := by
  refine run_cons hm ho ?_
  have : (decide (Integ.ssprk54 = .vl2) && 4 - (if first then 1 else 0) == 1) = false := by simp
  rw [this, ← hF, ← hS]
  exact integrate_eq4 st F S u u1 u2 X Y Z hX hY hZ

end Verif.Integrator
