import Verif.Model.AmrFlag
import Mathlib.Order.MinMax
import Mathlib.Data.List.Induction
import Mathlib.Order.Lattice

/-! # Refinement flags and manual costs (C16, C17) -/
namespace Verif.AmrFlag

/-- The user criterion asked for derefinement (any negative value). -/
def Asks (c : Check) : Prop := ∃ r, c.crit = some r ∧ r < 0

/-- The user criterion asked for refinement. -/
def Wants (c : Check) : Prop := ∃ r, c.crit = some r ∧ 0 < r

/-- Some neighbour is finer. -/
def Finer (b : Blk) (c : Check) : Prop := ∃ l ∈ c.nblevel, l > b.level

/-- The last `k` checks of a history all asked for derefinement. -/
def Asked (k : Nat) (h : List Check) : Prop := k ≤ h.length ∧ ∀ c ∈ h.drop (h.length - k), Asks c

theorem run_snoc (b : Blk) (h : List Check) (c : Check) : run b (h ++ [c]) = check b (run b h) c := by
  simp [run]

theorem asked_zero (h : List Check) : Asked 0 h := by simp [Asked]

theorem asked_snoc (k : Nat) (h : List Check) (c : Check) :
    Asked (k + 1) (h ++ [c]) ↔ Asked k h ∧ Asks c := by
  unfold Asked
  simp only [List.length_append, List.length_cons, List.length_nil]
  constructor
  · rintro ⟨h1, h2⟩
    rw [show h.length + (0 + 1) - (k + 1) = h.length - k by omega, List.drop_append_of_le_length (by omega)] at h2
    exact ⟨⟨by omega, fun c hc => h2 c (by simp [hc])⟩, h2 c (by simp)⟩
  · rintro ⟨⟨h1, h2⟩, h3⟩
    refine ⟨by omega, ?_⟩
    rw [show h.length + (0 + 1) - (k + 1) = h.length - k by omega, List.drop_append_of_le_length (by omega)]
    intro c' hc'
    rcases List.mem_append.1 hc' with h | h
    · exact h2 c' h
    · simp at h; subst h; exact h3

theorem ask_iff (c : Check) : max (-1) (match c.crit with | none => (0 : Int) | some r => r) < 0 ↔ Asks c := by
  unfold Asks
  rcases c.crit with _ | r <;> simp

theorem want_iff (c : Check) : 0 < max (-1) (match c.crit with | none => (0 : Int) | some r => r) ↔ Wants c := by
  unfold Wants
  rcases c.crit with _ | r <;> simp

theorem finer_iff (b : Blk) (c : Check) :
    c.nblevel.countP (fun l => decide (l > b.level)) > 0 ↔ Finer b c := by
  simp [Finer, List.countP_pos_iff]

/-- `deref_count_` is the length of the current run of requests (0 on the root level). -/
theorem count_spec (b : Blk) (h : List Check) :
    0 ≤ (run b h).derefCount ∧ (b.level ≠ b.rootLevel → ∀ k : Nat, (k : Int) ≤ (run b h).derefCount ↔ Asked k h) := by
  induction h using List.reverseRecOn with
  | nil => 
    refine ⟨by simp [run], fun _ k => ?_⟩
    simp [run, Asked]
  | append_singleton h c ih =>
    rw [run_snoc]
    obtain ⟨i0, i1⟩ := ih
    by_cases ha : Asks c
    · have h1 := (ask_iff c).2 ha
      unfold check
      simp only
      generalize max (-1) (match c.crit with | none => (0 : Int) | some r => r) = a at *
      rw [if_neg (show ¬ a ≥ 0 by omega), if_neg (show ¬ a > 0 by omega), if_pos h1]
      by_cases hr : b.level = b.rootLevel
      · rw [if_pos hr]; exact ⟨by simp, fun h => absurd hr h⟩
      · rw [if_neg hr]
        have hc : ∀ f : Flag, f.derefCount = (run b h).derefCount + 1 → 0 ≤ f.derefCount ∧
            (b.level ≠ b.rootLevel → ∀ k : Nat, (k : Int) ≤ f.derefCount ↔ Asked k (h ++ [c])) := by
          intro f hf
          rw [hf]
          refine ⟨by omega, fun _ k => ?_⟩
          rcases k with _ | k
          · simp [asked_zero]; omega
          · rw [asked_snoc, ← i1 hr k]
            constructor
            · intro h; exact ⟨by omega, ha⟩
            · intro h; have := h.1; omega
        split
        · exact hc _ rfl
        · split
          · exact hc _ rfl
          · exact hc _ rfl
    · have h1 := mt (ask_iff c).1 ha
      have hz : (check b (run b h) c).derefCount = 0 := by
        unfold check
        simp only
        generalize max (-1) (match c.crit with | none => (0 : Int) | some r => r) = a at *
        rw [if_pos (show a ≥ 0 by omega)]
        split
        · split <;> rfl
        · rfl
      rw [hz]
      refine ⟨by omega, fun _ k => ?_⟩
      rcases k with _ | k
      · simp [asked_zero]
      · rw [asked_snoc]
        constructor
        · intro h; omega
        · intro h; exact absurd h.2 ha

/-- **C17** After any history of checks ending with `c`: refinement is requested exactly when the
criterion wants it and the block is not at the maximum level; derefinement is requested exactly when
the block is not at the root level, no neighbour is finer, and the criterion asked for derefinement
in this check and in the last `threshold` checks; otherwise nothing is requested. -/
theorem refine_flag_spec (b : Blk) (h : List Check) (c : Check) :
    ((run b (h ++ [c])).refine = 1 ↔ Wants c ∧ b.level ≠ b.maxLevel) ∧
    ((run b (h ++ [c])).refine = -1 ↔ b.level ≠ b.rootLevel ∧ ¬ Finer b c ∧ Asks c ∧
      Asked b.threshold.toNat (h ++ [c])) ∧
    ((run b (h ++ [c])).refine = 1 ∨ (run b (h ++ [c])).refine = -1 ∨ (run b (h ++ [c])).refine = 0) := by
  have hs := count_spec b (h ++ [c])
  have hcnt : b.level ≠ b.rootLevel → ((run b (h ++ [c])).derefCount ≥ b.threshold ↔
      Asked b.threshold.toNat (h ++ [c])) := by
    intro hr
    rw [← hs.2 hr]
    have := hs.1
    omega
  generalize hA : Asked b.threshold.toNat (h ++ [c]) = A at *
  clear hs hA
  rw [run_snoc] at *
  rw [← ask_iff c, ← want_iff c, ← finer_iff b c]
  generalize run b h = s at *
  have hch : check b s c = (let aret := max (-1) (match c.crit with | none => (0 : Int) | some r => r)
    let ec := List.countP (fun l => decide (l > b.level)) c.nblevel
    let cnt := if aret ≥ 0 then 0 else s.derefCount
    if aret > 0 then
      if b.level = b.maxLevel then ⟨0, cnt⟩ else ⟨1, cnt⟩
    else if aret < 0 then
      if b.level = b.rootLevel then ⟨0, 0⟩
      else if ec > 0 then ⟨0, cnt + 1⟩
        else if cnt + 1 ≥ b.threshold then ⟨-1, cnt + 1⟩ else ⟨0, cnt + 1⟩
    else ⟨0, cnt⟩) := rfl
  rw [hch] at hcnt ⊢
  clear hch
  simp only at hcnt ⊢
  generalize max (-1) (match c.crit with | none => (0 : Int) | some r => r) = a at *
  generalize List.countP (fun l => decide (l > b.level)) c.nblevel = ec at *
  by_cases h1 : a > 0
  · have h2 : ¬ a < 0 := by omega
    simp only [if_pos h1]
    by_cases h3 : b.level = b.maxLevel
    · simp [h2, h3]
    · simp [h1, h2, h3]
  · by_cases h2 : a < 0
    · simp only [if_neg h1, if_pos h2] at *
      by_cases h3 : b.level = b.rootLevel
      · simp [h3, h1]
      · rw [if_neg h3] at hcnt ⊢
        by_cases h4 : ec > 0
        · simp [h4, h1]
        · simp only [if_neg h4] at *
          have := hcnt h3
          by_cases h5 : (if a ≥ 0 then 0 else s.derefCount) + 1 ≥ b.threshold
          · simp only [if_pos h5] at *
            have hA : A := this.1 h5
            simp only [h1, false_and, iff_false, h2, hA, h3, h4, not_false_eq_true, ne_eq, and_self]
            decide
          · simp only [if_neg h5] at *
            have hA : ¬ A := fun h => h5 (this.2 h)
            simp [h1, hA]
    · simp [h1, h2]

/-- A block below the root level asks for derefinement after three requests in a row, not after two. -/
example : (run ⟨4, 2, 6, 3⟩ [⟨some (-1), []⟩, ⟨some 0, []⟩, ⟨some (-5), [4]⟩, ⟨some (-1), [5]⟩]).refine = 0 ∧
    (run ⟨4, 2, 6, 3⟩ [⟨some 0, []⟩, ⟨some (-5), [4]⟩, ⟨some (-1), [5]⟩, ⟨some (-1), [3, 4]⟩]).refine = -1 := by
  decide

/-- **C16 (negation)** `SetCostForLoadBalancing` takes the minimum with `TINY_NUMBER`: any two
costs not below it become equal, so that user costs do not steer the load balance. -/
theorem manual_costs_ignored {α : Type} [LinearOrder α] (tiny old c c' : α) (h : tiny ≤ c) (h' : tiny ≤ c') :
    setCost tiny true old c = tiny ∧ setCost tiny true old c = setCost tiny true old c' := by
  unfold setCost
  simp [min_eq_right h, min_eq_right h']

/-- **C16 (what holds)** Costs not above `TINY_NUMBER` are kept, and without manual load balancing
nothing changes. -/
theorem manual_cost_partial {α : Type} [LinearOrder α] (tiny old c : α) :
    (c ≤ tiny → setCost tiny true old c = c) ∧ setCost tiny false old c = old := by
  unfold setCost
  exact ⟨fun h => by simp [min_eq_left h], by simp⟩

example : setCost (1 : Int) true 5 7 = setCost (1 : Int) true 5 1000 ∧ setCost (1 : Int) true 5 (-3) = -3 := by decide

end Verif.AmrFlag
