import Verif.Model.TaskId

/-!
# C21: task identifiers behave as sets of task numbers
-/
namespace Verif.TaskList
open TaskID

private theorem word_ext {a b : BitVec 64} :
    a = b ↔ ∀ m, m < 64 → a.getLsbD m = b.getLsbD m := by
  constructor
  · rintro rfl; simp
  · intro h
    apply BitVec.eq_of_getLsbD_eq
    intro i hi
    exact h i hi

private theorem has_low {s : TaskID} {m : Nat} (h : m < 64) :
    s.Has (m + 1) ↔ s.w0.getLsbD m = true := by
  unfold TaskID.Has
  have h1 : (m + 1 - 1) / 64 = 0 := by omega
  have h2 : (m + 1 - 1) % 64 = m := by omega
  rw [h1, h2]; simp; omega

private theorem has_high {s : TaskID} {m : Nat} (h : m < 64) :
    s.Has (m + 65) ↔ s.w1.getLsbD m = true := by
  unfold TaskID.Has
  have h1 : (m + 65 - 1) / 64 = 1 := by omega
  have h2 : (m + 65 - 1) % 64 = m := by omega
  rw [h1, h2]; simp; omega

/-- Every number in `1..128` is a low or a high bit. -/
private theorem has_cases {P : Nat → Prop} :
    (∀ k, 1 ≤ k → k ≤ 128 → P k) ↔ (∀ m, m < 64 → P (m + 1) ∧ P (m + 65)) := by
  constructor
  · intro h m hm; exact ⟨h _ (by omega) (by omega), h _ (by omega) (by omega)⟩
  · intro h k h1 h2
    by_cases hk : k ≤ 64
    · have := (h (k - 1) (by omega)).1; rwa [Nat.sub_add_cancel h1] at this
    · have := (h (k - 65) (by omega)).2
      rwa [show k - 65 + 65 = k by omega] at this

/-- Constructing an identifier from a task number in `1..128` is defined (no out-of-bounds
write) and yields the singleton set; number `0` yields the empty set. -/
theorem taskId_ofId_singleton (id : Nat) (h : id ≤ 128) :
    ∃ t, ofId id = some t ∧ ∀ k, t.Has k ↔ (k = id ∧ 1 ≤ id) := by
  unfold ofId
  by_cases h0 : id > 0
  · by_cases hl : (id - 1) / 64 = 0
    · refine ⟨⟨(1 : BitVec 64) <<< ((id - 1) % 64), 0⟩, by simp [h0, hl], ?_⟩
      intro k
      unfold TaskID.Has
      by_cases hk : (k - 1) / 64 = 0
      · simp only [hk, if_true, BitVec.getLsbD_shiftLeft]
        constructor
        · rintro ⟨a, b, c⟩
          simp [BitVec.getLsbD_one] at c
          omega
        · rintro ⟨rfl, hh⟩
          refine ⟨hh, h, ?_⟩
          simp; omega
      · simp [hk]; omega
    · have h1 : (id - 1) / 64 = 1 := by omega
      refine ⟨⟨0, (1 : BitVec 64) <<< ((id - 1) % 64)⟩, by simp [h0, h1], ?_⟩
      intro k
      unfold TaskID.Has
      by_cases hk : (k - 1) / 64 = 0
      · simp [hk]; omega
      · simp only [hk, if_false, BitVec.getLsbD_shiftLeft]
        constructor
        · rintro ⟨a, b, c⟩
          simp [BitVec.getLsbD_one] at c
          omega
        · rintro ⟨rfl, hh⟩
          refine ⟨hh, h, ?_⟩
          simp; omega
  · refine ⟨clear, by simp [h0], ?_⟩
    intro k
    unfold TaskID.Has clear
    simp; omega

example : ∃ t, ofId 74 = some t ∧ t.Has 74 ∧ ¬ t.Has 10 := by decide

/-- Task numbers above 128 are outside the bit field. -/
theorem taskId_ofId_out_of_range (id : Nat) : ofId id = none ↔ 128 < id := by
  unfold ofId
  constructor
  · intro h
    split at h
    · dsimp only at h
      split at h
      · simp at h
      · split at h
        · simp at h
        · omega
    · simp at h
  · intro h
    have : ¬ (id - 1) / 64 = 0 := by omega
    have : ¬ (id - 1) / 64 = 1 := by omega
    have : id > 0 := by omega
    simp [*]

/-- Nothing is a member of the cleared state. -/
theorem taskId_clear (k : Nat) : ¬ clear.Has k := by
  unfold TaskID.Has clear; simp

/-- `a | b` is the union. -/
theorem taskId_or (a b : TaskID) (k : Nat) : (a.or b).Has k ↔ a.Has k ∨ b.Has k := by
  unfold TaskID.Has TaskID.or
  split <;> simp <;> grind

/-- `SetFinished` is union. -/
theorem taskId_setFinished (s t : TaskID) (k : Nat) :
    (s.setFinished t).Has k ↔ s.Has k ∨ t.Has k := taskId_or s t k

/-- `CheckDependencies` is inclusion of the dependency set in the finished set. -/
theorem taskId_checkDependencies (s d : TaskID) :
    s.checkDependencies d = true ↔ ∀ k, d.Has k → s.Has k := by
  have key : (∀ k, d.Has k → s.Has k) ↔
      (∀ k, 1 ≤ k → k ≤ 128 → (d.Has k → s.Has k)) := by
    constructor
    · intro h k _ _; exact h k
    · intro h k hk; exact h k hk.1 hk.2.1 hk
  rw [key, has_cases (P := fun k => d.Has k → s.Has k)]
  unfold checkDependencies
  simp only [Bool.and_eq_true, beq_iff_eq, word_ext, BitVec.getLsbD_and]
  constructor
  · rintro ⟨h0, h1⟩ m hm
    rw [has_low hm, has_high hm, has_low hm, has_high hm]
    have := h0 m hm; have := h1 m hm
    grind
  · intro h
    constructor
    all_goals
      intro m hm
      have := h m hm
      rw [has_low hm, has_high hm, has_low hm, has_high hm] at this
      grind

/-- `IsUnfinished` says that the sets are disjoint. -/
theorem taskId_isUnfinished (s t : TaskID) :
    s.isUnfinished t = true ↔ ∀ k, t.Has k → ¬ s.Has k := by
  have key : (∀ k, t.Has k → ¬ s.Has k) ↔
      (∀ k, 1 ≤ k → k ≤ 128 → (t.Has k → ¬ s.Has k)) := by
    constructor
    · intro h k _ _; exact h k
    · intro h k hk; exact h k hk.1 hk.2.1 hk
  rw [key, has_cases (P := fun k => t.Has k → ¬ s.Has k)]
  unfold isUnfinished
  simp only [beq_iff_eq, word_ext]
  constructor
  · intro h m hm
    rw [has_low hm, has_high hm, has_low hm, has_high hm]
    have := h m hm
    simp at this
    grind
  · intro h m hm
    have := h m hm
    rw [has_low hm, has_high hm, has_low hm, has_high hm] at this
    simp
    grind

/-- `operator==` is equality of the sets. -/
theorem taskId_beq (a b : TaskID) : a.beq b = true ↔ ∀ k, a.Has k ↔ b.Has k := by
  constructor
  · intro h
    unfold beq at h
    simp at h
    obtain ⟨h0, h1⟩ := h
    intro k; unfold TaskID.Has; rw [h0, h1]
  · intro h
    unfold beq
    simp only [Bool.and_eq_true, beq_iff_eq, word_ext]
    constructor
    · intro m hm; have := h (m + 1); rw [has_low hm, has_low hm] at this; grind
    · intro m hm; have := h (m + 65); rw [has_high hm, has_high hm] at this; grind

example : (clear.setFinished ((ofId 3).get!)).isUnfinished ((ofId 67).get!) = true ∧
    (clear.setFinished ((ofId 3).get!)).isUnfinished ((ofId 3).get!) = false := by decide

end Verif.TaskList
