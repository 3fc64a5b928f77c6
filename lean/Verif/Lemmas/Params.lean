import Verif.Model.Params
import Mathlib.Data.List.Basic

/-! Helper lemmas for runtime parameters. -/
namespace Verif.Params

/-! ## Lookup -/

theorem find?_map_other {b : Str} {f : Block → Block} (hf : ∀ x, (f x).name = x.name) (s : Store) (b' : Str) :
    getBlock (onBlock b f s) b' = if b' = b then (getBlock s b').map f else getBlock s b' := by
  induction s with
  | nil => simp [onBlock, getBlock]
  | cons x xs ih =>
    unfold getBlock at ih ⊢
    unfold onBlock
    by_cases h : x.name = b
    · rw [if_pos (by simp [h])]
      by_cases hb : b' = b
      · simp [List.find?_cons, hf, h, hb]
      · simp [List.find?_cons, hf, h, hb, Ne.symm hb]
    · rw [if_neg (by simp [h])]
      by_cases hb : x.name = b'
      · have : b' ≠ b := fun e => h (hb.trans e)
        simp [List.find?_cons, hb, this]
      · simp only [List.find?_cons, beq_iff_eq, hb, ih]
        have : (x.name == b') = false := by simp [hb]
        simp only [this]

theorem getBlock_findOrAdd (s : Store) (b b' : Str) :
    getBlock (findOrAddBlock s b) b' =
      if b' = b then some ((getBlock s b).getD ⟨b, [], 0, 0⟩) else getBlock s b' := by
  unfold findOrAddBlock
  by_cases h : s.any (fun x => x.name == b)
  · rw [if_pos h]
    split
    · rename_i hb
      subst hb
      unfold getBlock
      have : ∃ y, s.find? (fun x => x.name == b') = some y := by
        rw [← Option.isSome_iff_exists, List.find?_isSome]
        simpa [List.any_eq_true] using h
      obtain ⟨y, hy⟩ := this
      simp [hy]
    · rfl
  · rw [if_neg h]
    have hn : getBlock s b = none := by
      unfold getBlock
      rw [List.find?_eq_none]
      simpa [List.any_eq_true] using h
    unfold getBlock at *
    rw [List.find?_append]
    split
    · rename_i hb
      subst hb
      simp [hn]
    · rename_i hb
      simp [Ne.symm hb]

theorem getLine_setLine (n v c n' : Str) (ls : List Line) :
    (setLine n v c ls).find? (fun l => l.name == n') =
      if n' = n then some ⟨n, v, c⟩ else ls.find? (fun l => l.name == n') := by
  induction ls with
  | nil =>
    unfold setLine
    by_cases h : n' = n
    · simp [h]
    · simp [h, Ne.symm h]
  | cons l ls ih =>
    unfold setLine
    by_cases hl : l.name = n
    · rw [if_pos (by simp [hl])]
      by_cases h : n' = n
      · simp [h, hl, List.find?_cons]
      · have : l.name ≠ n' := fun e => h (e.symm.trans hl)
        simp [h, List.find?_cons, this]
    · rw [if_neg (by simp [hl])]
      by_cases h : l.name = n'
      · have : n' ≠ n := fun e => hl (h.trans e)
        simp [List.find?_cons, h, this]
      · have h2 : (l.name == n') = false := by simp [h]
        simp only [List.find?_cons, h2, ih]

theorem getLine_add (x : Block) (n v c n' : Str) :
    (x.add n v c).getLine n' = if n' = n then some ⟨n, v, c⟩ else x.getLine n' :=
  getLine_setLine n v c n' x.lines

/-- The line found for block and name. -/
def lookup (s : Store) (b n : Str) : Option Line := (getBlock s b).bind (·.getLine n)

theorem getString_eq (s : Store) (b n : Str) : getString s b n = (lookup s b n).map (·.value) := by
  unfold getString lookup
  cases getBlock s b <;> simp
  rename_i x
  cases x.getLine n <;> rfl

theorem exists_eq (s : Store) (b n : Str) : exists? s b n = (lookup s b n).isSome := by
  unfold exists? lookup
  cases getBlock s b <;> simp
  rename_i x
  cases x.getLine n <;> rfl

theorem lookup_findOrAdd (s : Store) (b b' n : Str) : lookup (findOrAddBlock s b) b' n = lookup s b' n := by
  unfold lookup
  rw [getBlock_findOrAdd]
  split
  · rename_i h
    subst h
    cases getBlock s b' <;> simp [Block.getLine]
  · rfl

theorem lookup_onBlock_add (s : Store) (b n v c b' n' : Str) (hb : (getBlock s b).isSome) :
    lookup (onBlock b (fun x => x.add n v c) s) b' n' =
      if b' = b ∧ n' = n then some ⟨n, v, c⟩ else lookup s b' n' := by
  unfold lookup
  rw [find?_map_other (by intro x; rfl)]
  by_cases h : b' = b
  · subst h
    obtain ⟨x, hx⟩ := Option.isSome_iff_exists.1 hb
    rw [if_pos rfl, hx]
    simp only [Option.map_some, Option.bind_some, getLine_add]
    by_cases hn : n' = n <;> simp [hn]
  · simp [h]

theorem lookup_addParam (s : Store) (b n v c b' n' : Str) :
    lookup (addParam s b n v c) b' n' =
      if b' = b ∧ n' = n then some ⟨n, v, c⟩ else lookup s b' n' := by
  unfold addParam
  rw [lookup_onBlock_add, lookup_findOrAdd]
  rw [getBlock_findOrAdd]; simp

theorem getLine_setValue_go (n v n' : Str) (ls : List Line) :
    (Block.setValue.go n v ls).find? (fun l => l.name == n') =
      if n' = n then (ls.find? (fun l => l.name == n')).map (fun l => { l with value := v })
      else ls.find? (fun l => l.name == n') := by
  induction ls with
  | nil => simp [Block.setValue.go]
  | cons l ls ih =>
    unfold Block.setValue.go
    by_cases hl : l.name = n
    · rw [if_pos (by simp [hl])]
      by_cases h : n' = n
      · simp [h, hl, List.find?_cons]
      · have : l.name ≠ n' := fun e => h (e.symm.trans hl)
        simp [h, List.find?_cons, this]
    · rw [if_neg (by simp [hl])]
      by_cases h : l.name = n'
      · have : n' ≠ n := fun e => hl (h.trans e)
        simp [List.find?_cons, h, this]
      · have h2 : (l.name == n') = false := by simp [h]
        simp only [List.find?_cons, h2, ih]

theorem lookup_setValue (s : Store) (b n v b' n' : Str) :
    lookup (onBlock b (fun x => x.setValue n v) s) b' n' =
      if b' = b ∧ n' = n then (lookup s b' n').map (fun l => { l with value := v }) else lookup s b' n' := by
  unfold lookup
  rw [find?_map_other (by intro x; rfl)]
  by_cases h : b' = b
  · subst h
    rw [if_pos rfl]
    cases getBlock s b' with
    | none => simp
    | some x =>
      simp only [Option.map_some, Option.bind_some, true_and]
      exact getLine_setValue_go n v n' x.lines
  · simp [h]

/-! ## Invariants -/

/-- Names are distinct and the recorded lengths bound all names and values. -/
structure Block.Ok (b : Block) : Prop where
  nodup : (b.lines.map (·.name)).Nodup
  len : ∀ l ∈ b.lines, l.name.length ≤ b.maxName ∧ l.value.length ≤ b.maxValue

structure Ok (s : Store) : Prop where
  nodup : (s.map (·.name)).Nodup
  blocks : ∀ b ∈ s, b.Ok

theorem mem_setLine {n v c : Str} {ls : List Line} {l : Line} (h : l ∈ setLine n v c ls) :
    l = ⟨n, v, c⟩ ∨ l ∈ ls := by
  induction ls with
  | nil => simpa [setLine] using h
  | cons a ls ih =>
    unfold setLine at h
    split at h
    · rename_i hn
      rcases List.mem_cons.1 h with rfl | h
      · left
        simp only [beq_iff_eq] at hn
        rw [← hn]
      · right; simp [h]
    · rcases List.mem_cons.1 h with rfl | h
      · right; simp
      · rcases ih h with h | h
        · exact .inl h
        · right; simp [h]

theorem setLine_names (n v c : Str) (ls : List Line) :
    (setLine n v c ls).map (·.name) =
      if ls.any (fun l => l.name == n) then ls.map (·.name) else ls.map (·.name) ++ [n] := by
  induction ls with
  | nil => simp [setLine]
  | cons a ls ih =>
    unfold setLine
    by_cases h : a.name = n
    · rw [if_pos (by simp [h])]
      simp [h]
    · rw [if_neg (by simp [h])]
      simp only [List.map_cons, ih, List.any_cons]
      have : (a.name == n) = false := by simp [h]
      rw [this, Bool.false_or]
      split <;> simp

theorem Block.Ok.add {b : Block} (h : b.Ok) (n v c : Str) : (b.add n v c).Ok := by
  constructor
  · show ((setLine n v c b.lines).map (·.name)).Nodup
    rw [setLine_names]
    split
    · exact h.nodup
    · rename_i hn
      rw [List.nodup_append]
      refine ⟨h.nodup, by simp, ?_⟩
      intro a ha a' ha'
      simp only [List.mem_singleton] at ha'
      subst ha'
      rintro rfl
      obtain ⟨l, hl, rfl⟩ := List.mem_map.1 ha
      exact hn (List.any_eq_true.2 ⟨l, hl, by simp⟩)
  · intro l hl
    have hl' := mem_setLine (show l ∈ setLine n v c b.lines from hl)
    simp only [Block.add]
    rcases hl' with rfl | hl'
    · refine ⟨?_, ?_⟩
      · dsimp only
        split
        · exact Nat.le_refl _
        · split
          · rename_i h1
            obtain ⟨l', hl', he⟩ := List.any_eq_true.1 h1
            have := (h.len l' hl').1
            simp only [beq_iff_eq] at he
            rw [← he]; exact this
          · split <;> omega
      · dsimp only
        split
        · exact Nat.le_refl _
        · split <;> omega
    · have h1 : b.lines ≠ [] := List.ne_nil_of_mem hl'
      have h2 := h.len l hl'
      rw [if_neg h1, if_neg h1]
      refine ⟨?_, ?_⟩
      · split
        · exact h2.1
        · split <;> omega
      · split <;> omega

theorem onBlock_names {b : Str} {f : Block → Block} (hf : ∀ x, (f x).name = x.name) (s : Store) :
    (onBlock b f s).map (·.name) = s.map (·.name) := by
  induction s with
  | nil => rfl
  | cons x xs ih =>
    unfold onBlock
    split
    · simp [hf]
    · simp [ih]

theorem mem_onBlock {b : Str} {f : Block → Block} {s : Store} {x : Block} (h : x ∈ onBlock b f s) :
    x ∈ s ∨ ∃ y ∈ s, y.name = b ∧ x = f y := by
  induction s with
  | nil => simp [onBlock] at h
  | cons a xs ih =>
    unfold onBlock at h
    split at h
    · rename_i hn
      rcases List.mem_cons.1 h with rfl | h
      · exact .inr ⟨a, by simp, by simpa using hn, rfl⟩
      · left; simp [h]
    · rcases List.mem_cons.1 h with rfl | h
      · left; simp
      · rcases ih h with h | ⟨y, hy, h1, h2⟩
        · left; simp [h]
        · exact .inr ⟨y, by simp [hy], h1, h2⟩

theorem Ok.onBlock {s : Store} (h : Ok s) {b : Str} {f : Block → Block} (hf : ∀ x, (f x).name = x.name)
    (hok : ∀ x, x.Ok → (f x).Ok) : Ok (onBlock b f s) := by
  refine ⟨by rw [onBlock_names hf]; exact h.nodup, ?_⟩
  intro x hx
  rcases mem_onBlock hx with hx | ⟨y, hy, _, rfl⟩
  · exact h.blocks x hx
  · exact hok y (h.blocks y hy)

theorem Ok.findOrAdd {s : Store} (h : Ok s) (b : Str) : Ok (findOrAddBlock s b) := by
  unfold findOrAddBlock
  split
  · exact h
  · rename_i hn
    refine ⟨?_, ?_⟩
    · rw [List.map_append, List.nodup_append]
      refine ⟨h.nodup, by simp, ?_⟩
      intro a ha a' ha'
      simp only [List.map_cons, List.map_nil, List.mem_singleton] at ha'
      subst ha'
      rintro rfl
      obtain ⟨l, hl, rfl⟩ := List.mem_map.1 ha
      exact hn (List.any_eq_true.2 ⟨l, hl, by simp⟩)
    · intro x hx
      rcases List.mem_append.1 hx with hx | hx
      · exact h.blocks x hx
      · simp only [List.mem_singleton] at hx
        subst hx
        exact ⟨by simp, by simp⟩

theorem Ok.addParam {s : Store} (h : Ok s) (b n v c : Str) : Ok (addParam s b n v c) :=
  (h.findOrAdd b).onBlock (fun _ => rfl) (fun _ hx => hx.add n v c)

theorem setValue_go_names (n v : Str) (ls : List Line) :
    (Block.setValue.go n v ls).map (fun l => (l.name, l.comment)) = ls.map (fun l => (l.name, l.comment)) := by
  induction ls with
  | nil => rfl
  | cons a ls ih =>
    unfold Block.setValue.go
    split
    · rfl
    · simp only [List.map_cons, ih]

theorem mem_setValue_go {n v : Str} {ls : List Line} {l : Line} (h : l ∈ Block.setValue.go n v ls) :
    l ∈ ls ∨ ∃ l' ∈ ls, l = { l' with value := v } := by
  induction ls with
  | nil => simp [Block.setValue.go] at h
  | cons a ls ih =>
    unfold Block.setValue.go at h
    split at h
    · rcases List.mem_cons.1 h with rfl | h
      · exact .inr ⟨a, by simp, rfl⟩
      · left; simp [h]
    · rcases List.mem_cons.1 h with rfl | h
      · left; simp
      · rcases ih h with h | ⟨y, hy, h1⟩
        · left; simp [h]
        · exact .inr ⟨y, by simp [hy], h1⟩

theorem Block.Ok.setValue {b : Block} (h : b.Ok) (n v : Str) : (b.setValue n v).Ok := by
  constructor
  · show ((Block.setValue.go n v b.lines).map (·.name)).Nodup
    have := congrArg (List.map Prod.fst) (setValue_go_names n v b.lines)
    simp only [List.map_map] at this
    have e : (Prod.fst ∘ fun l : Line => (l.name, l.comment)) = (·.name) := rfl
    rw [e] at this
    rw [this]; exact h.nodup
  · intro l hl
    simp only [Block.setValue]
    rcases mem_setValue_go (show l ∈ Block.setValue.go n v b.lines from hl) with hl | ⟨l', hl', rfl⟩
    · have := h.len l hl
      refine ⟨this.1, ?_⟩
      split <;> omega
    · have := h.len l' hl'
      refine ⟨this.1, ?_⟩
      dsimp only
      split <;> omega

theorem Ok.loadLines {ls : List Str} {s s' : Store} {cur : Option Str} (h : Ok s)
    (hl : loadLines s cur ls = some s') : Ok s' := by
  induction ls generalizing s cur with
  | nil => simp only [Params.loadLines, Option.some.injEq] at hl; exact hl ▸ h
  | cons l ls ih =>
    unfold Params.loadLines at hl
    split at hl
    · exact ih h hl
    · simp only [Option.some.injEq] at hl; exact hl ▸ h
    · simp at hl
    · exact ih (h.findOrAdd _) hl
    · rename_i l' _
      split at hl
      · simp at hl
      · exact ih (h.onBlock (f := fun x => x.add l'.name l'.value l'.comment) (fun _ => rfl)
          (fun _ hx => hx.add _ _ _)) hl

theorem Ok.nil : Ok [] := ⟨by simp, by simp⟩

end Verif.Params
