import Verif.Lemmas.Sched

/-! Helper lemmas about whole executions of the scheduler. -/
namespace Verif.TaskList
open TaskID

/-- `Anc l x j`: the task at position `j` is a direct or indirect dependency of the one at `x`. -/
inductive Anc (l : List (Nat × List Nat)) : Nat → Nat → Prop
  | dep {x j} : j < l.length → idAt l j ∈ depsAt l x → Anc l x j
  | trans {x y j} : Anc l x y → Anc l y j → Anc l x j

/-- Every event of a trace is a first completion attempt after all dependencies. -/
def GoodTrace (l : List (Nat × List Nat)) (ev : List Event) : Prop :=
  ∀ pre e post, ev = pre ++ e :: post →
    e.idx < l.length ∧ e.idx ∉ completed pre ∧ Ready l (completed pre) e.idx

theorem goodTrace_append {l : List (Nat × List Nat)} {env i s} {ev new : List Event}
    (h1 : GoodTrace l ev) (h2 : Pass l env i (completed ev) new s) : GoodTrace l (ev ++ new) := by
  intro pre e post h
  rcases List.append_eq_append_iff.1 h with ⟨a, ha, hb⟩ | ⟨a, ha, hb⟩
  · -- ev ++ a = pre
    have := h2.events a e post hb
    subst ha
    rw [completed_append]
    exact ⟨this.1, this.2.2.1, this.2.2.2.1⟩
  · cases a with
    | nil =>
      simp at ha hb
      have := h2.events [] e post (by simpa using hb.symm)
      subst ha
      simp at this
      exact ⟨this.1, this.2.2.1, this.2.2.2.1⟩
    | cons c a =>
      simp at hb
      obtain ⟨rfl, hb⟩ := hb
      exact h1 pre e a ha

/-- Everything about a run of one block. -/
structure RunFacts (l : List (Nat × List Nat)) (ts : TaskStates) (ev : List Event)
    (st : List ListStatus) : Prop where
  inv : Inv l ts (completed ev)
  good : GoodTrace l ev
  cnt : st.count .complete = if l.length ≠ 0 ∧ (completed ev).length = l.length then 1 else 0

theorem run_facts {l : List (Nat × List Nat)} (hv : Valid l) (envs : List (Nat → TaskStatus)) :
    RunFacts l (runBlock (l.map mkTask) envs).1 (runBlock (l.map mkTask) envs).2.1
      (runBlock (l.map mkTask) envs).2.2 := by
  induction envs with
  | nil =>
    refine ⟨?_, ?_, ?_⟩
    · have := inv_reset l; simpa [runBlock] using this
    · intro pre e post h; simp [runBlock] at h
    · show (0 : Nat) = if l.length ≠ 0 ∧ 0 = l.length then 1 else 0
      rw [if_neg (by omega)]
  | cons env envs ih =>
    obtain ⟨s, ts', new, h1, h2, h3⟩ := doAll_refines hv env ih.inv
    have hrun : runBlock (l.map mkTask) (env :: envs) =
        (ts', (runBlock (l.map mkTask) envs).2.1 ++ new,
          (runBlock (l.map mkTask) envs).2.2 ++ [s]) := by
      show (match runBlock (l.map mkTask) envs with
        | (ts, ev, st) => match doAllAvailableTasks env (l.map mkTask) ts with
          | (s, ts', e) => (ts', ev ++ e, st ++ [s])) = _
      rcases hr : runBlock (l.map mkTask) envs with ⟨a, b, c⟩
      rw [hr] at h1
      simp only [h1]
    rw [hrun]
    rcases h3 with ⟨h4, rfl, rfl⟩ | ⟨h4, h5⟩
    · refine ⟨by simpa using h2, by simpa using ih.good, ?_⟩
      have := ih.cnt
      simpa [List.count_append] using this
    · refine ⟨by rw [completed_append]; exact h2, goodTrace_append ih.good h5, ?_⟩
      have hst := h5.status h4
      have hc := ih.cnt
      rw [if_neg (by intro h; exact h4 h.2)] at hc
      simp only [List.count_append, completed_append, hc, Nat.zero_add]
      by_cases hs : s = .complete
      · have hl := hst.1.1 hs
        subst hs
        have h0 : l.length ≠ 0 := by
          intro h0
          have hne := hst.2.2.2 rfl
          rw [h0] at hl
          simp at hl
          exact hne hl.2
        simp [hl, h0]
      · rw [if_neg (by intro h; exact hs (hst.1.2 h.2))]
        cases s <;> simp_all

/-- A duplicate-free list of numbers below `n` has length `n` iff it contains all of them. -/
theorem length_eq_iff_all {D : List Nat} {n : Nat} (hn : D.Nodup) (hlt : ∀ i ∈ D, i < n) :
    D.length = n ↔ ∀ i, i < n → i ∈ D := by
  have hsub : D ⊆ List.range n := by intro i hi; simpa using hlt i hi
  constructor
  · intro h i hi
    apply Classical.byContradiction
    intro hni
    have h1 : (i :: D).Nodup := List.nodup_cons.2 ⟨hni, hn⟩
    have h2 := h1.length_le_of_subset (l₂ := List.range n) (by
      intro a ha
      rcases List.mem_cons.1 ha with rfl | ha
      · simpa using hi
      · exact hsub ha)
    simp at h2; omega
  · intro h
    have h1 := hn.length_le_of_subset hsub
    have h2 := (List.nodup_range (n := n)).length_le_of_subset (l₂ := D) (by
      intro i hi; exact h i (by simpa using hi))
    simp at h1 h2; omega

theorem goodTrace_closed {l : List (Nat × List Nat)} {ev : List Event} (h : GoodTrace l ev)
    {i : Nat} (hi : i ∈ completed ev) : Ready l (completed ev) i := by
  obtain ⟨s, hs, hm⟩ := mem_completed.1 hi
  obtain ⟨p, q, rfl⟩ := List.append_of_mem hm
  have := (h p _ q rfl).2.2
  intro d hd
  obtain ⟨j, hj, hj2⟩ := this d hd
  exact ⟨j, by rw [completed_append]; simp [hj], hj2⟩

theorem goodTrace_prefix {l : List (Nat × List Nat)} {a b : List Event} (h : GoodTrace l (a ++ b)) :
    GoodTrace l a := by
  intro pre e post he
  exact h pre e (post ++ b) (by rw [he]; simp)

theorem goodTrace_anc {l : List (Nat × List Nat)} (hv : Valid l) {x j : Nat} (hA : Anc l x j) :
    ∀ {ev : List Event}, GoodTrace l ev → x < l.length → (∀ i ∈ completed ev, i < l.length) →
      Ready l (completed ev) x → j ∈ completed ev := by
  induction hA with
  | dep hj hd =>
    intro ev _ hx hlt hr
    obtain ⟨j', h1, h2⟩ := hr _ hd
    have := idAt_inj hv (hlt _ h1) hj h2
    exact this ▸ h1
  | trans _ _ ih1 ih2 =>
    intro ev hg hx hlt hr
    have hy := ih1 hg hx hlt hr
    exact ih2 hg (hlt _ hy) hlt (goodTrace_closed hg hy)

end Verif.TaskList
