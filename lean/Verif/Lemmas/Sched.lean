import Verif.Model.Sched
import Verif.Props.TaskId

/-! Helper lemmas for the scheduler theorems: refinement of the bit-field scheduler to a
scheduler on lists of completed positions. -/
namespace Verif.TaskList
open TaskID

/-- Task number at a list position. -/
def idAt (l : List (Nat × List Nat)) (i : Nat) : Nat := (l.getD i (0, [])).1
/-- Dependencies of the task at a list position. -/
def depsAt (l : List (Nat × List Nat)) (i : Nat) : List Nat := (l.getD i (0, [])).2

/-- A task list as the code requires it: task numbers are distinct and in `1..128`, and so
are the dependencies. -/
structure Valid (l : List (Nat × List Nat)) : Prop where
  nodup : (l.map Prod.fst).Nodup
  ids : ∀ e ∈ l, 1 ≤ e.1 ∧ e.1 ≤ 128
  deps : ∀ e ∈ l, ∀ d ∈ e.2, 1 ≤ d ∧ d ≤ 128

/-- Positions of the tasks completed in a trace, in order. -/
def completed (ev : List Event) : List Nat :=
  (ev.filter (fun e => e.status ≠ .fail)).map Event.idx

@[simp] theorem completed_nil : completed [] = [] := rfl
theorem completed_append (a b : List Event) : completed (a ++ b) = completed a ++ completed b := by
  simp [completed]
theorem completed_cons_fail (i : Nat) (b : List Event) :
    completed (⟨i, .fail⟩ :: b) = completed b := by simp [completed]
theorem completed_cons {i : Nat} {s : TaskStatus} (b : List Event) (h : s ≠ .fail) :
    completed (⟨i, s⟩ :: b) = i :: completed b := by simp [completed, h]

theorem mem_completed {ev : List Event} {i : Nat} :
    i ∈ completed ev ↔ ∃ s, s ≠ .fail ∧ ⟨i, s⟩ ∈ ev := by
  simp only [completed, List.mem_map, List.mem_filter]
  constructor
  · rintro ⟨⟨j, s⟩, ⟨h1, h2⟩, rfl⟩; exact ⟨s, by simpa using h2, h1⟩
  · rintro ⟨s, h1, h2⟩; exact ⟨⟨i, s⟩, ⟨h2, by simpa using h1⟩, rfl⟩

theorem has_ofId {id : Nat} (h1 : 1 ≤ id) (h2 : id ≤ 128) (k : Nat) :
    ((ofId id).getD clear).Has k ↔ k = id := by
  obtain ⟨t, ht, hk⟩ := taskId_ofId_singleton id h2
  rw [ht]; simp [hk, h1]

theorem has_fold {ds : List Nat} (h : ∀ d ∈ ds, 1 ≤ d ∧ d ≤ 128) (a : TaskID) (k : Nat) :
    (ds.foldl (fun a d => a.or ((ofId d).getD clear)) a).Has k ↔ a.Has k ∨ k ∈ ds := by
  induction ds generalizing a with
  | nil => simp
  | cons d ds ih =>
    have hd := h d (by simp)
    rw [List.foldl_cons, ih (fun d' hd' => h d' (by simp [hd'])), taskId_or,
      has_ofId hd.1 hd.2, List.mem_cons]
    grind

theorem has_tid {e : Nat × List Nat} (h : 1 ≤ e.1 ∧ e.1 ≤ 128) (k : Nat) :
    (mkTask e).tid.Has k ↔ k = e.1 := has_ofId h.1 h.2 k

theorem has_dep {e : Nat × List Nat} (h : ∀ d ∈ e.2, 1 ≤ d ∧ d ≤ 128) (k : Nat) :
    (mkTask e).dep.Has k ↔ k ∈ e.2 := by
  unfold mkTask; rw [has_fold h]; simp [taskId_clear]

/-- All dependencies of position `i` are completed. -/
def Ready (l : List (Nat × List Nat)) (D : List Nat) (i : Nat) : Prop :=
  ∀ d ∈ depsAt l i, ∃ j ∈ D, idAt l j = d

/-- Simulation relation between the code's state and the list of completed positions. -/
structure Inv (l : List (Nat × List Nat)) (ts : TaskStates) (D : List Nat) : Prop where
  fin : ∀ k, ts.finished.Has k ↔ ∃ j ∈ D, idAt l j = k
  nodup : D.Nodup
  lt : ∀ j ∈ D, j < l.length
  left : ts.left = (l.length : Int) - D.length
  first_le : ts.first ≤ l.length
  first : ∀ j, j < ts.first → j ∈ D

theorem idAt_eq {l : List (Nat × List Nat)} {i : Nat} (h : i < l.length) : idAt l i = l[i].1 := by
  simp [idAt, List.getD_eq_getElem?_getD, h]
theorem depsAt_eq {l : List (Nat × List Nat)} {i : Nat} (h : i < l.length) :
    depsAt l i = l[i].2 := by
  simp [depsAt, List.getD_eq_getElem?_getD, h]

theorem idAt_inj {l : List (Nat × List Nat)} (hv : Valid l) {i j : Nat}
    (hi : i < l.length) (hj : j < l.length) (h : idAt l i = idAt l j) : i = j := by
  rw [idAt_eq hi, idAt_eq hj] at h
  have := hv.nodup
  rw [List.Nodup, List.pairwise_iff_getElem] at this
  rcases Nat.lt_trichotomy i j with hlt | heq | hlt
  · exact absurd h (by have h3 := this i j (by simpa using hi) (by simpa using hj) hlt; rwa [List.getElem_map, List.getElem_map] at h3)
  · exact heq
  · exact absurd h.symm (by have h3 := this j i (by simpa using hj) (by simpa using hi) hlt; rwa [List.getElem_map, List.getElem_map] at h3)

theorem inv_reset (l : List (Nat × List Nat)) : Inv l (TaskStates.reset l.length) [] where
  fin k := by simp [TaskStates.reset, taskId_clear]
  nodup := List.nodup_nil
  lt := by simp
  left := by simp [TaskStates.reset]
  first_le := by simp [TaskStates.reset]
  first := by simp [TaskStates.reset]

/-- Big-step relation of one pass over the list, on completed positions. -/
inductive Pass (l : List (Nat × List Nat)) (env : Nat → TaskStatus) :
    Nat → List Nat → List Event → ListStatus → Prop
  | nil {D} : Pass l env l.length D [] .stuck
  | done {i D ev s} : i < l.length → i ∈ D → Pass l env (i + 1) D ev s → Pass l env i D ev s
  | blocked {i D ev s} : i < l.length → i ∉ D → ¬ Ready l D i → Pass l env (i + 1) D ev s →
      Pass l env i D ev s
  | fail {i D ev s} : i < l.length → i ∉ D → Ready l D i → env i = .fail →
      Pass l env (i + 1) D ev s → Pass l env i D (⟨i, .fail⟩ :: ev) s
  | next {i D ev s} : i < l.length → i ∉ D → Ready l D i → env i = .next →
      D.length + 1 ≠ l.length → Pass l env (i + 1) (D ++ [i]) ev s →
      Pass l env i D (⟨i, .next⟩ :: ev) s
  | succ {i D} : i < l.length → i ∉ D → Ready l D i → env i = .success →
      D.length + 1 ≠ l.length → Pass l env i D [⟨i, .success⟩] .running
  | complete {i D} : i < l.length → i ∉ D → Ready l D i → env i ≠ .fail →
      D.length + 1 = l.length → Pass l env i D [⟨i, env i⟩] .complete

theorem isUnfinished_iff {l : List (Nat × List Nat)} (hv : Valid l) {ts : TaskStates}
    {D : List Nat} (hI : Inv l ts D) {i : Nat} (hi : i < l.length) :
    ts.finished.isUnfinished (mkTask l[i]).tid = true ↔ i ∉ D := by
  rw [taskId_isUnfinished]
  have hid := hv.ids l[i] (List.getElem_mem hi)
  constructor
  · intro h hc
    exact h l[i].1 ((has_tid hid _).2 rfl) ((hI.fin _).2 ⟨i, hc, idAt_eq hi⟩)
  · intro h k hk hf
    rw [has_tid hid] at hk
    obtain ⟨j, hj, hjk⟩ := (hI.fin k).1 hf
    have : j = i := idAt_inj hv (hI.lt j hj) hi (by rw [hjk, hk, idAt_eq hi])
    exact h (this ▸ hj)

theorem checkDeps_iff {l : List (Nat × List Nat)} (hv : Valid l) {ts : TaskStates}
    {D : List Nat} (hI : Inv l ts D) {i : Nat} (hi : i < l.length) :
    ts.finished.checkDependencies (mkTask l[i]).dep = true ↔ Ready l D i := by
  rw [taskId_checkDependencies]
  have hd := hv.deps l[i] (List.getElem_mem hi)
  unfold Ready
  rw [depsAt_eq hi]
  constructor
  · intro h d hdm; exact (hI.fin d).1 (h d ((has_dep hd d).2 hdm))
  · intro h k hk; exact (hI.fin k).2 (h k ((has_dep hd k).1 hk))

theorem inv_finish {l : List (Nat × List Nat)} (hv : Valid l) {ts : TaskStates}
    {D : List Nat} (hI : Inv l ts D) {i : Nat} (hi : i < l.length) (hn : i ∉ D) (f : Nat)
    (hf : f = ts.first ∨ (ts.first = i ∧ f = ts.first + 1)) :
    Inv l ⟨ts.finished.setFinished (mkTask l[i]).tid, f, ts.left - 1⟩ (D ++ [i]) where
  fin k := by
    rw [taskId_setFinished, hI.fin, has_tid (hv.ids l[i] (List.getElem_mem hi))]
    constructor
    · rintro (⟨j, hj, h⟩ | h)
      · exact ⟨j, by simp [hj], h⟩
      · exact ⟨i, by simp, by rw [idAt_eq hi, h]⟩
    · rintro ⟨j, hj, h⟩
      rw [List.mem_append, List.mem_singleton] at hj
      rcases hj with hj | rfl
      · exact .inl ⟨j, hj, h⟩
      · exact .inr (by rw [← h, idAt_eq hi])
  nodup := by
    rw [List.nodup_append]
    refine ⟨hI.nodup, by simp, ?_⟩
    intro a ha b hb; simp at hb; subst hb; intro h; exact hn (h ▸ ha)
  lt j hj := by
    rw [List.mem_append, List.mem_singleton] at hj
    rcases hj with hj | rfl
    · exact hI.lt j hj
    · exact hi
  left := by have := hI.left; simp; omega
  first_le := by
    rcases hf with rfl | ⟨h1, rfl⟩
    · exact hI.first_le
    · dsimp only; omega
  first j hj := by
    dsimp only at hj
    rw [List.mem_append, List.mem_singleton]
    rcases hf with rfl | ⟨h1, rfl⟩
    · exact .inl (hI.first j hj)
    · by_cases h : j = i
      · exact .inr h
      · exact .inl (hI.first j (by omega))

theorem inv_skip_done {l : List (Nat × List Nat)} {ts : TaskStates}
    {D : List Nat} (hI : Inv l ts D) {i : Nat} (hi : i < l.length) (hd : i ∈ D)
    (h1 : ts.first = i) : Inv l { ts with first := ts.first + 1 } D where
  fin := hI.fin
  nodup := hI.nodup
  lt := hI.lt
  left := hI.left
  first_le := by dsimp only; omega
  first j hj := by
    dsimp only at hj
    by_cases h : j = i
    · exact h ▸ hd
    · exact hI.first j (by omega)

theorem scan_refines {l : List (Nat × List Nat)} (hv : Valid l) (env : Nat → TaskStatus) :
    ∀ (rest : List (Nat × List Nat)) (i skip : Nat) (ts : TaskStates) (ev : List Event)
      (D : List Nat), rest = l.drop i → i ≤ l.length → Inv l ts D → ts.left ≠ 0 →
      (skip = 0 → ts.first = i) →
      ∃ s ts' new, scan env (rest.map mkTask) i skip ts ev = (s, ts', ev ++ new) ∧
        Pass l env i D new s ∧ Inv l ts' (D ++ completed new) := by
  intro rest
  induction rest with
  | nil =>
    intro i skip ts ev D hr hi hI hl hs
    have : i = l.length := by
      have := congrArg List.length hr; simp at this; omega
    subst this
    exact ⟨.stuck, ts, [], by simp [scan], .nil, by simpa using hI⟩
  | cons e rest ih =>
    intro i skip ts ev D hr hi hI hl hs
    have hlt : i < l.length := by
      have := congrArg List.length hr; simp at this; omega
    rw [List.drop_eq_getElem_cons hlt] at hr
    obtain ⟨rfl, hr'⟩ := List.cons.inj hr
    simp only [List.map_cons, scan]
    by_cases hD : i ∈ D
    · have hu : ¬ ts.finished.isUnfinished (mkTask l[i]).tid = true := by
        rw [isUnfinished_iff hv hI hlt]; simpa using hD
      rw [if_neg hu]
      by_cases hsk : skip = 0
      · rw [if_pos hsk]
        obtain ⟨s, ts', new, h1, h2, h3⟩ := ih (i + 1) skip { ts with first := ts.first + 1 } ev D
          hr' hlt (inv_skip_done hI hlt hD (hs hsk)) hl (fun h => by simp [hs h])
        exact ⟨s, ts', new, h1, .done hlt hD h2, h3⟩
      · rw [if_neg hsk]
        obtain ⟨s, ts', new, h1, h2, h3⟩ := ih (i + 1) skip ts ev D
          hr' hlt hI hl (fun h => absurd h hsk)
        exact ⟨s, ts', new, h1, .done hlt hD h2, h3⟩
    · have hu : ts.finished.isUnfinished (mkTask l[i]).tid = true := by
        rw [isUnfinished_iff hv hI hlt]; exact hD
      rw [if_pos hu]
      by_cases hR : Ready l D i
      · rw [if_pos ((checkDeps_iff hv hI hlt).2 hR)]
        by_cases hf : env i = .fail
        · rw [if_neg (by simpa using hf)]
          obtain ⟨s, ts', new, h1, h2, h3⟩ := ih (i + 1) (skip + 1) ts (ev ++ [⟨i, env i⟩]) D
            hr' hlt hI hl (fun h => by omega)
          refine ⟨s, ts', ⟨i, .fail⟩ :: new, ?_, .fail hlt hD hR hf h2, ?_⟩
          · rw [h1, hf]; simp
          · rwa [completed_cons_fail]
        · rw [if_pos hf]
          have hI' := inv_finish hv hI hlt hD (if skip = 0 then ts.first + 1 else ts.first)
            (by by_cases h : skip = 0
                · simp [h, hs h]
                · simp [h])
          have hleft := hI.left
          by_cases h0 : ts.left - 1 = 0
          · rw [if_pos h0]
            refine ⟨.complete, _, [⟨i, env i⟩], rfl, .complete hlt hD hR hf (by omega), ?_⟩
            rw [completed_cons _ hf]; exact hI'
          · rw [if_neg h0]
            by_cases hnx : env i = .next
            · rw [if_pos hnx]
              obtain ⟨s, ts', new, h1, h2, h3⟩ := ih (i + 1) skip _ (ev ++ [⟨i, env i⟩]) (D ++ [i])
                hr' hlt hI' h0 (fun h => by simp [h, hs h])
              refine ⟨s, ts', ⟨i, .next⟩ :: new, ?_, .next hlt hD hR hnx (by omega) h2, ?_⟩
              · rw [h1, hnx]; simp
              · rw [completed_cons _ (by simp)]; simpa using h3
            · rw [if_neg hnx]
              have hsu : env i = .success := by
                cases h : env i <;> simp_all
              refine ⟨.running, _, [⟨i, .success⟩], by rw [hsu], .succ hlt hD hR hsu (by omega), ?_⟩
              rw [completed_cons _ (by simp)]; exact hI'
      · rw [if_neg (by rw [checkDeps_iff hv hI hlt]; exact hR)]
        obtain ⟨s, ts', new, h1, h2, h3⟩ := ih (i + 1) (skip + 1) ts ev D
          hr' hlt hI hl (fun h => by omega)
        exact ⟨s, ts', new, h1, .blocked hlt hD hR h2, h3⟩

theorem pass_prefix {l : List (Nat × List Nat)} {env : Nat → TaskStatus} {D ev s} :
    ∀ i, i ≤ l.length → (∀ j, j < i → j ∈ D) → Pass l env i D ev s → Pass l env 0 D ev s := by
  intro i
  induction i with
  | zero => intro _ _ h; exact h
  | succ i ih =>
    intro hi hj h
    exact ih (by omega) (fun j hj' => hj j (by omega)) (.done (by omega) (hj i (by omega)) h)

/-- One call of `DoAllAvailableTasks` refines one pass over the whole list. -/
theorem doAll_refines {l : List (Nat × List Nat)} (hv : Valid l) (env : Nat → TaskStatus)
    {ts : TaskStates} {D : List Nat} (hI : Inv l ts D) :
    ∃ s ts' new, doAllAvailableTasks env (l.map mkTask) ts = (s, ts', new) ∧
      Inv l ts' (D ++ completed new) ∧
      ((D.length = l.length ∧ s = .nothingToDo ∧ new = []) ∨
       (D.length ≠ l.length ∧ Pass l env 0 D new s)) := by
  unfold doAllAvailableTasks
  have hleft := hI.left
  by_cases h0 : ts.left = 0
  · rw [if_pos h0]
    exact ⟨_, _, _, rfl, by simpa using hI, .inl ⟨by omega, rfl, rfl⟩⟩
  · rw [if_neg h0]
    obtain ⟨s, ts', new, h1, h2, h3⟩ := scan_refines hv env (l.drop ts.first) ts.first 0 ts [] D
      rfl hI.first_le hI h0 (fun _ => rfl)
    refine ⟨s, ts', new, ?_, h3, .inr ⟨by omega, ?_⟩⟩
    · rw [List.map_drop] at h1; simpa using h1
    · exact pass_prefix _ hI.first_le hI.first h2

/-! Properties of a pass. -/

theorem Pass.events {l : List (Nat × List Nat)} {env : Nat → TaskStatus} {i D ev s}
    (h : Pass l env i D ev s) :
    ∀ pre e post, ev = pre ++ e :: post →
      e.idx < l.length ∧ i ≤ e.idx ∧ e.idx ∉ D ++ completed pre ∧ Ready l (D ++ completed pre) e.idx ∧
      e.status = env e.idx := by
  induction h with
  | nil => intro pre e post h; simp at h
  | done hi hd _ ih =>
    intro pre e post h; have := ih pre e post h; exact ⟨this.1, by omega, this.2.2⟩
  | blocked hi hd hr _ ih =>
    intro pre e post h; have := ih pre e post h; exact ⟨this.1, by omega, this.2.2⟩
  | fail hi hd hr hf _ ih =>
    intro pre e post h
    cases pre with
    | nil => simp at h; obtain ⟨rfl, rfl⟩ := h; exact ⟨hi, by simp, by simpa using hd, by simpa using hr, hf.symm⟩
    | cons a pre =>
      simp at h; obtain ⟨rfl, h⟩ := h
      have := ih pre e post h
      rw [completed_cons_fail]
      exact ⟨this.1, by omega, this.2.2⟩
  | next hi hd hr hf hl _ ih =>
    intro pre e post h
    cases pre with
    | nil => simp at h; obtain ⟨rfl, rfl⟩ := h; exact ⟨hi, by simp, by simpa using hd, by simpa using hr, hf.symm⟩
    | cons a pre =>
      simp at h; obtain ⟨rfl, h⟩ := h
      have := ih pre e post h
      rw [completed_cons _ (by simp)]
      simp only [List.append_assoc, List.singleton_append] at this
      exact ⟨this.1, by omega, this.2.2⟩
  | succ hi hd hr hf hl =>
    intro pre e post h
    cases pre with
    | nil => simp at h; obtain ⟨rfl, rfl⟩ := h; exact ⟨hi, by simp, by simpa using hd, by simpa using hr, hf.symm⟩
    | cons a pre => simp at h
  | complete hi hd hr hf hl =>
    intro pre e post h
    cases pre with
    | nil => simp at h; obtain ⟨rfl, rfl⟩ := h; exact ⟨hi, by simp, by simpa using hd, by simpa using hr, rfl⟩
    | cons a pre => simp at h

theorem Pass.status {l : List (Nat × List Nat)} {env : Nat → TaskStatus} {i D ev s}
    (h : Pass l env i D ev s) (h0 : D.length ≠ l.length) :
    (s = .complete ↔ (D ++ completed ev).length = l.length) ∧ s ≠ .nothingToDo ∧
    (s = .running → completed ev ≠ []) ∧ (s = .complete → completed ev ≠ []) := by
  induction h with
  | nil => simp [h0]
  | done _ _ _ ih => exact ih h0
  | blocked _ _ _ _ ih => exact ih h0
  | fail _ _ _ _ _ ih => rw [completed_cons_fail]; exact ih h0
  | next _ _ _ _ hl _ ih =>
    rw [completed_cons _ (by simp)]
    have := ih (by simpa using hl)
    simp at this ⊢; exact ⟨this.1, this.2.1⟩
  | succ _ _ _ _ hl => rw [completed_cons _ (by simp)]; simp; omega
  | complete _ _ _ hf hl => rw [completed_cons _ hf]; simp; omega

theorem Pass.stuck {l : List (Nat × List Nat)} {env : Nat → TaskStatus} {i D ev s}
    (h : Pass l env i D ev s) (hc : completed ev = []) :
    ∀ j, i ≤ j → j < l.length → j ∈ D ∨ ¬ Ready l D j ∨ env j = .fail := by
  induction h with
  | nil => intro j h1 h2; omega
  | @done i D ev s _ hd _ ih =>
    intro j h1 h2
    by_cases h : j = i
    · subst h; exact .inl hd
    · exact ih hc j (by omega) h2
  | @blocked i D ev s _ hd hr _ ih =>
    intro j h1 h2
    by_cases h : j = i
    · subst h; exact .inr (.inl hr)
    · exact ih hc j (by omega) h2
  | @fail i D ev s _ _ _ hf _ ih =>
    intro j h1 h2
    rw [completed_cons_fail] at hc
    by_cases h : j = i
    · subst h; exact .inr (.inr hf)
    · exact ih hc j (by omega) h2
  | next => rw [completed_cons _ (by simp)] at hc; simp at hc
  | succ => rw [completed_cons _ (by simp)] at hc; simp at hc
  | complete _ _ _ hf => rw [completed_cons _ hf] at hc; simp at hc

/-- When the task at `e.idx` is attempted in a pass, every earlier position `j` of the pass is
completed, or failed in this pass, or had an incomplete dependency when it was passed. -/
theorem Pass.earlier {l : List (Nat × List Nat)} {env : Nat → TaskStatus} {i D ev s}
    (h : Pass l env i D ev s) :
    ∀ pre e post, ev = pre ++ e :: post → ∀ j, i ≤ j → j < e.idx →
      j ∈ D ++ completed pre ∨ env j = .fail ∨
      ∃ d ∈ depsAt l j, ∀ j' ∈ D ++ completed pre, idAt l j' = d → j ≤ j' := by
  induction h with
  | nil => intro pre e post h; simp at h
  | @done i D ev s hi hd _ ih =>
    intro pre e post h j h1 h2
    by_cases hj : j = i
    · subst hj; exact .inl (by simp [hd])
    · exact ih pre e post h j (by omega) h2
  | @blocked i D ev s hi hd hr hp ih =>
    intro pre e post h j h1 h2
    by_cases hj : j = i
    · subst hj
      refine .inr (.inr ?_)
      unfold Ready at hr
      have : ∃ d ∈ depsAt l j, ∀ j' ∈ D, idAt l j' ≠ d := by
        apply Classical.byContradiction
        intro hcon
        apply hr
        intro d hd
        apply Classical.byContradiction
        intro hcon2
        exact hcon ⟨d, hd, fun j' hj' he => hcon2 ⟨j', hj', he⟩⟩
      obtain ⟨d, hd1, hd2⟩ := this
      refine ⟨d, hd1, ?_⟩
      intro j' hj' he
      rw [List.mem_append] at hj'
      rcases hj' with hj' | hj'
      · exact absurd he (hd2 j' hj')
      · obtain ⟨s', _, hm⟩ := mem_completed.1 hj'
        obtain ⟨p, q, hpq⟩ := List.append_of_mem hm
        have := hp.events p ⟨j', s'⟩ (q ++ e :: post) (by rw [h, hpq]; simp)
        have := this.2.1
        simp at this
        omega
    · exact ih pre e post h j (by omega) h2
  | @fail i D ev s hi hd hr hf _ ih =>
    intro pre e post h j h1 h2
    by_cases hj : j = i
    · subst hj; exact .inr (.inl hf)
    · cases pre with
      | nil => simp at h; obtain ⟨rfl, rfl⟩ := h; simp at h2; omega
      | cons a pre =>
        simp at h; obtain ⟨rfl, h⟩ := h
        rw [completed_cons_fail]
        exact ih pre e post h j (by omega) h2
  | @next i D ev s hi hd hr hf hl _ ih =>
    intro pre e post h j h1 h2
    cases pre with
    | nil => simp at h; obtain ⟨rfl, rfl⟩ := h; simp at h2; omega
    | cons a pre =>
      simp at h; obtain ⟨rfl, h⟩ := h
      rw [completed_cons _ (by simp)]
      by_cases hj : j = i
      · subst hj; exact .inl (by simp)
      · have := ih pre e post h j (by omega) h2
        simpa only [List.append_assoc, List.singleton_append] using this
  | succ hi hd hr hf hl =>
    intro pre e post h j h1 h2
    cases pre with
    | nil => simp at h; obtain ⟨rfl, rfl⟩ := h; simp at h2; omega
    | cons a pre => simp at h
  | complete hi hd hr hf hl =>
    intro pre e post h j h1 h2
    cases pre with
    | nil => simp at h; obtain ⟨rfl, rfl⟩ := h; simp at h2; omega
    | cons a pre => simp at h

end Verif.TaskList
