import Verif.Lemmas.SchedRun

/-!
# C19, C20 (scheduler) and the ordering theorem used for C23

`l : List (Nat × List Nat)` is a task list as written by `AddTask` calls: task numbers and the
numbers of the tasks they depend on.  The code under study works on the bit-field translation
`l.map mkTask`.  Events carry list positions; `completed ev` are the positions of the tasks
that returned something else than `fail`.
-/
namespace Verif.TaskList
open TaskID

/-- Run the calls given by `envs` (latest first) on one block: the attempts made. -/
abbrev traceOf (l : List (Nat × List Nat)) (envs : List (Nat → TaskStatus)) : List Event :=
  (runBlock (l.map mkTask) envs).2.1

/-- **C19.** In every execution every attempt is made on a task that has not completed before
and all of whose dependencies have completed before (in the same stage on the same block). -/
theorem sched_attempts_legal {l : List (Nat × List Nat)} (hv : Valid l)
    (envs : List (Nat → TaskStatus)) (pre post : List Event) (e : Event)
    (h : traceOf l envs = pre ++ e :: post) :
    ∃ hi : e.idx < l.length, e.idx ∉ completed pre ∧
      ∀ d ∈ (l[e.idx]'hi).2, ∃ j ∈ completed pre, ∃ hj : j < l.length, (l[j]'hj).1 = d := by
  have hf := run_facts hv envs
  have hg := hf.good pre e post h
  refine ⟨hg.1, hg.2.1, ?_⟩
  intro d hd
  rw [← depsAt_eq hg.1] at hd
  obtain ⟨j, h1, h2⟩ := hg.2.2 d hd
  have hlt : j < l.length := hf.inv.lt j (by
    show j ∈ completed (traceOf l envs)
    rw [h, completed_append]; simp [h1])
  exact ⟨j, h1, hlt, by rw [← idAt_eq hlt]; exact h2⟩

/-- **C19.** No task completes twice, and the `complete` status is returned exactly once, by the
call that completes the last task: it has been returned iff every task has completed. -/
theorem sched_exactly_once {l : List (Nat × List Nat)} (hv : Valid l) (hne : l ≠ [])
    (envs : List (Nat → TaskStatus)) :
    (completed (traceOf l envs)).Nodup ∧
    (runBlock (l.map mkTask) envs).2.2.count .complete ≤ 1 ∧
    ((.complete ∈ (runBlock (l.map mkTask) envs).2.2) ↔
      ∀ i, i < l.length → i ∈ completed (traceOf l envs)) := by
  have hf := run_facts hv envs
  have hlen : l.length ≠ 0 := by simpa using hne
  refine ⟨hf.inv.nodup, ?_, ?_⟩
  · rw [hf.cnt]; split <;> omega
  · rw [← List.count_pos_iff, hf.cnt]
    have key : (completed (traceOf l envs)).length = l.length ↔
        ∀ i, i < l.length → i ∈ completed (traceOf l envs) :=
      length_eq_iff_all hf.inv.nodup hf.inv.lt
    show 0 < (if l.length ≠ 0 ∧ (completed (traceOf l envs)).length = l.length then 1 else 0) ↔ _
    rw [← key]
    by_cases h : (completed (traceOf l envs)).length = l.length <;> simp [hlen, h]

/-- A three-task list with a dependency on a later entry, run for four calls. -/
example : Valid [(1, [3]), (2, []), (3, [2])] ∧
    (traceOf [(1, [3]), (2, []), (3, [2])]
      [fun _ => .success, fun _ => .success, fun _ => .success, fun _ => .fail]).map Event.idx
      = [1, 1, 2, 0] := by
  refine ⟨⟨by decide, by decide, by decide⟩, by decide⟩

/-- **C23, general ordering theorem.** Suppose tasks whose number is not in `blocking` never
return `fail`.  Let `x` be a list position and `S` a set of positions each of which is either
a direct or indirect dependency of `x`, or stands before `x` in the list, is not blocking and
has all its dependencies earlier in the list and in `S`.  Then in every execution all of `S` has
completed before `x` is attempted. -/
theorem sched_must_precede {l : List (Nat × List Nat)} (hv : Valid l) (blocking : Nat → Prop)
    (envs : List (Nat → TaskStatus))
    (henv : ∀ env ∈ envs, ∀ i, i < l.length → ¬ blocking (idAt l i) → env i ≠ .fail)
    (x : Nat) (S : Nat → Prop)
    (hS : ∀ j, S j → Anc l x j ∨ (j < x ∧ ¬ blocking (idAt l j) ∧
      ∀ d ∈ depsAt l j, ∃ j', j' < j ∧ idAt l j' = d ∧ S j'))
    (pre post : List Event) (st : TaskStatus)
    (h : traceOf l envs = pre ++ ⟨x, st⟩ :: post) :
    ∀ j, S j → j ∈ completed pre := by
  have hall := run_facts hv envs
  have hgood := hall.good
  have hx := hgood pre _ post h
  simp only at hx
  have hgp : GoodTrace l pre := by
    have : GoodTrace l (traceOf l envs) := hgood
    rw [h] at this; exact goodTrace_prefix this
  have hlt : ∀ i ∈ completed pre, i < l.length := by
    intro i hi
    exact hall.inv.lt i (by
      show i ∈ completed (traceOf l envs)
      rw [h, completed_append]; simp [hi])
  -- find the call in which the attempt was made
  have hcall : ∃ (envs' : List (Nat → TaskStatus)) (env : Nat → TaskStatus) (p : List Event)
      (new post' : List Event) (s : ListStatus), env ∈ envs ∧ pre = traceOf l envs' ++ p ∧
      new = p ++ ⟨x, st⟩ :: post' ∧ Pass l env 0 (completed (traceOf l envs')) new s := by
    clear hgp hlt hx hgood hall hS S
    induction envs generalizing pre post with
    | nil => simp [traceOf, runBlock] at h
    | cons env envs ih =>
      have hf := run_facts hv envs
      obtain ⟨s, ts', new, h1, h2, h3⟩ := doAll_refines hv env hf.inv
      have hrun : traceOf l (env :: envs) = traceOf l envs ++ new := by
        show (match runBlock (l.map mkTask) envs with
          | (ts, ev, st) => match doAllAvailableTasks env (l.map mkTask) ts with
            | (s, ts', e) => (ts', ev ++ e, st ++ [s])).2.1 = (runBlock (l.map mkTask) envs).2.1 ++ new
        rcases hr : runBlock (l.map mkTask) envs with ⟨a, b, c⟩
        rw [hr] at h1
        simp only [h1]
      rw [hrun] at h
      have inNew : ∀ p, pre = traceOf l envs ++ p → new = p ++ ⟨x, st⟩ :: post →
          ∃ (envs' : List (Nat → TaskStatus)) (env' : Nat → TaskStatus) (p : List Event)
            (new post' : List Event) (s : ListStatus), env' ∈ env :: envs ∧
            pre = traceOf l envs' ++ p ∧ new = p ++ ⟨x, st⟩ :: post' ∧
            Pass l env' 0 (completed (traceOf l envs')) new s := by
        intro p hp hn
        rcases h3 with ⟨_, _, rfl⟩ | ⟨_, h5⟩
        · simp at hn
        · exact ⟨envs, env, p, new, post, s, by simp, hp, hn, h5⟩
      rcases List.append_eq_append_iff.1 h with ⟨a, ha, hb⟩ | ⟨a, ha, hb⟩
      · exact inNew a ha hb
      · cases a with
        | nil => exact inNew [] (by simpa using ha.symm) (by simpa using hb.symm)
        | cons c a =>
          simp at hb
          obtain ⟨rfl, hb⟩ := hb
          obtain ⟨e1, e2, p, n', q, s', m1, m2, m3, m4⟩ :=
            ih (fun env' h' => henv env' (by simp [h'])) pre a ha
          exact ⟨e1, e2, p, n', q, s', by simp [m1], m2, m3, m4⟩
  obtain ⟨envs', env, p, new, post', s, hm, hpre, hnew, hpass⟩ := hcall
  intro j
  induction j using Nat.strongRecOn with
  | _ j ih =>
    intro hj
    rcases hS j hj with hanc | ⟨hjx, hnb, hdeps⟩
    · exact goodTrace_anc hv hanc hgp hx.1 hlt hx.2.2
    · rcases hpass.earlier p _ post' hnew j (by omega) hjx with h1 | h1 | ⟨d, hd, h1⟩
      · rw [hpre, completed_append]; exact h1
      · exact absurd h1 (henv env hm j (by omega) hnb)
      · obtain ⟨j', h2, h3, h4⟩ := hdeps d hd
        have h5 := ih j' h2 h4
        rw [hpre, completed_append] at h5
        have := h1 j' h5 h3
        omega

/-! ## The stage loop of one process -/

theorem sweep_facts {l : List (Nat × List Nat)} (hv : Valid l)
    (env : Nat → Nat → TaskStatus) :
    ∀ (bs : List (Nat × TaskStates)) (left : Int), (∀ p ∈ bs, ∃ D, Inv l p.2 D) →
      (∀ p ∈ (stageSweep (l.map mkTask) env bs left).1, ∃ D, Inv l p.2 D) ∧
      (stageSweep (l.map mkTask) env bs left).2 -
          ((stageSweep (l.map mkTask) env bs left).1.filter (fun p => p.2.left ≠ 0)).length =
        left - (bs.filter (fun p => p.2.left ≠ 0)).length ∧
      (stageSweep (l.map mkTask) env bs left).1.map Prod.fst = bs.map Prod.fst := by
  intro bs
  induction bs with
  | nil => intro left h; simp [stageSweep]
  | cons p bs ih =>
    obtain ⟨b, ts⟩ := p
    intro left h
    obtain ⟨D, hD⟩ := h (b, ts) (by simp)
    obtain ⟨s, ts', new, h1, h2, h3⟩ := doAll_refines hv (env b) hD
    have ih' := ih (if s = .complete then left - 1 else left) (fun p hp => h p (by simp [hp]))
    have hrun : stageSweep (l.map mkTask) env ((b, ts) :: bs) left =
        ((b, ts') :: (stageSweep (l.map mkTask) env bs (if s = .complete then left - 1 else left)).1,
          (stageSweep (l.map mkTask) env bs (if s = .complete then left - 1 else left)).2) := by
      simp only [stageSweep, h1]
    rw [hrun]
    obtain ⟨i1, i2, i3⟩ := ih'
    refine ⟨?_, ?_, by simp [i3]⟩
    · intro q hq
      rcases List.mem_cons.1 hq with rfl | hq
      · exact ⟨_, h2⟩
      · exact i1 q hq
    · have hl : ts.left = (l.length : Int) - D.length := hD.left
      have hl' := h2.left
      simp only [List.filter_cons]
      rcases h3 with ⟨h4, rfl, rfl⟩ | ⟨h4, h5⟩
      · have a1 : ts.left = 0 := by omega
        have a2 : ts'.left = 0 := by simp at hl'; omega
        simp [a1, a2] at i2 ⊢
        exact i2
      · have a1 : ts.left ≠ 0 := by omega
        have hst := h5.status h4
        by_cases hs : s = .complete
        · have a2 : ts'.left = 0 := by have := hst.1.1 hs; omega
          simp [a1, a2, hs] at i2 ⊢
          omega
        · have a2 : ts'.left ≠ 0 := by
            intro h0; exact hs (hst.1.2 (by omega))
          simp [a1, a2, hs] at i2 ⊢
          omega

/-- **C19 (stage).** Whenever the stage loop of a process exits, every task of every block of
the process has completed; while it has not exited, some block has unfinished tasks. -/
theorem sched_stage_exit {l : List (Nat × List Nat)} (hv : Valid l) (hne : l ≠ []) (nmb : Nat)
    (env : Nat → Nat → Nat → TaskStatus) (fuel : Nat) :
    let r := doTaskListOneStage (l.map mkTask) nmb env fuel
    r.1.map Prod.fst = List.range nmb ∧
    (r.2.2 = true ↔ ∀ p ∈ r.1, ∀ e ∈ l, p.2.finished.Has e.1) := by
  have key : ∀ (fuel n : Nat) (bs : List (Nat × TaskStates)) (left : Int),
      (∀ p ∈ bs, ∃ D, Inv l p.2 D) → left = (bs.filter (fun p => p.2.left ≠ 0)).length →
      (stageLoop (l.map mkTask) env fuel n bs left).1.map Prod.fst = bs.map Prod.fst ∧
      (∀ p ∈ (stageLoop (l.map mkTask) env fuel n bs left).1, ∃ D, Inv l p.2 D) ∧
      ((stageLoop (l.map mkTask) env fuel n bs left).2.2 = true ↔
        ∀ p ∈ (stageLoop (l.map mkTask) env fuel n bs left).1, p.2.left = 0) := by
    intro fuel
    induction fuel with
    | zero =>
      intro n bs left h1 h2
      simp only [stageLoop]
      refine ⟨trivial, h1, ?_⟩
      simp only [decide_eq_true_eq]
      rw [h2]
      constructor
      · intro h p hp
        apply Classical.byContradiction
        intro hne
        have : p ∈ bs.filter (fun p => p.2.left ≠ 0) := by simp [hp, hne]
        have := List.length_pos_of_mem this
        omega
      · intro h
        have : bs.filter (fun p => p.2.left ≠ 0) = [] := by
          rw [List.filter_eq_nil_iff]; intro p hp; simp [h p hp]
        rw [this]; simp
    | succ fuel ih =>
      intro n bs left h1 h2
      simp only [stageLoop]
      by_cases hl : left > 0
      · rw [if_pos hl]
        obtain ⟨s1, s2, s3⟩ := sweep_facts hv (env n) bs left h1
        have := ih (n + 1) _ (stageSweep (l.map mkTask) (env n) bs left).2 s1 (by omega)
        rw [s3] at this
        exact this
      · rw [if_neg hl]
        refine ⟨rfl, h1, ?_⟩
        simp only [true_iff]
        intro p hp
        apply Classical.byContradiction
        intro hne
        have : p ∈ bs.filter (fun p => p.2.left ≠ 0) := by simp [hp, hne]
        have := List.length_pos_of_mem this
        omega
  have hlen : (l.map mkTask).length = l.length := by simp
  have hlen0 : l.length ≠ 0 := by simpa using hne
  intro r
  have hinit : ∀ p ∈ (List.range nmb).map fun b => (b, TaskStates.reset (l.map mkTask).length),
      ∃ D, Inv l p.2 D := by
    intro p hp
    simp only [List.mem_map] at hp
    obtain ⟨b, _, rfl⟩ := hp
    exact ⟨[], by rw [hlen]; exact inv_reset l⟩
  have hcount : (nmb : Int) = (((List.range nmb).map fun b =>
      (b, TaskStates.reset (l.map mkTask).length)).filter (fun p => p.2.left ≠ 0)).length := by
    rw [List.filter_eq_self.2]
    · simp
    · intro p hp
      simp only [List.mem_map] at hp
      obtain ⟨b, _, rfl⟩ := hp
      simp [TaskStates.reset, hlen0]
  obtain ⟨k1, k2, k3⟩ := key fuel 0 _ nmb hinit hcount
  have hiff : ∀ p ∈ r.1, (p.2.left = 0 ↔ ∀ e ∈ l, p.2.finished.Has e.1) := by
    intro p hp
    obtain ⟨D, hD⟩ := k2 p hp
    have hl := hD.left
    have : p.2.left = 0 ↔ D.length = l.length := by omega
    rw [this, length_eq_iff_all hD.nodup hD.lt]
    constructor
    · intro h e he
      obtain ⟨i, hi, rfl⟩ := List.mem_iff_getElem.1 he
      exact (hD.fin _).2 ⟨i, h i hi, idAt_eq hi⟩
    · intro h i hi
      obtain ⟨j, hj, hj2⟩ := (hD.fin _).1 (h l[i] (List.getElem_mem hi))
      have := idAt_inj hv (hD.lt j hj) hi (by rw [hj2, idAt_eq hi])
      exact this ▸ hj
  have k1' : r.1.map Prod.fst = _ := k1
  refine ⟨by rw [k1', List.map_map]; simp [Function.comp_def], ?_⟩
  show (stageLoop _ _ _ _ _ _).2.2 = true ↔ _
  rw [k3]
  constructor
  · intro h p hp; exact (hiff p hp).1 (h p hp)
  · intro h p hp; exact (hiff p hp).2 (h p hp)

/-- A stage with an empty task list and at least one block never exits (the counter of
unfinished blocks is only decremented by a `complete` result). -/
theorem sched_empty_list_hangs (nmb : Nat) (h : 0 < nmb) (env : Nat → Nat → Nat → TaskStatus)
    (fuel : Nat) : (doTaskListOneStage [] nmb env fuel).2.2 = false := by
  have sweep : ∀ (env : Nat → Nat → TaskStatus) (bs : List (Nat × TaskStates)) (left : Int),
      (∀ p ∈ bs, p.2.left = 0) → stageSweep [] env bs left = (bs, left) := by
    intro env bs
    induction bs with
    | nil => intro left _; rfl
    | cons p bs ih =>
      obtain ⟨b, ts⟩ := p
      intro left hp
      have h0 : ts.left = 0 := hp (b, ts) (by simp)
      simp only [stageSweep, doAllAvailableTasks, h0, if_true]
      rw [if_neg (by decide), ih left (fun p hp' => hp p (by simp [hp']))]
  have key : ∀ (fuel n : Nat) (bs : List (Nat × TaskStates)), (∀ p ∈ bs, p.2.left = 0) →
      (stageLoop [] env fuel n bs nmb).2.2 = false := by
    intro fuel
    induction fuel with
    | zero => intro n bs _; simp [stageLoop]; omega
    | succ fuel ih =>
      intro n bs hbs
      simp only [stageLoop]
      rw [if_pos (by omega), sweep _ _ _ hbs]
      exact ih _ _ hbs
  exact key fuel 0 _ (by
    intro p hp
    simp only [List.mem_map] at hp
    obtain ⟨b, _, rfl⟩ := hp
    rfl)

end Verif.TaskList
