import Verif.Spec.MgTasks
import Verif.Lemmas.TaskGraph
import Verif.Props.SchedLive
import Mathlib.Data.List.Induction
import Mathlib.Tactic.Tauto

/-! Helpers for the task lists of the multigrid solver. -/
namespace Verif.TaskList
open M

/-! ## A missing dependency -/

/-- Invariant of a block that can never complete the task at position `x`. -/
def Never (l : List (Nat × List Nat)) (x : Nat) (ts : TaskStates) : Prop := ∃ D, Inv l ts D ∧ x ∉ D

theorem never_step {l : List (Nat × List Nat)} (hv : Valid l) {x : Nat} (hx : x < l.length) {d : Nat}
    (hd : d ∈ l[x].2) (hm : ∀ e ∈ l, e.1 ≠ d) (env : Nat → TaskStatus) {ts : TaskStates}
    (h : Never l x ts) : Never l x (doAllAvailableTasks env (l.map mkTask) ts).2.1 := by
  obtain ⟨D, hD, hxD⟩ := h
  obtain ⟨s, ts', new, h1, h2, h3⟩ := doAll_refines hv env hD
  rw [h1]
  refine ⟨_, h2, ?_⟩
  intro hc
  rcases List.mem_append.1 hc with hc | hc
  · exact hxD hc
  rcases h3 with ⟨_, _, rfl⟩ | ⟨_, hp⟩
  · simp at hc
  · obtain ⟨st, _, hmem⟩ := mem_completed.1 hc
    obtain ⟨pre, post, hpp⟩ := List.append_of_mem hmem
    obtain ⟨_, _, _, hr, _⟩ := hp.events pre _ post hpp
    obtain ⟨j, hj, hjd⟩ := hr d (by rw [depsAt_eq hx]; exact hd)
    have hlt : j < l.length := h2.lt j (by
      rw [hpp, completed_append]
      simp only [List.mem_append] at hj ⊢
      tauto)
    rw [idAt_eq hlt] at hjd
    exact hm _ (List.getElem_mem hlt) hjd

theorem never_sweep {l : List (Nat × List Nat)} (hv : Valid l) {x : Nat} (hx : x < l.length) {d : Nat}
    (hd : d ∈ l[x].2) (hm : ∀ e ∈ l, e.1 ≠ d) (env : Nat → Nat → TaskStatus) :
    ∀ (bs : List (Nat × TaskStates)) (left : Int), (∀ p ∈ bs, Never l x p.2) →
      ∀ p ∈ (stageSweep (l.map mkTask) env bs left).1, Never l x p.2 := by
  intro bs
  induction bs with
  | nil => intro left _ p hp; simp [stageSweep] at hp
  | cons q bs ih =>
    obtain ⟨b, ts⟩ := q
    intro left h p hp
    simp only [stageSweep, List.mem_cons] at hp
    rcases hp with rfl | hp
    · exact never_step hv hx hd hm _ (h (b, ts) (by simp))
    · exact ih _ (fun p hp => h p (by simp [hp])) p hp

/-- A stage whose list has a task that depends on a task not in the list never exits. -/
theorem missing_dependency_hangs {l : List (Nat × List Nat)} (hv : Valid l) {e : Nat × List Nat}
    (he : e ∈ l) {d : Nat} (hd : d ∈ e.2) (hm : ∀ e ∈ l, e.1 ≠ d) (nmb : Nat) (h : 0 < nmb)
    (env : Nat → Nat → Nat → TaskStatus) (fuel : Nat) :
    (doTaskListOneStage (l.map mkTask) nmb env fuel).2.2 = false := by
  obtain ⟨x, hx, rfl⟩ := List.mem_iff_getElem.1 he
  have hne : l ≠ [] := by rintro rfl; simp at hx
  obtain ⟨e1, e2⟩ := sched_stage_exit hv hne nmb env fuel
  have key : ∀ (fuel n : Nat) (bs : List (Nat × TaskStates)) (left : Int),
      (∀ p ∈ bs, Never l x p.2) →
      ∀ p ∈ (stageLoop (l.map mkTask) env fuel n bs left).1, Never l x p.2 := by
    intro fuel
    induction fuel with
    | zero => intro n bs left hb; simpa [stageLoop] using hb
    | succ fuel ih =>
      intro n bs left hb
      simp only [stageLoop]
      split
      · exact ih _ _ _ (never_sweep hv hx hd hm _ _ _ hb)
      · exact hb
  rw [Bool.eq_false_iff]
  intro ht
  have hall := e2.1 ht
  have hr : (doTaskListOneStage (l.map mkTask) nmb env fuel).1 ≠ [] := by
    intro h0
    rw [h0] at e1
    have := congrArg List.length e1
    simp at this
    omega
  obtain ⟨p, hp⟩ := List.exists_mem_of_ne_nil _ hr
  obtain ⟨D, hD, hxD⟩ := key fuel 0 _ nmb (by
    intro q hq
    simp only [List.mem_map] at hq
    obtain ⟨b, _, rfl⟩ := hq
    exact ⟨[], by rw [List.length_map]; exact inv_reset l, by simp⟩) p hp
  obtain ⟨j, hj, hjx⟩ := (hD.fin _).1 (hall p hp l[x] (List.getElem_mem hx))
  have := idAt_inj hv (hD.lt j hj) hx (by rw [hjx, idAt_eq hx])
  exact hxD (this ▸ hj)

/-! ## Order of completion -/

/-- A list of positions in which every kept position comes after all smaller kept positions. -/
theorem prefix_of_order (n : Nat) (keep : Nat → Bool) (L : List Nat) (hnd : L.Nodup)
    (hlt : ∀ i ∈ L, i < n)
    (hord : ∀ pre j post, L = pre ++ j :: post → keep j = true → ∀ i, i < j → keep i = true → i ∈ pre) :
    L.filter keep <+: (List.range n).filter keep := by
  induction L using List.reverseRecOn with
  | nil => simp
  | append_singleton L j ih =>
    have hnd' := List.nodup_append.1 hnd
    have ih := ih hnd'.1 (fun i hi => hlt i (by simp [hi]))
      (fun pre i post h hi => hord pre i (post ++ [j]) (by simp [h]) hi)
    rw [List.filter_append]
    by_cases hk : keep j = true
    · simp only [List.filter_cons, hk, List.filter_nil, if_true]
      obtain ⟨rest, hr⟩ := ih
      have hjF : j ∈ (List.range n).filter keep := by simp [hk, hlt j (by simp)]
      have hjL : j ∉ L := fun h => hnd'.2.2 j h j (by simp) rfl
      have hsort : ((List.range n).filter keep).Pairwise (· < ·) :=
        (List.pairwise_lt_range).filter _
      rw [← hr] at hjF hsort
      have hjr : j ∈ rest := by
        rcases List.mem_append.1 hjF with h | h
        · exact absurd (List.mem_filter.1 h).1 hjL
        · exact h
      cases rest with
      | nil => simp at hjr
      | cons x r =>
        have hx : x = j := by
          rcases List.mem_cons.1 hjr with rfl | hjr'
          · rfl
          · have hs2 := (List.pairwise_append.1 hsort).2.1
            have hlt' := List.rel_of_pairwise_cons hs2 hjr'
            have hxk : x ∈ (List.range n).filter keep := by rw [← hr]; simp
            have := hord L j [] (by simp) hk x hlt' (List.mem_filter.1 hxk).2
            have h1 : x ∈ L.filter keep := List.mem_filter.2 ⟨this, (List.mem_filter.1 hxk).2⟩
            have := (List.pairwise_append.1 hsort).2.2 x h1 x (by simp)
            omega
        subst hx
        exact ⟨r, by rw [← hr]; simp⟩
    · simp only [Bool.not_eq_true] at hk
      simpa [List.filter_cons, hk] using ih

/-- Requirement table: each kept task after all kept tasks before it in the list. -/
def seqReq (keep : Nat → Bool) : List (Nat × List Nat) → List Nat → List (Nat × List Nat)
  | [], _ => []
  | e :: l, acc => if keep e.1 then (e.1, acc) :: seqReq keep l (e.1 :: acc) else seqReq keep l acc

theorem seqReq_mem (keep : Nat → Bool) : ∀ (l : List (Nat × List Nat)) (acc : List Nat) (j : Nat)
    (hj : j < l.length), keep l[j].1 = true →
    ∃ ys, (l[j].1, ys) ∈ seqReq keep l acc ∧ (∀ a ∈ acc, a ∈ ys) ∧
      ∀ i (hi : i < j), keep (l[i]'(by omega)).1 = true → (l[i]'(by omega)).1 ∈ ys := by
  intro l
  induction l with
  | nil => intro acc j hj; simp at hj
  | cons e l ih =>
    intro acc j hj hk
    cases j with
    | zero =>
      simp only [List.getElem_cons_zero] at hk ⊢
      exact ⟨acc, by simp [seqReq, hk], fun a h => h, fun i hi => by omega⟩
    | succ j =>
      simp only [List.getElem_cons_succ] at hk ⊢
      simp only [seqReq]
      split
      · rename_i hke
        obtain ⟨ys, h1, h2, h3⟩ := ih (e.1 :: acc) j (by simpa using hj) hk
        refine ⟨ys, by simp [h1], fun a ha => h2 a (by simp [ha]), ?_⟩
        intro i hi hki
        cases i with
        | zero => exact h2 _ (by simp)
        | succ i => exact h3 i (by omega) hki
      · rename_i hke
        obtain ⟨ys, h1, h2, h3⟩ := ih acc j (by simpa using hj) hk
        refine ⟨ys, h1, h2, ?_⟩
        intro i hi hki
        cases i with
        | zero => exact absurd hki hke
        | succ i => exact h3 i (by omega) hki

/-- Rank of a task: its position in the list, six bits per task number. -/
def seqRank : List (Nat × List Nat) → Nat → Nat → Nat
  | [], _, r => r
  | e :: l, k, r => seqRank l (k + 1) (Nat.lor r (Nat.shiftLeft k (Nat.mul 6 e.1)))

theorem completed_split {ev : List Event} {pre post : List Nat} {j : Nat}
    (h : completed ev = pre ++ j :: post) :
    ∃ p s q, ev = p ++ ⟨j, s⟩ :: q ∧ completed p = pre := by
  induction ev generalizing pre with
  | nil => simp at h
  | cons e ev ih =>
    obtain ⟨i, s⟩ := e
    by_cases hs : s = .fail
    · subst hs
      rw [completed_cons_fail] at h
      obtain ⟨p, s, q, h1, h2⟩ := ih h
      exact ⟨⟨i, .fail⟩ :: p, s, q, by simp [h1], by rw [completed_cons_fail, h2]⟩
    · rw [completed_cons _ hs] at h
      cases pre with
      | nil =>
        simp at h
        exact ⟨[], s, ev, by simp [h.1], rfl⟩
      | cons a pre =>
        simp at h
        obtain ⟨p, s', q, h1, h2⟩ := ih h.2
        exact ⟨⟨i, s⟩ :: p, s', q, by simp [h1], by rw [completed_cons _ hs, h2, h.1]⟩

/-- Operations completed on a block, in the order of completion. -/
def mgDone (l : List (Nat × List Nat)) (envs : List (Nat → TaskStatus)) : List MgAct :=
  (completed (traceOf l envs)).filterMap (fun i => (l[i]?).bind (fun e => mgAction e.1))

theorem filterMap_same {α β : Type} {f g : α → Option β} (L : List α) (h : ∀ i ∈ L, f i = g i) :
    L.filterMap f = L.filterMap g := by
  induction L with
  | nil => rfl
  | cons i L ih =>
    rw [List.filterMap_cons, List.filterMap_cons, h i (by simp), ih (fun i hi => h i (by simp [hi]))]

theorem range_filterMap {α β : Type} (l : List α) (f : α → Option β) :
    (List.range l.length).filterMap (fun i => (l[i]?).bind f) = l.filterMap f := by
  induction l using List.reverseRecOn with
  | nil => rfl
  | append_singleton l a ih =>
    rw [List.length_append, List.length_singleton, List.range_succ, List.filterMap_append,
      List.filterMap_append, ← ih]
    congr 1
    · apply filterMap_same
      intro i hi
      rw [List.mem_range] at hi
      rw [List.getElem?_append_left hi]
    · rw [List.filterMap_cons, List.filterMap_cons]
      simp

theorem mgFilter (g : Nat → Option MgAct) (L : List Nat) (p : MgAct → Bool)
    (hL : ∀ i ∈ L, (g i).isSome) :
    (L.filterMap g).filter p = (L.filter (fun i => (g i).any p)).filterMap g := by
  induction L with
  | nil => rfl
  | cons i L ih =>
    obtain ⟨a, hi⟩ := Option.isSome_iff_exists.1 (hL i (by simp))
    have ih := ih (fun i hi => hL i (by simp [hi]))
    rw [List.filterMap_cons_some hi, List.filter_cons, List.filter_cons, hi]
    simp only [Option.any_some]
    split
    · rw [List.filterMap_cons_some hi, ih]
    · exact ih

theorem filterMap_length (g : Nat → Option MgAct) (L : List Nat) (hL : ∀ i ∈ L, (g i).isSome) :
    (L.filterMap g).length = L.length := by
  induction L with
  | nil => rfl
  | cons i L ih =>
    obtain ⟨a, hi⟩ := Option.isSome_iff_exists.1 (hL i (by simp))
    rw [List.filterMap_cons_some hi]
    simp [ih (fun i hi => hL i (by simp [hi]))]

/-- All checks on a list. -/
def mgOk (msgs : List (Nat × Nat)) (blk : Nat) (l : List (Nat × List Nat)) : Bool :=
  graphOk (seqRank l 0 0) msgs l &&
  l.all (fun e => (mgAction e.1).isSome) &&
  orderOk blk l (seqReq (fun k => (mgAction k).any (fun a => !a.isSend)) l []) &&
  orderOk blk l (seqReq (fun k => (mgAction k).any (fun a => !a.isReceive)) l [])

theorem part_follows {R : Nat} {msgs : List (Nat × Nat)} {blk : Nat} {l : List (Nat × List Nat)}
    (hg : graphOk R msgs l = true) (ha : l.all (fun e => (mgAction e.1).isSome) = true)
    (p : MgAct → Bool)
    (ho : orderOk blk l (seqReq (fun k => (mgAction k).any p) l []) = true)
    (envs : List (Nat → TaskStatus))
    (henv : ∀ env ∈ envs, ∀ i (hi : i < l.length), blk.testBit l[i].1 = false → env i ≠ .fail) :
    (mgDone l envs).filter p <+: (l.filterMap (fun e => mgAction e.1)).filter p := by
  have G := graphOk_sound hg
  rw [List.all_eq_true] at ha
  have hf := run_facts G.valid envs
  have hL : ∀ i ∈ completed (traceOf l envs), i < l.length := hf.inv.lt
  have hact : ∀ i, i < l.length → ((l[i]?).bind (fun e => mgAction e.1)).isSome := by
    intro i hi
    rw [List.getElem?_eq_getElem hi]
    exact ha _ (List.getElem_mem hi)
  unfold mgDone
  rw [← range_filterMap l (fun e => mgAction e.1), mgFilter _ _ p (fun i hi => hact i (hL i hi)),
    mgFilter _ (List.range l.length) p (fun i hi => hact i (List.mem_range.1 hi))]
  apply List.IsPrefix.filterMap
  apply prefix_of_order _ _ _ hf.inv.nodup hL
  intro pre j post hsp hkj i hij hki
  obtain ⟨pr, s, q, h1, h2⟩ := completed_split hsp
  have hjl : j < l.length := hL j (by rw [hsp]; simp)
  have hil : i < l.length := by omega
  simp only [List.getElem?_eq_getElem hjl, List.getElem?_eq_getElem hil, Option.bind_some] at hkj hki
  obtain ⟨ys, hy1, _, hy3⟩ := seqReq_mem (fun k => (mgAction k).any p) l [] j hjl hkj
  have hm := orderOk_sound ho hy1 ⟨l[j], List.getElem_mem hjl, rfl⟩ (hy3 i hij hki)
    ⟨l[i], List.getElem_mem hil, rfl⟩
  rw [← h2]
  exact precedeMask_sound G.valid G.small (fun e he d hd => (G.deps e he d hd).1) blk envs henv hjl hil
    hm pr q s h1

theorem no_deadlock_msgs {R : Nat} {msgs : List (Nat × Nat)} {l : List (Nat × List Nat)}
    (hg : graphOk R msgs l = true)
    (nb : Nat) (sched : Nat → Nat) (hs : ∀ b, b < nb → ∀ T, ∃ m, T ≤ m ∧ sched m = b)
    (nbrs : Nat → Nat → List Nat) (hn : ∀ b t, ∀ b' ∈ nbrs b t, b' < nb)
    (env : Nat → Nat → TaskStatus)
    (henv : ∀ b, b < nb → ∀ (i : Nat) (hi : i < l.length),
      (∀ s, (l[i].1, s) ∈ msgs → ∃ T, ∀ b' ∈ nbrs b l[i].1,
        (worldRun (l.map mkTask) sched env T b').finished.Has s) →
      ∃ T, ∀ m, T ≤ m → sched m = b → env m i ≠ .fail) :
    ∃ T, ∀ T', T ≤ T' → ∀ b, b < nb → ∀ e ∈ l,
      (worldRun (l.map mkTask) sched env T' b).finished.Has e.1 := by
  have G := graphOk_sound hg
  refine sched_world_terminates G.valid (rankOf R) G.deps nb sched hs
    (fun b t => (msgs.filter (fun p => p.1 == t)).flatMap
      (fun p => (nbrs b t).map (fun b' => (b', p.2)))) ?_ env ?_
  · intro b hb e he p hp
    simp only [List.mem_flatMap, List.mem_filter, beq_iff_eq, List.mem_map] at hp
    obtain ⟨q, ⟨hq, hqe⟩, b', hb', rfl⟩ := hp
    have := G.msgs q hq ⟨e, he, hqe.symm⟩
    exact ⟨hn b e.1 b' hb', this.1, by rw [← hqe]; exact this.2⟩
  · intro b hb i hi ⟨T, hT⟩
    refine henv b hb i hi (fun s hs' => ⟨T, fun b' hb' => ?_⟩)
    apply hT (b', s)
    simp only [List.mem_flatMap, List.mem_filter, beq_iff_eq, List.mem_map]
    exact ⟨(l[i].1, s), ⟨hs', rfl⟩, b', hb', rfl⟩

end Verif.TaskList
