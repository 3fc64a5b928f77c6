import Verif.Lemmas.MgTasks

/-!
# C69: the task lists of the multigrid solver

`Verif.Spec.MgTasks` says what the lists are meant to do.
-/
namespace Verif.TaskList
open M

/-- Messages: which receive task waits for which send task of the neighbours. -/
def mgMessages : List (Nat × Nat) :=
  [(RECVBND0, SENDBND0), (RECVBND1R, SENDBND1R), (RECVBND1B, SENDBND1B), (RECVBND2R, SENDBND2R),
   (RECVBND2B, SENDBND2B), (RECVBNDP, SENDBNDP), (RECVBNDL, SENDBNDL)]

/-- Mask of the tasks that may return `fail`. -/
def mgBlk : Nat := maskOf (mgMessages.map Prod.fst ++ mgMessages.map Prod.snd)

/-- Only tasks that send or receive return `fail` (mg_task_list.cpp:182-280). -/
def MgEnv (l : List (Nat × List Nat)) (env : Nat → TaskStatus) : Prop :=
  ∀ i (hi : i < l.length) (a : MgAct), mgAction l[i].1 = some a → a.isSend = false →
    a.isReceive = false → env i ≠ .fail

theorem mgBlk_false {k : Nat} {a : MgAct} (ha : mgAction k = some a) (hk : mgBlk.testBit k = false) :
    a.isSend = false ∧ a.isReceive = false := by
  have hk' : ¬ (k ∈ mgMessages.map Prod.fst ++ mgMessages.map Prod.snd) := by
    rw [← testBit_maskOf]
    show ¬ mgBlk.testBit k = true
    rw [hk]; decide
  have hlt : k < 50 := by
    by_contra hge
    have : mgAction k = none := by
      unfold mgAction
      repeat rw [if_neg (by simp only [STARTRECV0, STARTRECV1R, STARTRECV1B, STARTRECV2R, STARTRECV2B,
        STARTRECVL, STARTRECVP, CLEARBNDP, CLEARBND0, CLEARBND1R, CLEARBND1B, CLEARBND2R, CLEARBND2B,
        CLEARBNDL, SENDBND0, SENDBND1R, SENDBND1B, SENDBND2R, SENDBND2B, SENDBNDL, SENDBNDP, RECVBND0,
        RECVBND1R, RECVBND1B, RECVBND2R, RECVBND2B, RECVBNDL, RECVBNDP, PRLNGBNDP, PRLNGFC0, PRLNGFC1R,
        PRLNGFC1B, PRLNGFC2R, PRLNGFC2B, PRLNGFCL, SMOOTH1R, SMOOTH2R, SMOOTH1B, SMOOTH2B, PHYSBND0,
        PHYSBND1R, PHYSBND1B, PHYSBND2R, PHYSBND2B, PHYSBNDL, RESTRICT, PROLONG, FMGPROLONG,
        CALCFASRHS] <;> omega)]
    rw [this] at ha
    exact absurd ha (by simp)
  have key : ∀ k : Fin 50, (k : Nat) ∈ mgMessages.map Prod.fst ++ mgMessages.map Prod.snd ∨
      (mgAction k).all (fun a => !a.isSend && !a.isReceive) = true := by decide +kernel
  rcases key ⟨k, hlt⟩ with h | h
  · exact absurd h hk'
  · rw [show ((⟨k, hlt⟩ : Fin 50) : Nat) = k from rfl, ha] at h
    simpa using h

/-- A list that is the sequence `spec`. -/
def MgList (l : List (Nat × List Nat)) (spec : List MgAct) : Prop :=
  l ≠ [] ∧ mgOk mgMessages mgBlk l = true ∧ l.map (fun e => mgAction e.1) = spec.map some

theorem MgList.follows {l : List (Nat × List Nat)} {spec : List MgAct} (h : MgList l spec)
    (envs : List (Nat → TaskStatus)) (henv : ∀ env ∈ envs, MgEnv l env) :
    MgFollows (mgDone l envs) spec ∧
    (.complete ∈ (runBlock (l.map mkTask) envs).2.2 ↔ (mgDone l envs).length = spec.length) := by
  obtain ⟨hne, h1, h2⟩ := h
  simp only [mgOk, Bool.and_eq_true] at h1
  obtain ⟨⟨⟨g, ha⟩, o1⟩, o2⟩ := h1
  have hspec : l.filterMap (fun e => mgAction e.1) = spec := by
    have : (l.map (fun e => mgAction e.1)).filterMap id = (spec.map some).filterMap id := by rw [h2]
    simpa [List.filterMap_map] using this
  have hlen : l.length = spec.length := by
    have := congrArg List.length h2
    simpa using this
  have he : ∀ env ∈ envs, ∀ i (hi : i < l.length), mgBlk.testBit l[i].1 = false → env i ≠ .fail := by
    intro env hen i hi hb
    have hs := List.all_eq_true.1 ha _ (List.getElem_mem hi)
    obtain ⟨a, haa⟩ := Option.isSome_iff_exists.1 hs
    have := mgBlk_false haa hb
    exact henv env hen i hi a haa this.1 this.2
  refine ⟨⟨?_, ?_⟩, ?_⟩
  · rw [← hspec]; exact part_follows g ha _ o1 envs he
  · rw [← hspec]; exact part_follows g ha _ o2 envs he
  · have G := graphOk_sound g
    have hf := run_facts G.valid envs
    rw [(sched_exactly_once G.valid hne envs).2.2,
      ← length_eq_iff_all hf.inv.nodup (fun j hj => hf.inv.lt j hj), ← hlen]
    have : (mgDone l envs).length = (completed (traceOf l envs)).length := by
      unfold mgDone
      have hL : ∀ i ∈ completed (traceOf l envs), ((l[i]?).bind (fun e => mgAction e.1)).isSome := by
        intro i hi
        rw [List.getElem?_eq_getElem (hf.inv.lt i hi)]
        exact List.all_eq_true.1 ha _ (List.getElem_mem _)
      exact filterMap_length _ _ hL
    rw [this]

theorem coarser_list (c : MgConfig) (n : Nat) (hn : n ≤ 2) :
    MgList (mgToCoarser c n) (mgCoarserSpec c n) := by
  obtain ⟨a, b, d⟩ := c
  have hn' : n = 0 ∨ n = 1 ∨ n = 2 := by omega
  refine ⟨?_, ?_, ?_⟩ <;> rcases hn' with rfl | rfl | rfl <;> revert a b d <;> decide +kernel

theorem finer_list0 (c : MgConfig) (n : Nat) (hn : n ≤ 2) (flag : Nat) (hf : flag ≤ 2)
    (h0 : flag = 2 → n ≠ 0) :
    MgList (mgToFiner c n flag) (mgFinerSpec c n (flag == 1) (flag == 2)) := by
  obtain ⟨a, b, d⟩ := c
  have hn' : n = 0 ∨ n = 1 ∨ n = 2 := by omega
  have hf' : flag = 0 ∨ flag = 1 ∨ flag = 2 := by omega
  refine ⟨?_, ?_, ?_⟩ <;> rcases hn' with rfl | rfl | rfl <;> rcases hf' with rfl | rfl | rfl <;>
    first
    | exact absurd rfl (h0 rfl)
    | (clear h0; revert a b d; decide +kernel)

/-- **C69.** Going to the coarser level with up to two smoothing passes, in every execution of the list
on a block (any order and number of calls, sends and receives failing at any time), the operations done
are those of the specification in that order, up to the order of sending and receiving in an exchange;
the list is complete exactly when all of them are done. -/
theorem mg_coarser_order_partial (c : MgConfig) (n : Nat) (hn : n ≤ 2) (envs : List (Nat → TaskStatus))
    (henv : ∀ env ∈ envs, MgEnv (mgToCoarser c n) env) :
    MgFollows (mgDone (mgToCoarser c n) envs) (mgCoarserSpec c n) ∧
    (.complete ∈ (runBlock ((mgToCoarser c n).map mkTask) envs).2.2 ↔
      (mgDone (mgToCoarser c n) envs).length = (mgCoarserSpec c n).length) :=
  (coarser_list c n hn).follows envs henv

theorem finer_flag (c : MgConfig) (n flag : Nat) (h1 : flag ≠ 1) (h2 : flag ≠ 2) :
    mgToFiner c n flag = mgToFiner c n 0 := by
  simp only [mgToFiner, h1, h2, if_false]
  rfl

theorem finer_list (c : MgConfig) (n : Nat) (hn : n ≤ 2) (flag : Nat) (h0 : flag = 2 → n ≠ 0) :
    MgList (mgToFiner c n flag) (mgFinerSpec c n (flag == 1) (flag == 2)) := by
  by_cases hf : flag ≤ 2
  · exact finer_list0 c n hn flag hf h0
  · rw [finer_flag c n flag (by omega) (by omega),
      show (flag == 1) = (0 == 1) from by (simp; omega), show (flag == 2) = (0 == 2) from by (simp; omega)]
    exact finer_list0 c n hn 0 (by omega) (by omega)

/-- **C69.** The same for going to the finer level, with up to two smoothing passes, at least one of
them on the finest level (`flag = 2`). -/
theorem mg_finer_order_partial (c : MgConfig) (n : Nat) (hn : n ≤ 2) (flag : Nat) (h0 : flag = 2 → n ≠ 0)
    (envs : List (Nat → TaskStatus)) (henv : ∀ env ∈ envs, MgEnv (mgToFiner c n flag) env) :
    MgFollows (mgDone (mgToFiner c n flag) envs) (mgFinerSpec c n (flag == 1) (flag == 2)) ∧
    (.complete ∈ (runBlock ((mgToFiner c n flag).map mkTask) envs).2.2 ↔
      (mgDone (mgToFiner c n flag) envs).length = (mgFinerSpec c n (flag == 1) (flag == 2)).length) :=
  (finer_list c n hn flag h0).follows envs henv

theorem fmg_list (c : MgConfig) (flag : Nat) :
    MgList (mgFmgProlongate c flag) (mgFmgSpec c (flag == 1)) := by
  obtain ⟨a, b, d⟩ := c
  by_cases hf : flag = 1
  · subst hf
    refine ⟨?_, ?_, ?_⟩ <;> revert a b d <;> decide +kernel
  · have e1 : mgFmgProlongate ⟨a, b, d⟩ flag = mgFmgProlongate ⟨a, b, d⟩ 0 := by
      simp only [mgFmgProlongate, hf, if_false]; rfl
    rw [e1, show (flag == 1) = (0 == 1) from by simp [hf]]
    clear e1 hf
    refine ⟨?_, ?_, ?_⟩ <;> revert a b d <;> decide +kernel

/-- **C69.** The same for the prolongation of the full multigrid step. -/
theorem mg_fmg_order (c : MgConfig) (flag : Nat) (envs : List (Nat → TaskStatus))
    (henv : ∀ env ∈ envs, MgEnv (mgFmgProlongate c flag) env) :
    MgFollows (mgDone (mgFmgProlongate c flag) envs) (mgFmgSpec c (flag == 1)) ∧
    (.complete ∈ (runBlock ((mgFmgProlongate c flag).map mkTask) envs).2.2 ↔
      (mgDone (mgFmgProlongate c flag) envs).length = (mgFmgSpec c (flag == 1)).length) :=
  (fmg_list c flag).follows envs henv

theorem boundary_list (c : MgConfig) : MgList (mgBoundary c) (mgPhase c .flux []) := by
  obtain ⟨a, b, d⟩ := c
  refine ⟨?_, ?_, ?_⟩ <;> revert a b d <;> decide +kernel

/-- **C69.** The same for the exchange of ghost cells alone. -/
theorem mg_boundary_order (c : MgConfig) (envs : List (Nat → TaskStatus))
    (henv : ∀ env ∈ envs, MgEnv (mgBoundary c) env) :
    MgFollows (mgDone (mgBoundary c) envs) (mgPhase c .flux []) ∧
    (.complete ∈ (runBlock ((mgBoundary c).map mkTask) envs).2.2 ↔
      (mgDone (mgBoundary c) envs).length = (mgPhase c .flux []).length) :=
  (boundary_list c).follows envs henv

/-- The lists the solver runs, with up to two smoothing passes, at least one on the finest level. -/
inductive MgLegal : List (Nat × List Nat) → Prop
  | coarser (c : MgConfig) (n : Nat) (hn : n ≤ 2) : MgLegal (mgToCoarser c n)
  | finer (c : MgConfig) (n flag : Nat) (hn : n ≤ 2) (h0 : flag = 2 → n ≠ 0) :
      MgLegal (mgToFiner c n flag)
  | fmg (c : MgConfig) (flag : Nat) : MgLegal (mgFmgProlongate c flag)
  | boundary (c : MgConfig) : MgLegal (mgBoundary c)

/-- **C69.** None of these lists dead-locks, for any number of blocks and any neighbour relation
`nbrs b t` (the blocks whose messages receive task `t` of block `b` waits for), under any fair order of
calls, if messages that have been sent are eventually seen by the receive tasks, and tasks that do not
receive eventually succeed. -/
theorem mg_no_deadlock {l : List (Nat × List Nat)} (hl : MgLegal l) (nb : Nat) (sched : Nat → Nat)
    (hs : ∀ b, b < nb → ∀ T, ∃ m, T ≤ m ∧ sched m = b)
    (nbrs : Nat → Nat → List Nat) (hn : ∀ b t, ∀ b' ∈ nbrs b t, b' < nb)
    (env : Nat → Nat → TaskStatus)
    (henv : ∀ b, b < nb → ∀ (i : Nat) (hi : i < l.length),
      (∀ s, (l[i].1, s) ∈ mgMessages → ∃ T, ∀ b' ∈ nbrs b l[i].1,
        (worldRun (l.map mkTask) sched env T b').finished.Has s) →
      ∃ T, ∀ m, T ≤ m → sched m = b → env m i ≠ .fail) :
    ∃ T, ∀ T', T ≤ T' → ∀ b, b < nb → ∀ e ∈ l,
      (worldRun (l.map mkTask) sched env T' b).finished.Has e.1 := by
  have hg : graphOk (seqRank l 0 0) mgMessages l = true := by
    have : ∃ spec, MgList l spec := by
      cases hl with
      | coarser c n hn => exact ⟨_, coarser_list c n hn⟩
      | finer c n flag hn h0 => exact ⟨_, finer_list c n hn flag h0⟩
      | fmg c flag => exact ⟨_, fmg_list c flag⟩
      | boundary c => exact ⟨_, boundary_list c⟩
    obtain ⟨spec, _, h, _⟩ := this
    simp only [mgOk, Bool.and_eq_true] at h
    exact h.1.1.1
  exact no_deadlock_msgs hg nb sched hs nbrs hn env henv

/-- **C69, false of the code for three or more passes.** `npresmooth` is not checked; with three or
more the list for going to the coarser level is empty and the stage never ends. -/
theorem mg_coarser_hangs (c : MgConfig) (n : Nat) (hn : 3 ≤ n) (nmb : Nat) (h : 0 < nmb)
    (env : Nat → Nat → Nat → TaskStatus) (fuel : Nat) :
    (doTaskListOneStage ((mgToCoarser c n).map mkTask) nmb env fuel).2.2 = false := by
  have : mgToCoarser c n = [] := by
    simp only [mgToCoarser]
    rw [if_neg (by omega), if_neg (by omega), if_neg (by omega)]
  rw [this]
  exact sched_empty_list_hangs nmb h env fuel

theorem finer_many (c : MgConfig) (n flag : Nat) (hn : 3 ≤ n) :
    mgToFiner c n flag = mgToFiner c 3 flag := by
  have h1 : 1 ≤ n := by omega
  have h2 : n ≠ 2 := by omega
  have h3 : n ≠ 0 := by omega
  have h4 : n ≠ 1 := by omega
  simp only [mgToFiner, h1, h2, h3, h4, if_false, if_true]
  rfl

/-- **C69, false of the code on the finest level** without post-smoothing and with three or more
passes: the last exchange waits for a task that is not in the list, and the stage never ends. -/
theorem mg_finer_hangs (c : MgConfig) (n : Nat) (hn : n = 0 ∨ 3 ≤ n) (nmb : Nat) (h : 0 < nmb)
    (env : Nat → Nat → Nat → TaskStatus) (fuel : Nat) :
    (doTaskListOneStage ((mgToFiner c n 2).map mkTask) nmb env fuel).2.2 = false := by
  have hv : ∀ l : List (Nat × List Nat), (distinct (l.map Prod.fst) 0 && l.all (fun e => Nat.ble 1 e.1 &&
      Nat.ble e.1 128 && e.2.all (fun d => Nat.ble 1 d && Nat.ble d 128))) = true → Valid l := by
    intro l hl
    simp only [Bool.and_eq_true, List.all_eq_true, Nat.ble_eq] at hl
    exact ⟨(distinct_sound _ _ hl.1).1, fun e he => ⟨(hl.2 e he).1.1, (hl.2 e he).1.2⟩,
      fun e he d hd => (hl.2 e he).2 d hd⟩
  rcases hn with rfl | hn
  · refine missing_dependency_hangs (e := (STARTRECVL, [CLEARBND0])) (d := CLEARBND0) (hv _ ?_) ?_
      (by simp) ?_ nmb h env fuel <;> obtain ⟨a, b, d⟩ := c <;> revert a b d <;> decide +kernel
  · rw [finer_many c n 2 hn]
    refine missing_dependency_hangs (e := (STARTRECVL, [CLEARBND2B])) (d := CLEARBND2B) (hv _ ?_) ?_
      (by simp) ?_ nmb h env fuel <;> obtain ⟨a, b, d⟩ := c <;> revert a b d <;> decide +kernel

/-- **C69, false of the code for three or more passes below the finest level:** one pass is made. -/
theorem mg_finer_one_pass (c : MgConfig) (n flag : Nat) (hn : 3 ≤ n) (hf : flag ≠ 2) :
    mgToFiner c n flag = mgToFiner c 1 flag := by
  rw [finer_many c n flag hn]
  simp only [mgToFiner, hf, if_false]
  rfl

/-- The hypotheses are met by two neighbouring blocks of a refined mesh, with red-black smoothing and
the full approximation scheme, whose tasks that send and receive fail during the first hundred calls. -/
example : ∃ T, ∀ T', T ≤ T' → ∀ b, b < 2 → ∀ e ∈ mgToCoarser ⟨true, true, true⟩ 2,
      (worldRun ((mgToCoarser ⟨true, true, true⟩ 2).map mkTask) (fun n => n % 2)
        (fun n i => if i % 3 = 1 ∧ n < 100 then .fail else .success) T' b).finished.Has e.1 :=
  mg_no_deadlock (.coarser _ 2 (by omega)) 2 _ (fun b hb T => ⟨2 * T + b, by omega, by omega⟩)
    (fun b _ => [1 - b]) (fun b t b' h => by simp at h; omega) _
    (fun b hb i hi _ => ⟨100, fun m hm _ => by
      rw [if_neg (by omega)]; decide⟩)

/-- An execution of the list for going to the coarser level without smoothing, in which the message
arrives before the block has sent its own: two calls, then one in which sending fails. -/
example : mgDone (mgToCoarser ⟨false, true, false⟩ 0)
      [fun i => if i = 1 then .fail else .next, fun _ => .success] = [.start .flux, .receive .flux] ∧
    MgEnv (mgToCoarser ⟨false, true, false⟩ 0) (fun i => if i = 1 then .fail else .next) := by
  refine ⟨by decide +kernel, ?_⟩
  intro i hi a ha h1 h2
  by_cases h : i = 1
  · subst h
    obtain rfl : MgAct.send .flux = a := Option.some.inj ha
    exact absurd h1 (by decide)
  · simp [h]

end Verif.TaskList
