import Verif.Lemmas.TaskGraphCheck
import Verif.Props.SchedLive

/-!
# C22, C23, C53: the task graphs of all configurations

The tables `dataFlow` and `sourceFlow` are in `Verif.Lemmas.TaskGraphCheck`.
-/
namespace Verif.TaskList
open TaskID T

/-- In every execution of list `l` in which only receive tasks return `fail`, whenever task
number `x` is attempted, task number `y` has completed before. -/
def AlwaysBefore (l : List Entry) (y x : Nat) : Prop :=
  ∀ envs : List (Nat → TaskStatus),
    (∀ env ∈ envs, ∀ i (hi : i < l.length), l[i].1 ∉ blockingIds → env i ≠ .fail) →
    ∀ (pre post : List Event) (e : Event), traceOf l envs = pre ++ e :: post →
      (∃ h : e.idx < l.length, l[e.idx].1 = x) →
      ∃ j ∈ completed pre, ∃ h : j < l.length, l[j].1 = y

theorem alwaysBefore_of_check {R : Nat} {l : List Entry} (hg : graphOk R messages l = true)
    {req : List (Nat × List Nat)} (ho : orderOk blk l req = true) {x y : Nat} {ys : List Nat}
    (hreq : (x, ys) ∈ req) (hy : y ∈ ys) (hyl : ∃ e ∈ l, e.1 = y) : AlwaysBefore l y x := by
  intro envs henv pre post ev htr ⟨hi, hx⟩
  have G := graphOk_sound hg
  obtain ⟨e', he', rfl⟩ := hyl
  obtain ⟨j, hj, rfl⟩ := List.mem_iff_getElem.1 he'
  have hm := orderOk_sound ho hreq ⟨l[ev.idx], List.getElem_mem hi, hx⟩ hy
    ⟨l[j], List.getElem_mem hj, rfl⟩
  rw [← hx] at hm
  obtain ⟨xi, st⟩ := ev
  refine ⟨j, ?_, hj, rfl⟩
  refine precedeMask_sound G.valid G.small (fun e he d hd => (G.deps e he d hd).1) blk envs ?_
    hi hj hm pre post st htr
  intro env hen i hi hb
  apply henv env hen i hi
  intro hmem
  have := (testBit_maskOf blockingIds l[i].1).2 hmem
  rw [show maskOf blockingIds = blk from rfl, hb] at this
  exact absurd this (by decide)

/-! ## C22: closed, acyclic, no deadlock -/

/-- **C22.** In every configuration of the main integrator: task numbers are distinct and fit the
bit field, every dependency is a task of the list, every receive task has its send task in the
list, and one ranking increases along all dependencies and messages. -/
theorem main_graph_acyclic (c : Config) :
    ((mainTasks c).map Prod.fst).Nodup ∧ (∀ e ∈ mainTasks c, 1 ≤ e.1 ∧ e.1 ≤ 127) ∧
    ∃ rank : Nat → Nat,
      (∀ e ∈ mainTasks c, ∀ d ∈ e.2, (∃ e' ∈ mainTasks c, e'.1 = d) ∧ rank d < rank e.1) ∧
      (∀ p ∈ messages, (∃ e ∈ mainTasks c, e.1 = p.1) →
        (∃ e ∈ mainTasks c, e.1 = p.2) ∧ rank p.2 < rank p.1) := by
  have G := graphOk_sound (main_graph_check c)
  exact ⟨G.valid.1, fun e he => ⟨(G.valid.ids e he).1, G.small e he⟩, rankOf ranks, G.deps, G.msgs⟩

/-- **C22.** The same for the super-time-stepping integrator. -/
theorem sts_graph_acyclic (c : StsConfig) (hc : c.hyd || c.fld || c.scal) :
    ((stsTasks c).map Prod.fst).Nodup ∧ (∀ e ∈ stsTasks c, 1 ≤ e.1 ∧ e.1 ≤ 127) ∧
    ∃ rank : Nat → Nat,
      (∀ e ∈ stsTasks c, ∀ d ∈ e.2, (∃ e' ∈ stsTasks c, e'.1 = d) ∧ rank d < rank e.1) ∧
      (∀ p ∈ messages, (∃ e ∈ stsTasks c, e.1 = p.1) →
        (∃ e ∈ stsTasks c, e.1 = p.2) ∧ rank p.2 < rank p.1) := by
  have G := graphOk_sound (sts_graph_check c hc)
  exact ⟨G.valid.1, fun e he => ⟨(G.valid.ids e he).1, G.small e he⟩, rankOf ranks, G.deps, G.msgs⟩

theorem no_deadlock_of_check {R : Nat} {l : List Entry} (hg : graphOk R messages l = true)
    (nb : Nat) (sched : Nat → Nat) (hs : ∀ b, b < nb → ∀ T, ∃ m, T ≤ m ∧ sched m = b)
    (nbrs : Nat → Nat → List Nat) (hn : ∀ b t, ∀ b' ∈ nbrs b t, b' < nb)
    (env : Nat → Nat → TaskStatus)
    (henv : ∀ b, b < nb → ∀ (i : Nat) (hi : i < l.length),
      (∀ s, (l[i].1, s) ∈ messages → ∃ T, ∀ b' ∈ nbrs b l[i].1,
        (worldRun (l.map mkTask) sched env T b').finished.Has s) →
      ∃ T, ∀ m, T ≤ m → sched m = b → env m i ≠ .fail) :
    ∃ T, ∀ T', T ≤ T' → ∀ b, b < nb → ∀ e ∈ l,
      (worldRun (l.map mkTask) sched env T' b).finished.Has e.1 := by
  have G := graphOk_sound hg
  refine sched_world_terminates G.valid (rankOf R) G.deps nb sched hs
    (fun b t => (messages.filter (fun p => p.1 == t)).flatMap
      (fun p => (nbrs b t).map (fun b' => (b', p.2)))) ?_ env ?_
  · intro b hb e he p hp
    simp only [List.mem_flatMap, List.mem_filter, beq_iff_eq, List.mem_map] at hp
    obtain ⟨q, ⟨hq, hqe⟩, b', hb', rfl⟩ := hp
    have := G.msgs q hq ⟨e, he, hqe.symm⟩
    exact ⟨hn b e.1 b' hb', this.1, by rw [← hqe]; exact this.2⟩
  · intro b hb i hi ⟨T, hT⟩
    refine henv b hb i hi (fun s hs' => ⟨T, fun b' hb' => ?_⟩)
    apply hT (b', s)
    simp only [List.mem_flatMap, List.mem_filter, beq_iff_eq, List.mem_map]
    exact ⟨(l[i].1, s), ⟨hs', rfl⟩, b', hb', rfl⟩

/-- **C20/C22.** No stage of the main integrator dead-locks, in any configuration, for any number
of blocks and any neighbour relation `nbrs b t` (the blocks whose messages receive task `t` of
block `b` waits for), under any fair order of calls, if messages that have been sent are
eventually seen by the receive tasks, and tasks that do not receive eventually succeed. -/
theorem main_no_deadlock (c : Config) (nb : Nat) (sched : Nat → Nat)
    (hs : ∀ b, b < nb → ∀ T, ∃ m, T ≤ m ∧ sched m = b)
    (nbrs : Nat → Nat → List Nat) (hn : ∀ b t, ∀ b' ∈ nbrs b t, b' < nb)
    (env : Nat → Nat → TaskStatus)
    (henv : ∀ b, b < nb → ∀ (i : Nat) (hi : i < (mainTasks c).length),
      (∀ s, ((mainTasks c)[i].1, s) ∈ messages → ∃ T, ∀ b' ∈ nbrs b (mainTasks c)[i].1,
        (worldRun ((mainTasks c).map mkTask) sched env T b').finished.Has s) →
      ∃ T, ∀ m, T ≤ m → sched m = b → env m i ≠ .fail) :
    ∃ T, ∀ T', T ≤ T' → ∀ b, b < nb → ∀ e ∈ mainTasks c,
      (worldRun ((mainTasks c).map mkTask) sched env T' b).finished.Has e.1 :=
  no_deadlock_of_check (main_graph_check c) nb sched hs nbrs hn env henv

/-- **C20/C22.** The same for the super-time-stepping integrator. -/
theorem sts_no_deadlock (c : StsConfig) (hc : c.hyd || c.fld || c.scal) (nb : Nat)
    (sched : Nat → Nat) (hs : ∀ b, b < nb → ∀ T, ∃ m, T ≤ m ∧ sched m = b)
    (nbrs : Nat → Nat → List Nat) (hn : ∀ b t, ∀ b' ∈ nbrs b t, b' < nb)
    (env : Nat → Nat → TaskStatus)
    (henv : ∀ b, b < nb → ∀ (i : Nat) (hi : i < (stsTasks c).length),
      (∀ s, ((stsTasks c)[i].1, s) ∈ messages → ∃ T, ∀ b' ∈ nbrs b (stsTasks c)[i].1,
        (worldRun ((stsTasks c).map mkTask) sched env T b').finished.Has s) →
      ∃ T, ∀ m, T ≤ m → sched m = b → env m i ≠ .fail) :
    ∃ T, ∀ T', T ≤ T' → ∀ b, b < nb → ∀ e ∈ stsTasks c,
      (worldRun ((stsTasks c).map mkTask) sched env T' b).finished.Has e.1 :=
  no_deadlock_of_check (sts_graph_check c hc) nb sched hs nbrs hn env henv

/-- The hypotheses are met by two neighbouring MHD blocks with mesh refinement whose receive tasks
fail during the first hundred calls. -/
example : ∃ T, ∀ T', T ≤ T' → ∀ b, b < 2 →
    ∀ e ∈ mainTasks ⟨false, true, false, true, false, false, false, false, true, false⟩,
      (worldRun ((mainTasks ⟨false, true, false, true, false, false, false, false, true,
        false⟩).map mkTask) (fun n => n % 2)
        (fun n i => if i % 3 = 0 ∧ n < 100 then .fail else .success) T' b).finished.Has e.1 :=
  main_no_deadlock _ 2 _ (fun b hb T => ⟨2 * T + b, by omega, by omega⟩)
    (fun b _ => [1 - b]) (fun b t b' h => by simp at h; omega) _
    (fun b hb i hi _ => ⟨100, fun m hm _ => by
      rw [if_neg (by omega)]; decide⟩)

/-! ## C23 -/

/-- **C23.** In every configuration of the main integrator there is a task `CLEAR_ALLBND`, and
whenever it is attempted, every other task of the block's stage has completed. -/
theorem main_clear_last (c : Config) :
    (∃ e ∈ mainTasks c, e.1 = CLEAR_ALLBND) ∧
    ∀ e ∈ mainTasks c, e.1 ≠ CLEAR_ALLBND → AlwaysBefore (mainTasks c) e.1 CLEAR_ALLBND := by
  constructor
  · exact main_clear_present c
  · intro e he hne
    refine alwaysBefore_of_check (main_graph_check c) (main_clear_check c)
      (List.mem_singleton.2 rfl) ?_ ⟨e, he, rfl⟩
    simp only [List.mem_filter, List.mem_map, Bool.not_eq_true']
    exact ⟨⟨e, he, rfl⟩, by
      rcases hb : Nat.beq e.1 CLEAR_ALLBND
      · rfl
      · exact absurd (Nat.eq_of_beq_eq_true hb) hne⟩

/-- **C23.** The same for the super-time-stepping integrator. -/
theorem sts_clear_last (c : StsConfig) (hc : c.hyd || c.fld || c.scal) :
    (∃ e ∈ stsTasks c, e.1 = CLEAR_ALLBND) ∧
    ∀ e ∈ stsTasks c, e.1 ≠ CLEAR_ALLBND → AlwaysBefore (stsTasks c) e.1 CLEAR_ALLBND := by
  constructor
  · exact sts_clear_present c
  · intro e he hne
    refine alwaysBefore_of_check (sts_graph_check c hc) (sts_clear_check c hc)
      (List.mem_singleton.2 rfl) ?_ ⟨e, he, rfl⟩
    simp only [List.mem_filter, List.mem_map, Bool.not_eq_true']
    exact ⟨⟨e, he, rfl⟩, by
      rcases hb : Nat.beq e.1 CLEAR_ALLBND
      · rfl
      · exact absurd (Nat.eq_of_beq_eq_true hb) hne⟩

/-! ## C53: data-flow order -/

/-- **C53.** All requirements of the table `dataFlow` hold in every execution of every
configuration of the main integrator. -/
theorem main_data_flow (c : Config) (x y : Nat) (ys : List Nat) (h : (x, ys) ∈ dataFlow)
    (hy : y ∈ ys) (hyl : ∃ e ∈ mainTasks c, e.1 = y) : AlwaysBefore (mainTasks c) y x :=
  alwaysBefore_of_check (main_graph_check c) (main_order_check c) h hy hyl

/-- **C53.** The same for the super-time-stepping integrator. -/
theorem sts_data_flow (c : StsConfig) (hc : c.hyd || c.fld || c.scal) (x y : Nat) (ys : List Nat)
    (h : (x, ys) ∈ dataFlow) (hy : y ∈ ys) (hyl : ∃ e ∈ stsTasks c, e.1 = y) :
    AlwaysBefore (stsTasks c) y x :=
  alwaysBefore_of_check (sts_graph_check c hc) (sts_order_check c hc) h hy hyl

/-- **C53, partial.** The radiation and cosmic-ray source terms are ordered with respect to
`INT_HYD`, `SEND_HYD` and `CONS2PRIM` when the mesh has one level and no shearing box.
Missing: the other configurations with radiation or cosmic rays, for which the claim is false, see
`source_before_integrate_race` and `primitives_before_source_race`. -/
theorem main_source_flow_partial (c : Config) (hc : (c.rad || c.cr) → !(c.multi || c.shear))
    (x y : Nat) (ys : List Nat) (h : (x, ys) ∈ sourceFlow) (hy : y ∈ ys)
    (hyl : ∃ e ∈ mainTasks c, e.1 = y) : AlwaysBefore (mainTasks c) y x := by
  refine alwaysBefore_of_check (main_graph_check c) (main_source_check c ?_) h hy hyl
  obtain ⟨a, b, c, d, e, f, g, h, i, j⟩ := c
  revert hc; simp only [sourceSafe]
  cases d <;> cases e <;> cases f <;> cases g <;> simp

/-- A pure radiation-hydrodynamics configuration with a refined mesh. -/
def radMulti : Config := ⟨false, false, false, true, false, true, false, false, false, false⟩

/-- Radiation-hydrodynamics in a shearing box without orbital advection. -/
def radShear : Config := ⟨false, false, false, false, true, true, false, false, false, false⟩

/-- Environment in which exactly the receive task `t` fails. -/
def lateRecv (l : List Entry) (t : Nat) : Nat → TaskStatus :=
  fun i => if (l[i]?.map Prod.fst) = some t then .fail else .next

theorem not_alwaysBefore {l : List Entry} {t x y n : Nat} (ht : t ∈ blockingIds)
    (h : (match (traceOf l [lateRecv l t])[n]? with
      | none => false
      | some e => (l[e.idx]?.map Prod.fst == some x) &&
        (completed ((traceOf l [lateRecv l t]).take n)).all
          (fun j => l[j]?.map Prod.fst != some y)) = true) : ¬ AlwaysBefore l y x := by
  intro H
  rcases hn : (traceOf l [lateRecv l t])[n]? with _ | e
  · simp [hn] at h
  · simp only [hn, Bool.and_eq_true, beq_iff_eq, List.all_eq_true, bne_iff_ne] at h
    obtain ⟨hlt, he⟩ := List.getElem?_eq_some_iff.1 hn
    have hsplit : traceOf l [lateRecv l t] = (traceOf l [lateRecv l t]).take n ++
        e :: (traceOf l [lateRecv l t]).drop (n + 1) := by
      rw [← he, ← List.drop_eq_getElem_cons hlt, List.take_append_drop]
    have hx : ∃ h : e.idx < l.length, l[e.idx].1 = x := by
      have h1 := h.1
      by_cases hi : e.idx < l.length
      · refine ⟨hi, ?_⟩; rw [List.getElem?_eq_getElem hi] at h1; simpa using h1
      · rw [List.getElem?_eq_none (by omega)] at h1; simp at h1
    obtain ⟨j, hj, hjl, hjy⟩ := H [lateRecv l t] (by
      intro env henv i hi hb
      rw [List.mem_singleton] at henv
      subst henv
      simp only [lateRecv, List.getElem?_eq_getElem hi, Option.map_some, Option.some.injEq]
      rw [if_neg (by intro hc; exact hb (hc ▸ ht))]
      decide) _ _ e hsplit hx
    apply h.2 j hj
    rw [List.getElem?_eq_getElem hjl]; simp [hjy]

/-- **C53, negation.** With radiation on a refined mesh, the radiation source term can be added
to the gas variables before the hydrodynamic update of the same stage: if the hydro flux
correction arrives late, `SRCTERM_RAD` is executed while `INT_HYD` has not. -/
theorem source_before_integrate_race :
    ¬ AlwaysBefore (mainTasks radMulti) INT_HYD SRCTERM_RAD :=
  not_alwaysBefore (t := RECV_HYDFLX) (n := 8) (by decide) (by decide +kernel)

/-- **C53, negation.** With radiation in a shearing box without orbital advection, the primitive
variables can be computed before the radiation source term is added to the gas variables: if the
radiation flux correction arrives late, `CONS2PRIM` is executed while `SRCTERM_RAD` has not. -/
theorem primitives_before_source_race :
    ¬ AlwaysBefore (mainTasks radShear) SRCTERM_RAD CONS2PRIM :=
  not_alwaysBefore (t := RECV_RADFLX) (n := 16) (by decide) (by decide +kernel)

/-- The gas variables of that stage are then sent to the neighbours only after the primitives
have been computed. -/
theorem primitives_before_send_race :
    ¬ AlwaysBefore (mainTasks radShear) SEND_HYD CONS2PRIM :=
  not_alwaysBefore (t := RECV_RADFLX) (n := 16) (by decide) (by decide +kernel)

end Verif.TaskList
