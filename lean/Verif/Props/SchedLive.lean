import Verif.Props.Sched

/-!
# C20: a stage terminates on all processes when messages are eventually delivered
-/
namespace Verif.TaskList
open TaskID

private theorem world_inv {l : List (Nat × List Nat)} (hv : Valid l) (sched : Nat → Nat)
    (env : Nat → Nat → TaskStatus) (n b : Nat) :
    ∃ D, Inv l (worldRun (l.map mkTask) sched env n b) D := by
  induction n with
  | zero => exact ⟨[], by simpa [worldRun] using inv_reset l⟩
  | succ n ih =>
    obtain ⟨D, hD⟩ := ih
    simp only [worldRun]
    split
    · obtain ⟨s, ts', new, h1, h2, _⟩ := doAll_refines hv (env n) hD
      rw [h1]; exact ⟨_, h2⟩
    · exact ⟨D, hD⟩

private theorem world_mono_step {l : List (Nat × List Nat)} (hv : Valid l) (sched : Nat → Nat)
    (env : Nat → Nat → TaskStatus) (n b k : Nat)
    (h : (worldRun (l.map mkTask) sched env n b).finished.Has k) :
    (worldRun (l.map mkTask) sched env (n + 1) b).finished.Has k := by
  obtain ⟨D, hD⟩ := world_inv hv sched env n b
  simp only [worldRun]
  split
  · obtain ⟨s, ts', new, h1, h2, _⟩ := doAll_refines hv (env n) hD
    rw [h1]
    obtain ⟨j, hj, hk⟩ := (hD.fin k).1 h
    exact (h2.fin k).2 ⟨j, by simp [hj], hk⟩
  · exact h

private theorem world_mono {l : List (Nat × List Nat)} (hv : Valid l) (sched : Nat → Nat)
    (env : Nat → Nat → TaskStatus) (b k n m : Nat) (hnm : n ≤ m)
    (h : (worldRun (l.map mkTask) sched env n b).finished.Has k) :
    (worldRun (l.map mkTask) sched env m b).finished.Has k := by
  induction hnm with
  | refl => exact h
  | step _ ih => exact world_mono_step hv sched env _ b k ih

private theorem world_left_mono {l : List (Nat × List Nat)} (hv : Valid l) (sched : Nat → Nat)
    (env : Nat → Nat → TaskStatus) (b n m : Nat) (hnm : n ≤ m) :
    (worldRun (l.map mkTask) sched env m b).left ≤ (worldRun (l.map mkTask) sched env n b).left := by
  induction hnm with
  | refl => omega
  | @step m _ ih =>
    refine Int.le_trans ?_ ih
    obtain ⟨D, hD⟩ := world_inv hv sched env m b
    simp only [worldRun]
    split
    · obtain ⟨s, ts', new, h1, h2, _⟩ := doAll_refines hv (env m) hD
      rw [h1]
      have a1 := hD.left
      have a2 := h2.left
      simp at a2
      show ts'.left ≤ _
      omega
    · omega

private theorem world_progress {l : List (Nat × List Nat)} (hv : Valid l) (sched : Nat → Nat)
    (env : Nat → Nat → TaskStatus) (b i : Nat) (hi : i < l.length)
    (hs : ∀ T, ∃ m, T ≤ m ∧ sched m = b) (T0 : Nat)
    (hdep : ∀ d ∈ l[i].2, (worldRun (l.map mkTask) sched env T0 b).finished.Has d)
    (henv : ∀ m, T0 ≤ m → sched m = b → env m i ≠ .fail) :
    ∀ (k : Nat) (T : Nat), T0 ≤ T → (worldRun (l.map mkTask) sched env T b).left ≤ k →
      ∃ T', (worldRun (l.map mkTask) sched env T' b).finished.Has l[i].1 := by
  intro k
  induction k with
  | zero =>
    intro T hT hk
    obtain ⟨D, hD⟩ := world_inv hv sched env T b
    refine ⟨T, (hD.fin _).2 ⟨i, ?_, idAt_eq hi⟩⟩
    have h1 := hD.left
    have h2 : D.length ≤ l.length := by
      have := hD.nodup.length_le_of_subset (l₂ := List.range l.length)
        (by intro j hj; simpa using hD.lt j hj)
      simpa using this
    exact (length_eq_iff_all hD.nodup hD.lt).1 (by omega) i hi
  | succ k ih =>
    intro T hT hk
    obtain ⟨m, hm, hmb⟩ := hs T
    obtain ⟨D, hD⟩ := world_inv hv sched env m b
    by_cases hin : i ∈ D
    · exact ⟨m, (hD.fin _).2 ⟨i, hin, idAt_eq hi⟩⟩
    · obtain ⟨s, ts', new, h1, h2, h3⟩ := doAll_refines hv (env m) hD
      have hne : D.length ≠ l.length := by
        intro h
        exact hin ((length_eq_iff_all hD.nodup hD.lt).1 h i hi)
      rcases h3 with ⟨h4, _, _⟩ | ⟨_, h5⟩
      · exact absurd h4 hne
      · have hw : worldRun (l.map mkTask) sched env (m + 1) b = ts' := by
          simp only [worldRun, hmb, if_true, h1]
        by_cases hc : completed new = []
        · rcases h5.stuck hc i (by omega) hi with h | h | h
          · exact absurd h hin
          · exfalso; apply h
            intro d hd
            rw [depsAt_eq hi] at hd
            exact (hD.fin d).1 (world_mono hv sched env b d T0 m (by omega) (hdep d hd))
          · exact absurd h (henv m (by omega) hmb)
        · apply ih (m + 1) (by omega)
          rw [hw]
          have a1 := hD.left
          have a2 := h2.left
          have a3 := world_left_mono hv sched env b T m hm
          have a4 : 0 < (completed new).length := List.length_pos_iff.2 hc
          simp at a2
          omega

private theorem exists_uniform {P : Nat → Nat → Prop} (hmono : ∀ b T T', T ≤ T' → P b T → P b T')
    (n : Nat) (h : ∀ b, b < n → ∃ T, P b T) : ∃ T, ∀ b, b < n → P b T := by
  induction n with
  | zero => exact ⟨0, by intro b hb; omega⟩
  | succ n ih =>
    obtain ⟨T1, h1⟩ := ih (fun b hb => h b (by omega))
    obtain ⟨T2, h2⟩ := h n (by omega)
    refine ⟨max T1 T2, ?_⟩
    intro b hb
    by_cases hbn : b = n
    · subst hbn; exact hmono b T2 _ (by omega) h2
    · exact hmono b T1 _ (by omega) (h1 b (by omega))

/-- **C20.** `nb` blocks (on any number of processes) execute the same task list `l`; call number
`m` of `DoAllAvailableTasks` is made on block `sched m` and the tasks return what `env m` says.
A task may have to wait for messages: `waits b t` lists (block, task number) pairs that have to be
completed elsewhere before task `t` of block `b` can succeed.

Assume the dependencies and the message sources are tasks of the list and some rank increases
strictly along dependencies and messages (no cycles); every block is visited again and again; and
a task whose messages have all been sent succeeds on every attempt from some moment on (messages
are eventually delivered). Then there is a moment from which on all tasks of all blocks are
complete: no schedule dead-locks. -/
theorem sched_world_terminates {l : List (Nat × List Nat)} (hv : Valid l) (rank : Nat → Nat)
    (hdep : ∀ e ∈ l, ∀ d ∈ e.2, (∃ e' ∈ l, e'.1 = d) ∧ rank d < rank e.1)
    (nb : Nat) (sched : Nat → Nat) (hs : ∀ b, b < nb → ∀ T, ∃ m, T ≤ m ∧ sched m = b)
    (waits : Nat → Nat → List (Nat × Nat))
    (hw : ∀ b, b < nb → ∀ e ∈ l, ∀ p ∈ waits b e.1,
      p.1 < nb ∧ (∃ e' ∈ l, e'.1 = p.2) ∧ rank p.2 < rank e.1)
    (env : Nat → Nat → TaskStatus)
    (henv : ∀ b, b < nb → ∀ (i : Nat) (hi : i < l.length),
      (∃ T, ∀ p ∈ waits b l[i].1, (worldRun (l.map mkTask) sched env T p.1).finished.Has p.2) →
      ∃ T, ∀ m, T ≤ m → sched m = b → env m i ≠ .fail) :
    ∃ T, ∀ T', T ≤ T' → ∀ b, b < nb → ∀ e ∈ l,
      (worldRun (l.map mkTask) sched env T' b).finished.Has e.1 := by
  have main : ∀ r, ∃ T, ∀ b, b < nb → ∀ i, i < l.length → rank (idAt l i) < r →
      (worldRun (l.map mkTask) sched env T b).finished.Has (idAt l i) := by
    intro r
    induction r with
    | zero => exact ⟨0, by intro b _ i _ h; omega⟩
    | succ r ih =>
      obtain ⟨T0, hT0⟩ := ih
      apply exists_uniform
        (P := fun b T => ∀ i, i < l.length → rank (idAt l i) < r + 1 →
          (worldRun (l.map mkTask) sched env T b).finished.Has (idAt l i))
      · intro b T T' hTT h i hi hr
        exact world_mono hv sched env b _ T T' hTT (h i hi hr)
      · intro b hb
        have := exists_uniform
          (P := fun i T => rank (idAt l i) < r + 1 →
            (worldRun (l.map mkTask) sched env T b).finished.Has (idAt l i))
          (fun i T T' hTT h hr => world_mono hv sched env b _ T T' hTT (h hr)) l.length ?_
        · obtain ⟨T, hT⟩ := this
          exact ⟨T, fun i hi hr => hT i hi hr⟩
        · intro i hi
          by_cases hr : rank (idAt l i) < r + 1
          · have hmem : l[i] ∈ l := List.getElem_mem hi
            have lower : ∀ b', b' < nb → ∀ t, (∃ e' ∈ l, e'.1 = t) → rank t < rank l[i].1 →
                (worldRun (l.map mkTask) sched env T0 b').finished.Has t := by
              intro b' hb' t ⟨e', he', het⟩ hrt
              obtain ⟨j, hj, rfl⟩ := List.mem_iff_getElem.1 he'
              have := hT0 b' hb' j hj (by
                rw [idAt_eq hj, het]; rw [idAt_eq hi] at hr; omega)
              rw [idAt_eq hj, het] at this
              exact this
            obtain ⟨T1, hT1⟩ := henv b hb i hi ⟨T0, fun p hp => by
              obtain ⟨a1, a2, a3⟩ := hw b hb l[i] hmem p hp
              exact lower p.1 a1 p.2 a2 a3⟩
            obtain ⟨T', hT'⟩ := world_progress hv sched env b i hi (hs b hb) (max T0 T1)
              (fun d hd => world_mono hv sched env b d T0 _ (by omega)
                (lower b hb d (hdep _ hmem d hd).1 (hdep _ hmem d hd).2))
              (fun m hm hmb => hT1 m (by omega) hmb)
              (worldRun (l.map mkTask) sched env (max T0 T1) b).left.toNat (max T0 T1)
              (by omega) (by omega)
            exact ⟨T', fun _ => by rw [idAt_eq hi]; exact hT'⟩
          · exact ⟨0, fun h => absurd h hr⟩
  have hbound : ∃ r, ∀ i, i < l.length → rank (idAt l i) < r := by
    have := exists_uniform (P := fun i T => rank (idAt l i) < T)
      (fun i T T' h1 h2 => by omega) l.length (fun i _ => ⟨rank (idAt l i) + 1, by omega⟩)
    exact this
  obtain ⟨r, hr⟩ := hbound
  obtain ⟨T, hT⟩ := main r
  refine ⟨T, ?_⟩
  intro T' hTT b hb e he
  obtain ⟨i, hi, rfl⟩ := List.mem_iff_getElem.1 he
  have := hT b hb i hi (hr i hi)
  rw [idAt_eq hi] at this
  exact world_mono hv sched env b _ T T' hTT this

/-- Two blocks, a send task 1 and a receive task 2 (listed first) that waits for the send of the
other block: the hypotheses of `sched_world_terminates` are met with a receive that fails during
the first six calls. -/
example : ∃ T, ∀ T', T ≤ T' → ∀ b, b < 2 → ∀ e ∈ ([(2, []), (1, [])] : List (Nat × List Nat)),
    (worldRun (([(2, []), (1, [])] : List (Nat × List Nat)).map mkTask) (fun n => n % 2)
      (fun n i => if i = 0 ∧ n < 6 then .fail else .success) T' b).finished.Has e.1 := by
  apply sched_world_terminates (rank := fun t => t) (waits := fun b t =>
    if t = 2 then [(1 - b, 1)] else [])
  · exact ⟨by decide, by decide, by decide⟩
  · decide
  · intro b hb T; exact ⟨2 * T + b, by omega, by omega⟩
  · intro b hb e he p hp
    simp at he
    rcases he with rfl | rfl
    · simp at hp; subst hp; refine ⟨by omega, ⟨(1, []), by simp⟩, by show 1 < 2; omega⟩
    · simp at hp
  · intro b hb i hi _
    exact ⟨6, fun m hm _ => by rw [if_neg (by omega)]; decide⟩

end Verif.TaskList
