import Verif.Model.Exchange
import Mathlib.Data.List.Range
import Mathlib.Tactic.SplitIfs
import Mathlib.Data.Set.Image
import Mathlib.Order.WellFounded
import Mathlib.Tactic.Push

/-! Invariant of the exchange of boundary data. -/
namespace Verif.Exchange

variable {B Ch R : Type} [DecidableEq Ch] [DecidableEq R] {n : Net B Ch R}

/-- What holds in every reachable state. -/
structure Inv (n : Net B Ch R) (s : St Ch R) : Prop where
  err : s.err = false
  p1 : ∀ c, s.tasks (n.proc c) = true → s.start c = true
  p2 : ∀ c, s.send c = true → s.tasks (n.proc c) = true
  p3 : ∀ c, s.seen c = true → s.tasks (n.proc c) = true
  p4 : ∀ c, s.set c = true → ∀ c', n.own c' = n.own c → s.seen c' = true
  p5 : ∀ c, s.clear c = true → ∀ c', n.own c' = n.own c → s.send c' = true ∧ s.set c' = true
  sf : ∀ c, s.sflag c = .completed ↔ s.send c = true ∧ s.clear c = false
  out : ∀ c, s.out c = List.range (s.stage (n.proc c) + (s.set c).toNat)
  rb : ∀ c, s.seen c = true → s.rbuf c = s.stage (n.proc c)
  /- same process -/
  l1 : ∀ c, n.proc c = n.proc (n.peer c) → s.flag c =
    if s.clear c then .waiting else if s.set c then .completed else
    if s.send (n.peer c) then .arrived else .waiting
  l2 : ∀ c, n.proc c = n.proc (n.peer c) → s.send (n.peer c) = true → s.rbuf c = s.stage (n.proc c)
  l3 : ∀ c, n.proc c = n.proc (n.peer c) → s.seen c = true → s.send (n.peer c) = true
  l4 : ∀ c, n.proc c = n.proc (n.peer c) → s.rreq c = .off ∧ s.sreq c = .off ∧ s.net c = []
  /- different processes -/
  r1 : ∀ c, n.proc c ≠ n.proc (n.peer c) → s.flag c =
    if s.clear c then .waiting else if s.set c then .completed else
    if s.seen c then .arrived else .waiting
  r2 : ∀ c, n.proc c ≠ n.proc (n.peer c) → (s.rreq c = .off ↔ s.start c = false ∨ s.seen c = true)
  r3 : ∀ c, n.proc c ≠ n.proc (n.peer c) → s.rreq c = .full → s.rbuf c = s.stage (n.proc c)
  r4 : ∀ c, n.proc c ≠ n.proc (n.peer c) → (s.sreq c = .off ↔ s.send c = false ∨ s.clear c = true)
  r5 : ∀ c, n.proc c ≠ n.proc (n.peer c) →
    List.range (s.stage (n.proc c) + (if s.rreq c = .on then 0 else (s.start c).toNat)) ++ (s.net c ++
      (if s.sreq (n.peer c) = .on then [s.sbuf (n.peer c)] else [])) =
    List.range (s.stage (n.proc (n.peer c)) + (s.send (n.peer c)).toNat)

theorem range_cons {a b m : Nat} {l : List Nat} (h : List.range a ++ (m :: l) = List.range b) :
    m = a := by
  have h1 : (List.range a ++ (m :: l))[a]? = some m := by
    rw [List.getElem?_append_right (by simp)]; simp
  rw [h] at h1
  have h2 : a < b := by
    have := congrArg List.length h
    simp at this; omega
  rw [List.getElem?_range h2] at h1
  simpa using h1.symm

theorem Inv.initial {s : St Ch R} (h : Initial s) : Inv n s := by
  constructor <;> simp [h.stage, h.tasks, h.start, h.send, h.seen, h.set, h.clear, h.flag, h.sflag,
    h.sreq, h.rreq, h.net, h.out, h.err]

theorem Inv.startOne {s : St Ch R} (I : Inv n s) (c : Ch) (h1 : s.tasks (n.proc c) = false)
    (h2 : s.start c = false) : Inv n (startOne n c s) := by
  obtain ⟨err, p1, p2, p3, p4, p5, sf, out, rb, l1, l2, l3, l4, r1, r2, r3, r4, r5⟩ := I
  unfold Exchange.startOne
  split_ifs with a b
  · constructor <;> simp only [Function.update_apply] <;> first | assumption | grind | skip
  · exfalso; grind
  · constructor <;> simp only [Function.update_apply] <;> first | assumption | grind | skip

theorem Inv.tasksOn {s : St Ch R} (I : Inv n s) (r : R) (h : ∀ c, n.proc c = r → s.start c = true)
    (h' : s.tasks r = false) : Inv n { s with tasks := Function.update s.tasks r true } := by
  obtain ⟨err, p1, p2, p3, p4, p5, sf, out, rb, l1, l2, l3, l4, r1, r2, r3, r4, r5⟩ := I
  constructor <;> simp only [Function.update_apply] <;> first | assumption | grind | skip

theorem Inv.sendOne {s : St Ch R} (I : Inv n s) (hn : ∀ c, n.peer (n.peer c) = c) (c : Ch)
    (h1 : s.tasks (n.proc c) = true) (h2 : s.send c = false) : Inv n (sendOne n c s) := by
  obtain ⟨err, p1, p2, p3, p4, p5, sf, out, rb, l1, l2, l3, l4, r1, r2, r3, r4, r5⟩ := I
  have hs : s.sflag c ≠ .completed := by grind
  simp only [Exchange.sendOne, if_neg hs]
  split_ifs with a b
  · constructor <;> simp only [Function.update_apply] <;> first | assumption | grind | skip
  · constructor <;> simp only [Function.update_apply] <;> first | assumption | grind | skip
    intro d hd
    have h3 := r5 d hd
    by_cases e : n.peer d = c
    · rw [e, b, h2] at h3
      simp only [e, if_true, Bool.toNat_true, List.range_succ]
      simp only [reduceCtorEq, if_false, List.append_nil, Bool.toNat_false, Nat.add_zero] at h3
      rw [← List.append_assoc, h3]
    · simpa [e] using h3
  · exfalso; grind

theorem Inv.testOne {s : St Ch R} (I : Inv n s) (c : Ch)
    (h1 : s.tasks (n.proc c) = true) (h2 : s.seen c = false) : Inv n (testOne n c s) := by
  obtain ⟨err, p1, p2, p3, p4, p5, sf, out, rb, l1, l2, l3, l4, r1, r2, r3, r4, r5⟩ := I
  unfold Exchange.testOne
  split_ifs with a b d e
  · constructor <;> simp only [Function.update_apply] <;> first | assumption | grind | skip
  · constructor <;> assumption
  · constructor <;> assumption
  · have hf : s.rreq c = .full := by
      have h3 := (r2 c d).1
      cases h : s.rreq c
      · grind
      · exact absurd h e
      · rfl
    constructor <;> simp only [Function.update_apply] <;> first | assumption | grind | skip
  · constructor <;> simp only [Function.update_apply] <;> first | assumption | grind | skip

theorem Inv.setOne {s : St Ch R} (I : Inv n s) (c : Ch)
    (h1 : ∀ c', n.own c' = n.own c → s.seen c' = true) (h2 : s.set c = false) :
    Inv n (setOne c s) := by
  obtain ⟨err, p1, p2, p3, p4, p5, sf, out, rb, l1, l2, l3, l4, r1, r2, r3, r4, r5⟩ := I
  unfold Exchange.setOne
  constructor <;> simp only [Function.update_apply] <;> first | assumption | grind | skip
  intro d
  by_cases e : d = c
  · subst e
    simp only [if_true, out d, h2, Bool.toNat_true, Bool.toNat_false, Nat.add_zero,
      List.range_succ, rb d (h1 d rfl)]
  · simpa [e] using out d

theorem Inv.clearOne {s : St Ch R} (I : Inv n s) (c : Ch)
    (h1 : ∀ c', n.own c' = n.own c → s.send c' = true ∧ s.set c' = true)
    (h2 : s.clear c = false) (h3 : s.sreq c ≠ .on) : Inv n (clearOne c s) := by
  obtain ⟨err, p1, p2, p3, p4, p5, sf, out, rb, l1, l2, l3, l4, r1, r2, r3, r4, r5⟩ := I
  unfold Exchange.clearOne
  constructor <;> simp only [Function.update_apply] <;> first | assumption | grind | skip

theorem Inv.transfer {s : St Ch R} (I : Inv n s) (hn : ∀ c, n.peer (n.peer c) = c) (c : Ch)
    (h : s.sreq c = .on) : Inv n (transfer n c s) := by
  obtain ⟨err, p1, p2, p3, p4, p5, sf, out, rb, l1, l2, l3, l4, r1, r2, r3, r4, r5⟩ := I
  unfold Exchange.transfer
  constructor <;> simp only [Function.update_apply] <;> first | assumption | grind | skip

theorem Inv.deliver {s : St Ch R} (I : Inv n s) (c : Ch) {m : Nat} {rest : List Nat}
    (h : s.rreq c = .on) (h' : s.net c = m :: rest) : Inv n (deliver c m rest s) := by
  obtain ⟨err, p1, p2, p3, p4, p5, sf, out, rb, l1, l2, l3, l4, r1, r2, r3, r4, r5⟩ := I
  have hr : n.proc c ≠ n.proc (n.peer c) := by grind
  have h1 := r5 c hr
  have hst : s.start c = true := by grind
  rw [h, h'] at h1
  simp only [if_true, Nat.add_zero, List.cons_append] at h1
  have hm := range_cons h1
  subst hm
  unfold Exchange.deliver
  constructor <;> simp only [Function.update_apply] <;> first | assumption | grind | skip
  intro d hd
  by_cases e : d = c
  · subst e
    simp only [if_true, reduceCtorEq, if_false, hst, Bool.toNat_true, List.range_succ]
    rw [List.append_assoc]
    simpa using h1
  · simpa [e] using r5 d hd

theorem Inv.nextStage {s : St Ch R} (I : Inv n s) (r : R) (h : ∀ c, n.proc c = r → s.clear c = true)
    (h' : s.tasks r = true) : Inv n (nextStage n r s) := by
  obtain ⟨err, p1, p2, p3, p4, p5, sf, out, rb, l1, l2, l3, l4, r1, r2, r3, r4, r5⟩ := I
  have hp : ∀ c c', n.own c' = n.own c → n.proc c' = n.proc c := by
    intro c c' h; unfold Net.proc; rw [h]
  unfold Exchange.nextStage
  constructor <;> simp only [Function.update_apply] <;> first | assumption | grind | skip
  · intro d
    by_cases e : n.proc d = r
    · have h1 := out d
      have h2 := (p5 d (h d e) d rfl).2
      simp only [e, if_true, Bool.toNat_false, Nat.add_zero] at h1 ⊢
      rw [h1, h2]; rfl
    · simpa [e] using out d
  · intro d hd
    have h1 := r5 d hd
    by_cases e : n.proc d = r
    · have e' : n.proc (n.peer d) ≠ r := by rw [← e]; exact hd.symm
      have h2 : s.seen d = true := p4 d (p5 d (h d e) d rfl).2 d rfl
      have h3 : s.start d = true := p1 d (p3 d h2)
      have h4 : s.rreq d = .off := (r2 d hd).2 (Or.inr h2)
      rw [h3, h4, e] at h1
      simpa [e, e', h4] using h1
    · by_cases e' : n.proc (n.peer d) = r
      · have h2 := (p5 _ (h _ e') _ rfl).1
        rw [h2, e'] at h1
        simpa [e, e'] using h1
      · simpa [e, e'] using h1

theorem Inv.step {s s' : St Ch R} (hn : ∀ c, n.peer (n.peer c) = c) (I : Inv n s)
    (h : Step n s s') : Inv n s' := by
  cases h with
  | start c h1 h2 => exact I.startOne c h1 h2
  | tasks r h h' => exact I.tasksOn r h h'
  | send c h1 h2 => exact I.sendOne hn c h1 h2
  | test c h1 h2 => exact I.testOne c h1 h2
  | set c h1 h2 => exact I.setOne c h1 h2
  | clear c h1 h2 h3 => exact I.clearOne c h1 h2 h3
  | next r h h' => exact I.nextStage r h h'
  | transfer c h => exact I.transfer hn c h
  | deliver c h h' => exact I.deliver c h h'

theorem Reach.inv {s : St Ch R} (hn : ∀ c, n.peer (n.peer c) = c) (h : Reach n s) : Inv n s := by
  induction h with
  | init h => exact Inv.initial h
  | step _ h' ih => exact ih.step hn h'

/-- In every state of the invariant some step changes the state. -/
theorem inv_progress {s : St Ch R} (hn : ∀ c, n.peer (n.peer c) = c) (I : Inv n s) [Nonempty R] :
    ∃ s', Step n s s' ∧ s' ≠ s := by
  obtain ⟨r, hr⟩ : ∃ r, ∀ r', s.stage r ≤ s.stage r' := by
    obtain ⟨r, hr⟩ := (wellFounded_lt (α := Nat)).has_min (Set.range s.stage) (Set.range_nonempty _)
    obtain ⟨⟨r, rfl⟩, h2⟩ := And.intro hr.1 hr.2
    exact ⟨r, fun r' => Nat.le_of_not_lt (h2 _ ⟨r', rfl⟩)⟩
  by_contra hno
  have no : ∀ s', Step n s s' → s' = s := fun s' h => by
    by_contra h'; exact hno ⟨s', h, h'⟩
  have a1 : ∀ r', s.tasks r' = true := by
    intro r'
    by_contra h
    have h : s.tasks r' = false := by simpa using h
    by_cases h1 : ∀ c, n.proc c = r' → s.start c = true
    · have := congrArg (fun t : St Ch R => t.tasks r') (no _ (Step.tasks r' h1 h))
      simp [h] at this
    · push Not at h1
      obtain ⟨c, h2, h3⟩ := h1
      have h3 : s.start c = false := by simpa using h3
      have h4 := no _ (Step.start c (by rw [h2]; exact h) h3)
      have h5 := I.startOne c (by rw [h2]; exact h) h3
      have h6 : (startOne n c s).start c = true := by
        have := I.r2 c
        unfold startOne
        split_ifs with a b
        · simp
        · exact absurd ((this a).2 (Or.inl h3)) b
        · simp
      rw [h4, h3] at h6; cases h6
  have a2 : ∀ c, s.send c = true := by
    intro c
    by_contra h
    have h : s.send c = false := by simpa using h
    have h4 := no _ (Step.send c (a1 _) h)
    have h6 : (sendOne n c s).send c = true := by
      unfold sendOne; dsimp only; split_ifs <;> simp
    rw [h4, h] at h6; cases h6
  have a3 : ∀ c, s.sreq c ≠ .on := by
    intro c h
    have := congrArg (fun t : St Ch R => t.sreq c) (no _ (Step.transfer c h))
    simp [transfer, h] at this
  have a4 : ∀ c, n.proc c = r → s.seen c = true := by
    intro c hc
    by_contra h
    have h : s.seen c = false := by simpa using h
    have h4 := no _ (Step.test c (a1 _) h)
    have b1 : s.set c = false := by
      by_contra h'
      have := I.p4 c (by simpa using h') c rfl
      rw [h] at this; cases this
    have b2 : s.clear c = false := by
      by_contra h'
      have := (I.p5 c (by simpa using h') c rfl).2
      rw [b1] at this; cases this
    have h6 : (testOne n c s).seen c = true := by
      unfold testOne
      by_cases hl : n.proc c = n.proc (n.peer c)
      · have : s.flag c = .arrived := by rw [I.l1 c hl, b1, b2, a2]; rfl
        rw [if_pos this]; simp
      · have h7 : s.rreq c ≠ .on := by
          intro h7
          have h8 := I.r5 c hl
          rw [h7, if_neg (a3 _), a2] at h8
          cases h9 : s.net c with
          | nil =>
            rw [h9] at h8
            have h10 := congrArg List.length h8
            have := hr (n.proc (n.peer c))
            rw [hc] at h10
            simp at h10
            omega
          | cons m rest =>
            have := congrArg (fun t : St Ch R => t.rreq c) (no _ (Step.deliver c h7 h9))
            simp [deliver, h7] at this
        have h11 : s.flag c = .waiting := by rw [I.r1 c hl, b1, b2, h]; rfl
        simp [h11, hl, h7]
    rw [h4, h] at h6; cases h6
  have ho : ∀ c c', n.own c' = n.own c → n.proc c' = n.proc c := by
    intro c c' h; unfold Net.proc; rw [h]
  have a5 : ∀ c, n.proc c = r → s.set c = true := by
    intro c hc
    by_contra h
    have h : s.set c = false := by simpa using h
    have := congrArg (fun t : St Ch R => t.set c)
      (no _ (Step.set c (fun c' h' => a4 c' ((ho _ _ h').trans hc)) h))
    simp [setOne, h] at this
  have a6 : ∀ c, n.proc c = r → s.clear c = true := by
    intro c hc
    by_contra h
    have h : s.clear c = false := by simpa using h
    have := congrArg (fun t : St Ch R => t.clear c)
      (no _ (Step.clear c (fun c' h' => ⟨a2 _, a5 c' ((ho _ _ h').trans hc)⟩) h (a3 _)))
    simp [clearOne, h] at this
  have := congrArg (fun t : St Ch R => t.stage r) (no _ (Step.next r a6 (a1 r)))
  simp [nextStage] at this

/-- Loop bodies and network events of a channel so far. -/
def St.events (n : Net B Ch R) (s : St Ch R) (c : Ch) : Nat :=
  7 * s.stage (n.proc c) + (s.start c).toNat + (s.send c).toNat + (s.seen c).toNat +
    (s.set c).toNat + (s.clear c).toNat + (if s.send c ∧ s.sreq c ≠ .on then 1 else 0) +
    (if s.start c ∧ s.rreq c ≠ .on then 1 else 0)

/-- Barriers passed by a process. -/
def St.barriers (s : St Ch R) (r : R) : Nat := 2 * s.stage r + (s.tasks r).toNat

theorem inv_events {s s' : St Ch R} (I : Inv n s) (h : Step n s s') (hne : s' ≠ s) :
    (∀ c, s.events n c ≤ s'.events n c) ∧ (∀ r, s.barriers r ≤ s'.barriers r) ∧
      ((∃ c, s.events n c < s'.events n c) ∨ ∃ r, s.barriers r < s'.barriers r) := by
  obtain ⟨err, p1, p2, p3, p4, p5, sf, out, rb, l1, l2, l3, l4, r1, r2, r3, r4, r5⟩ := I
  clear out r5
  cases h with
  | start c h1 h2 =>
    unfold startOne at *
    split_ifs at * with a b
    · refine ⟨fun d => ?_, fun r => le_rfl, Or.inl ⟨c, ?_⟩⟩ <;>
      simp only [St.events, Function.update_apply] <;> grind
    · exfalso; grind
    · refine ⟨fun d => ?_, fun r => le_rfl, Or.inl ⟨c, ?_⟩⟩ <;>
      simp only [St.events, Function.update_apply] <;> grind
  | tasks r h h' =>
    refine ⟨fun d => le_rfl, fun r => ?_, Or.inr ⟨r, ?_⟩⟩ <;>
      simp only [St.barriers, Function.update_apply] <;> grind
  | send c h1 h2 =>
    have hs : s.sflag c ≠ .completed := by grind
    simp only [sendOne, if_neg hs] at *
    split_ifs at * with a b
    · refine ⟨fun d => ?_, fun r => le_rfl, Or.inl ⟨c, ?_⟩⟩ <;>
      simp only [St.events, Function.update_apply] <;> grind
    · refine ⟨fun d => ?_, fun r => le_rfl, Or.inl ⟨c, ?_⟩⟩ <;>
      simp only [St.events, Function.update_apply] <;> grind
    · exfalso; grind
  | test c h1 h2 =>
    unfold testOne at *
    split_ifs at * with a b d e
    · refine ⟨fun d => ?_, fun r => le_rfl, Or.inl ⟨c, ?_⟩⟩ <;>
      simp only [St.events, Function.update_apply] <;> grind
    · exact absurd rfl hne
    · exact absurd rfl hne
    · refine ⟨fun d => ?_, fun r => le_rfl, Or.inl ⟨c, ?_⟩⟩ <;>
      simp only [St.events, Function.update_apply] <;> grind
    · refine ⟨fun d => ?_, fun r => le_rfl, Or.inl ⟨c, ?_⟩⟩ <;>
      simp only [St.events, Function.update_apply] <;> grind
  | set c h1 h2 =>
    refine ⟨fun d => ?_, fun r => le_rfl, Or.inl ⟨c, ?_⟩⟩ <;>
      simp only [setOne, St.events, Function.update_apply] <;> grind
  | clear c h1 h2 h3 =>
    refine ⟨fun d => ?_, fun r => le_rfl, Or.inl ⟨c, ?_⟩⟩ <;>
      simp only [clearOne, St.events, Function.update_apply] <;> grind
  | next r h h' =>
    refine ⟨fun d => ?_, fun r => ?_, Or.inr ⟨r, ?_⟩⟩ <;>
      simp only [nextStage, St.events, St.barriers, Function.update_apply]
    · by_cases e : n.proc d = r
      · simp only [e, if_true]
        have := (s.start d).toNat_le
        have := (s.send d).toNat_le
        have := (s.seen d).toNat_le
        have := (s.set d).toNat_le
        have := (s.clear d).toNat_le
        have : (if s.send d ∧ s.sreq d ≠ .on then 1 else 0) ≤ 1 := by split_ifs <;> omega
        have : (if s.start d ∧ s.rreq d ≠ .on then 1 else 0) ≤ 1 := by split_ifs <;> omega
        omega
      · simp only [e, if_false]; exact le_rfl
    · grind
    · grind
  | transfer c h =>
    refine ⟨fun d => ?_, fun r => le_rfl, Or.inl ⟨c, ?_⟩⟩ <;>
      simp only [transfer, St.events, Function.update_apply] <;> grind
  | deliver c h h' =>
    refine ⟨fun d => ?_, fun r => le_rfl, Or.inl ⟨c, ?_⟩⟩ <;>
      simp only [deliver, St.events, Function.update_apply] <;> grind

end Verif.Exchange
