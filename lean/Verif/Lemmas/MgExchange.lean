import Verif.Spec.MgExchange
import Mathlib.Tactic.Push
import Mathlib.Tactic.ByContra
import Mathlib.Tactic.Common
import Mathlib.Tactic.Convert

/-! Helpers for the exchange of the multigrid solver: the state as seen from one channel. -/
namespace Verif.MgExchange
open Verif.Exchange (Status Req)
open Function (update)

/-- What concerns one channel. -/
structure View where
  P : Nat
  Q : Nat
  bs : Bool
  bd : Bool
  rd : Bool
  snd : Bool
  rcv : Bool
  clrS : Bool
  clrR : Bool
  flag : Nat → Status
  sflag : Nat → Status
  sreq : Nat → Req
  rreq : Nat → Req
  sbuf : Nat → Nat
  rbuf : Nat → Nat
  net : List Nat
  out : List (Nat × Nat)

def view {B Ch R : Type} (n : Net B Ch R) (s : St B Ch) (c : Ch) : View where
  P := s.ph (n.src c)
  Q := s.ph (n.dst c)
  bs := s.busy (n.src c)
  bd := s.busy (n.dst c)
  rd := s.rdone (n.dst c)
  snd := s.snd c
  rcv := s.rcv c
  clrS := s.clrS c
  clrR := s.clrR c
  flag := s.flag c
  sflag := s.sflag c
  sreq := s.sreq c
  rreq := s.rreq c
  sbuf := s.sbuf c
  rbuf := s.rbuf c
  net := s.net c
  out := s.out c

/-- Phases up to which (exclusive) messages have been sent. -/
def View.sentN (v : View) : Nat := if v.bs = true ∧ v.snd = false then v.P else v.P + 1
/-- Phases up to which (exclusive) messages have been unpacked. -/
def View.rcvN (v : View) : Nat := if v.bd = true ∧ v.rcv = false then v.Q else v.Q + 1

/-- The phases from `a` up to `b` (exclusive) in which the channel carries a message. -/
def usedList (u : Nat → Bool) (a b : Nat) : List Nat :=
  (List.range b).filter (fun p => decide (a ≤ p) && u p)

theorem usedList_succ (u : Nat → Bool) (a b : Nat) :
    usedList u a (b + 1) = usedList u a b ++ (if a ≤ b ∧ u b = true then [b] else []) := by
  unfold usedList
  rw [List.range_succ, List.filter_append]
  congr 1
  by_cases h : a ≤ b <;> cases hu : u b <;> simp [h, hu]

theorem usedList_skip {u : Nat → Bool} {a b : Nat} (h : u a = false) :
    usedList u (a + 1) b = usedList u a b := by
  unfold usedList
  apply List.filter_congr
  intro p _
  by_cases hp : p = a
  · subst hp; simp [h]
  · congr 1
    simp only [decide_eq_decide]
    omega

theorem usedList_head {u : Nat → Bool} {a b : Nat} (h : u a = true) (hab : a < b) :
    usedList u a b = a :: usedList u (a + 1) b := by
  induction b with
  | zero => omega
  | succ b ih =>
    rw [usedList_succ, usedList_succ]
    by_cases hb : a < b
    · rw [ih hb, List.cons_append]
      congr 2
      simp only [show a ≤ b by omega, show a + 1 ≤ b by omega]
    · obtain rfl : a = b := by omega
      have e1 : usedList u a a = [] := by
        unfold usedList; rw [List.filter_eq_nil_iff]; intro p hp; simp at hp ⊢; intro; omega
      have e2 : usedList u (a + 1) a = [] := by
        unfold usedList; rw [List.filter_eq_nil_iff]; intro p hp; simp at hp ⊢; intro; omega
      simp [e1, e2, h]

theorem usedList_nil {u : Nat → Bool} {a b : Nat} (h : b ≤ a) : usedList u a b = [] := by
  unfold usedList; rw [List.filter_eq_nil_iff]; intro p hp; simp at hp ⊢; intro; omega

theorem mem_usedList {u : Nat → Bool} {a b p : Nat} :
    p ∈ usedList u a b ↔ a ≤ p ∧ p < b ∧ u p = true := by
  unfold usedList; simp; tauto

/-- Invariant of a channel; `u p` tells whether it is used in phase `p`, `here` whether sender and
receiver are on the same process. -/
structure CI (u : Nat → Bool) (here : Bool) (v : View) : Prop where
  bs1 : v.bs = true → 1 ≤ v.P
  bd1 : v.bd = true → 1 ≤ v.Q
  rdr : v.bd = true → v.rd = true → v.rcv = true
  clrRr : v.bd = true → v.clrR = true → v.rcv = true ∧ v.rd = true
  clrSs : v.bs = true → v.clrS = true → v.snd = true
  le : ∀ p, u p = true → p < v.rcvN → p < v.sentN
  win : here = true → ∀ p, u p = true → p < v.sentN → p ≤ v.Q + 2
  out : v.out = (usedList u 1 v.rcvN).map (fun p => (p, p))
  fl : v.bd = true → u v.Q = true → v.rcv = true → v.clrR = false → v.flag (v.Q % 3) = .completed
  fl1 : here = true → ∀ p, u p = true → v.rcvN ≤ p → p < v.sentN →
    v.flag (p % 3) = .arrived ∧ v.rbuf (p % 3) = p
  fl2 : here = true → ∀ k, v.flag k ≠ .waiting →
    (∃ p, p % 3 = k ∧ u p = true ∧ v.rcvN ≤ p ∧ p < v.sentN) ∨
    (k = v.Q % 3 ∧ v.bd = true ∧ u v.Q = true ∧ v.rcv = true ∧ v.clrR = false)
  fl3 : here = false → ∀ k, v.flag k ≠ .waiting →
    k = v.Q % 3 ∧ v.bd = true ∧ u v.Q = true ∧ v.rcv = true ∧ v.clrR = false
  sf : ∀ k, v.sflag k ≠ .waiting → k = v.P % 3 ∧ v.bs = true ∧ v.snd = true ∧ v.clrS = false
  rq : ∀ k, v.rreq k ≠ .off → here = false ∧ k = v.Q % 3 ∧ v.bd = true ∧ u v.Q = true ∧ v.rcv = false
  rq1 : here = false → v.bd = true → u v.Q = true → v.rcv = false → v.rreq (v.Q % 3) ≠ .off
  sq : ∀ k, v.sreq k ≠ .off → here = false ∧ k = v.P % 3 ∧ v.bs = true ∧ u v.P = true ∧
    v.snd = true ∧ v.clrS = false
  sq1 : v.sreq (v.P % 3) = .on → v.sbuf (v.P % 3) = v.P
  fly : here = false →
    (if v.rreq (v.Q % 3) = .full then [v.rbuf (v.Q % 3)] else []) ++ v.net ++
      (if v.sreq (v.P % 3) = .on then [v.P] else []) = usedList u v.rcvN v.sentN

variable {u : Nat → Bool} {here : Bool} {v : View}

theorem CI.startS (h : CI u here v) (hb : v.bs = false) :
    CI u here { v with P := v.P + 1, bs := true, snd := false, clrS := false } := by
  have hs : View.sentN { v with P := v.P + 1, bs := true, snd := false, clrS := false } = v.sentN := by
    simp [View.sentN, hb]
  have hr : View.rcvN { v with P := v.P + 1, bs := true, snd := false, clrS := false } = v.rcvN := rfl
  have hsq : ∀ k, v.sreq k = .off := by
    intro k; by_contra hk; have := (h.sq k hk).2.2.1; simp [hb] at this
  have hsf : ∀ k, v.sflag k = .waiting := by
    intro k; by_contra hk; have := (h.sf k hk).2.1; simp [hb] at this
  have hfly := h.fly
  simp only [hsq] at hfly
  refine { h with
    bs1 := ?_, clrSs := ?_, le := ?_, win := ?_, out := ?_, fl1 := ?_, fl2 := ?_, sf := ?_, sq := ?_,
    sq1 := ?_, fly := ?_ }
  all_goals (try simp only [hs, hr])
  · intro _; simp
  · intro _ h2; simp at h2
  · exact h.le
  · exact h.win
  · exact h.out
  · exact h.fl1
  · exact h.fl2
  · intro k hk; exact absurd (hsf k) hk
  · intro k hk; exact absurd (hsq k) hk
  · intro h1; simp [hsq] at h1
  · intro h1; simpa [hsq] using hfly h1

theorem CI.startD (h : CI u here v) (hb : v.bd = false) :
    CI u here { v with
      Q := v.Q + 1, bd := true, rd := false, rcv := false, clrR := false,
      rreq := (if here = false ∧ u (v.Q + 1) = true then update v.rreq ((v.Q + 1) % 3) Req.on
        else v.rreq) } := by
  have hr : ∀ q, View.rcvN { v with
      Q := v.Q + 1, bd := true, rd := false, rcv := false, clrR := false,
      rreq := q } = v.rcvN := by
    intro q; simp [View.rcvN, hb]
  have hs : ∀ q, View.sentN { v with
      Q := v.Q + 1, bd := true, rd := false, rcv := false, clrR := false,
      rreq := q } = v.sentN := fun _ => rfl
  have hrq : ∀ k, v.rreq k = .off := by
    intro k; by_contra hk; have := (h.rq k hk).2.2.1; simp [hb] at this
  have hf2 : here = true → ∀ k, v.flag k ≠ .waiting →
      (∃ p, p % 3 = k ∧ u p = true ∧ v.rcvN ≤ p ∧ p < v.sentN) := by
    intro h1 k hk
    rcases h.fl2 h1 k hk with h2 | h2
    · exact h2
    · simp [hb] at h2
  have hf3 : here = false → ∀ k, v.flag k = .waiting := by
    intro h1 k
    by_contra hk
    have := (h.fl3 h1 k hk).2.1
    simp [hb] at this
  have hfly := h.fly
  simp only [hrq] at hfly
  refine { h with
    bd1 := ?_, rdr := ?_, clrRr := ?_, le := ?_, win := ?_, out := ?_, fl := ?_, fl1 := ?_, fl2 := ?_,
    fl3 := ?_, rq := ?_, rq1 := ?_, fly := ?_ }
  all_goals (try simp only [hs, hr])
  all_goals (try simp)
  · exact h.le
  · intro h1 p hp hlt; have := h.win h1 p hp hlt; omega
  · exact h.out
  · exact h.fl1
  · exact hf2
  · exact hf3
  · intro k hk
    split at hk
    · rename_i h1
      by_cases hk2 : k = (v.Q + 1) % 3
      · exact ⟨h1.1, hk2, h1.2⟩
      · rw [Function.update_of_ne hk2] at hk; exact absurd (hrq k) hk
    · exact absurd (hrq k) hk
  · intro h1 h2
    rw [if_pos ⟨h1, h2⟩]
    simp
  · intro h1
    rw [← hfly h1]
    by_cases h2 : u (v.Q + 1) = true
    · simp [h1, h2]
    · simp [h1, h2, hrq]

theorem CI.send (h : CI u here v) (hb : v.bs = true) (hn : v.snd = false)
    (hw : here = true → u v.P = true → v.P ≤ v.Q + 2) :
    v.sflag (v.P % 3) = .waiting ∧ (here = false → v.sreq (v.P % 3) = .off) ∧
    (u v.P = false → CI u here { v with snd := true }) ∧
    (u v.P = true → here = true → CI u here { v with
      snd := true, sbuf := update v.sbuf (v.P % 3) v.P, rbuf := update v.rbuf (v.P % 3) v.P,
      flag := update v.flag (v.P % 3) .arrived, sflag := update v.sflag (v.P % 3) .completed }) ∧
    (u v.P = true → here = false → CI u here { v with
      snd := true, sbuf := update v.sbuf (v.P % 3) v.P, sreq := update v.sreq (v.P % 3) .on,
      sflag := update v.sflag (v.P % 3) .completed }) := by
  have hsq : ∀ k, v.sreq k = .off := by
    intro k; by_contra hk; have := (h.sq k hk).2.2.2.2.1; simp [hn] at this
  have hsf : ∀ k, v.sflag k = .waiting := by
    intro k; by_contra hk; have := (h.sf k hk).2.2.1; simp [hn] at this
  have hs0 : v.sentN = v.P := by simp [View.sentN, hb, hn]
  have hcl : v.clrS = false := by
    by_contra hc
    have := h.clrSs hb (by simpa using hc)
    simp [hn] at this
  have hle := h.le
  have hwin := h.win
  have hfly := h.fly
  have hfl1 := h.fl1
  have hfl2 := h.fl2
  simp only [hs0] at hle hwin hfly hfl1 hfl2
  refine ⟨hsf _, fun _ => hsq _, ?_, ?_, ?_⟩
  · intro hu
    have hs : View.sentN { v with snd := true } = v.P + 1 := by simp [View.sentN]
    have hr : View.rcvN { v with snd := true } = v.rcvN := rfl
    have key : ∀ p, u p = true → p < v.P + 1 → p < v.P := by
      intro p hp hlt
      rcases Nat.lt_succ_iff_lt_or_eq.1 hlt with h1 | rfl
      · exact h1
      · simp [hu] at hp
    refine { h with
      clrSs := ?_, le := ?_, win := ?_, out := ?_, fl1 := ?_, fl2 := ?_, sf := ?_, sq := ?_, fly := ?_ }
    all_goals (try simp only [hs, hr])
    · intro _ _; trivial
    · intro p hp h1; have := hle p hp h1; omega
    · intro h1 p hp hlt; exact hwin h1 p hp (key p hp hlt)
    · exact h.out
    · intro h1 p hp h2 h3; exact hfl1 h1 p hp h2 (key p hp h3)
    · intro h1 k hk
      rcases hfl2 h1 k hk with ⟨p, h2, h3, h4, h5⟩ | h2
      · exact .inl ⟨p, h2, h3, h4, by omega⟩
      · exact .inr h2
    · intro k hk; exact absurd (hsf k) hk
    · intro k hk; exact absurd (hsq k) hk
    · intro h1
      have e : (if v.rcvN ≤ v.P ∧ u v.P = true then [v.P] else []) = [] := by
        rw [if_neg]; rw [hu]; simp
      rw [usedList_succ, e, List.append_nil]
      exact hfly h1
  · intro hu hh
    have hs : ∀ a b c d, View.sentN { v with snd := true, sbuf := a, rbuf := b, flag := c, sflag := d } =
        v.P + 1 := by intros; simp [View.sentN]
    have hr : ∀ a b c d, View.rcvN { v with snd := true, sbuf := a, rbuf := b, flag := c, sflag := d } =
        v.rcvN := fun _ _ _ _ => rfl
    have hPr : v.rcvN ≤ v.P := by
      by_contra hc; have := hle v.P hu (by omega); omega
    have hQr : v.rcvN = v.Q ∨ v.rcvN = v.Q + 1 := by unfold View.rcvN; split <;> simp
    have hw' := hw hh hu
    refine { h with
      clrSs := ?_, le := ?_, win := ?_, out := ?_, fl := ?_, fl1 := ?_, fl2 := ?_, fl3 := ?_, sf := ?_,
      sq := ?_, sq1 := ?_, fly := ?_ }
    all_goals (try simp only [hs, hr])
    · intro _ _; trivial
    · intro p hp h1; have := hle p hp h1; omega
    · intro h1 p hp hlt
      rcases Nat.lt_succ_iff_lt_or_eq.1 hlt with h2 | rfl
      · exact hwin h1 p hp h2
      · exact hw hh hu
    · exact h.out
    · intro h1 h2 h3 h4
      have : v.Q % 3 ≠ v.P % 3 := by
        have : v.rcvN = v.Q + 1 := by simp [View.rcvN, h3]
        omega
      rw [Function.update_of_ne this]
      exact h.fl h1 h2 h3 h4
    · intro h1 p hp h2 h3
      by_cases hpk : p % 3 = v.P % 3
      · have : p = v.P := by
          rcases Nat.lt_succ_iff_lt_or_eq.1 h3 with h4 | h4
          · have := hwin h1 p hp h4
            omega
          · exact h4
        subst this
        simp
      · rw [Function.update_of_ne hpk, Function.update_of_ne hpk]
        have : p ≠ v.P := fun h => hpk (by rw [h])
        exact hfl1 h1 p hp h2 (by omega)
    · intro h1 k hk
      by_cases hkP : k = v.P % 3
      · exact .inl ⟨v.P, hkP.symm, hu, hPr, by omega⟩
      · rw [Function.update_of_ne hkP] at hk
        rcases hfl2 h1 k hk with ⟨p, h2, h3, h4, h5⟩ | h2
        · exact .inl ⟨p, h2, h3, h4, by omega⟩
        · exact .inr h2
    · intro h1; simp [hh] at h1
    · intro k hk
      by_cases hkP : k = v.P % 3
      · exact ⟨hkP, hb, trivial, hcl⟩
      · rw [Function.update_of_ne hkP] at hk; exact absurd (hsf k) hk
    · intro k hk; exact absurd (hsq k) hk
    · intro h1; simp [hsq] at h1
    · intro h1; simp [hh] at h1
  · intro hu hh
    have hs : ∀ a b c, View.sentN { v with snd := true, sbuf := a, sreq := b, sflag := c } =
        v.P + 1 := by intros; simp [View.sentN]
    have hr : ∀ a b c, View.rcvN { v with snd := true, sbuf := a, sreq := b, sflag := c } =
        v.rcvN := fun _ _ _ => rfl
    have hPr : v.rcvN ≤ v.P := by
      by_contra hc; have := hle v.P hu (by omega); omega
    refine { h with
      clrSs := ?_, le := ?_, win := ?_, out := ?_, fl1 := ?_, fl2 := ?_, sf := ?_, sq := ?_, sq1 := ?_,
      fly := ?_ }
    all_goals (try simp only [hs, hr])
    · intro _ _; trivial
    · intro p hp h1; have := hle p hp h1; omega
    · intro h1; simp [hh] at h1
    · exact h.out
    · intro h1; simp [hh] at h1
    · intro h1; simp [hh] at h1
    · intro k hk
      by_cases hkP : k = v.P % 3
      · exact ⟨hkP, hb, trivial, hcl⟩
      · rw [Function.update_of_ne hkP] at hk; exact absurd (hsf k) hk
    · intro k hk
      by_cases hkP : k = v.P % 3
      · exact ⟨hh, hkP, hb, hu, trivial, hcl⟩
      · rw [Function.update_of_ne hkP] at hk; exact absurd (hsq k) hk
    · intro _; simp
    · intro h1
      have e : (if v.rcvN ≤ v.P ∧ u v.P = true then [v.P] else []) = [v.P] := if_pos ⟨hPr, hu⟩
      rw [usedList_succ, e, ← hfly h1]
      simp [hsq]

theorem CI.rcvN_eq (hb : v.bd = true) (hr : v.rcv = false) : v.rcvN = v.Q := by
  simp [View.rcvN, hb, hr]

/-- The message about to be unpacked has been sent, and is the one of this phase. -/
theorem CI.recv_buf (h : CI u here v) (hb : v.bd = true) (hu : u v.Q = true)
    (hf : v.flag (v.Q % 3) ≠ .completed)
    (ha : v.flag (v.Q % 3) = .waiting → here = false ∧ v.rreq (v.Q % 3) ≠ .on) (hrd : v.rd = false) :
    v.rcv = false ∧ v.Q < v.sentN ∧ v.rbuf (v.Q % 3) = v.Q := by
  have hrc : v.rcv = false := by
    by_contra hc
    have hc : v.rcv = true := by simpa using hc
    refine hf (h.fl hb hu hc ?_)
    by_contra h2
    have := (h.clrRr hb (by simpa using h2)).2
    simp [hrd] at this
  have hN := CI.rcvN_eq hb hrc
  refine ⟨hrc, ?_⟩
  cases hh : here with
  | true =>
    have hw : v.flag (v.Q % 3) ≠ .waiting := fun hc => by
      have := (ha hc).1; simp [hh] at this
    rcases h.fl2 hh _ hw with ⟨p, h1, h2, h3, h4⟩ | h1
    · have := h.win hh p h2 h4
      have hp : p = v.Q := by omega
      subst hp
      exact ⟨h4, (h.fl1 hh _ h2 h3 h4).2⟩
    · simp [hrc] at h1
  | false =>
    have hw : v.flag (v.Q % 3) = .waiting := by
      by_contra hc
      have := (h.fl3 hh _ hc).2.2.2.1
      simp [hrc] at this
    have h1 := h.rq1 hh hb hu hrc
    have h2 := (ha hw).2
    have h3 : v.rreq (v.Q % 3) = .full := by
      cases h4 : v.rreq (v.Q % 3) <;> simp_all
    have hfly := h.fly hh
    rw [if_pos h3, hN] at hfly
    have hlt : v.Q < v.sentN := by
      by_contra hc
      rw [usedList_nil (by omega)] at hfly
      simp at hfly
    rw [usedList_head hu hlt] at hfly
    simp only [List.cons_append, List.cons.injEq, List.nil_append] at hfly
    exact ⟨hlt, hfly.1⟩

/-- Receiving when the message has not come. -/
theorem CI.recv_again (h : CI u here v) (hf : v.flag (v.Q % 3) = .completed) :
    v.rcv = true := by
  cases hh : here with
  | true =>
    rcases h.fl2 hh (v.Q % 3) (by simp [hf]) with ⟨p, h1, h2, h3, h4⟩ | h1
    · have := (h.fl1 hh p h2 h3 h4).1
      rw [h1, hf] at this
      simp at this
    · exact h1.2.2.2.1
  | false => exact (h.fl3 hh (v.Q % 3) (by simp [hf])).2.2.2.1

theorem CI.recv_unused (h : CI u here v) (hb : v.bd = true) (hu : u v.Q = false) :
    CI u here { v with rcv := true } := by
  have hr : View.rcvN { v with rcv := true } = v.Q + 1 := by simp [View.rcvN]
  have hs : View.sentN { v with rcv := true } = v.sentN := rfl
  by_cases hrc : v.rcv = true
  · have : ({ v with rcv := true } : View) = v := by rw [← hrc]
    rw [this]; exact h
  have hrc : v.rcv = false := by simpa using hrc
  have hN := CI.rcvN_eq hb hrc
  have hle := h.le
  have hout := h.out
  have hfl1 := h.fl1
  have hfl2 := h.fl2
  have hfly := h.fly
  rw [hN] at hle hout hfl1 hfl2 hfly
  have ne : ∀ p, u p = true → p ≠ v.Q := by rintro p hp rfl; simp [hu] at hp
  have hcl : v.clrR = false := by
    by_contra hc
    have := (h.clrRr hb (by simpa using hc)).1
    simp [hrc] at this
  refine { h with
    rdr := ?_, clrRr := ?_, le := ?_, win := ?_, out := ?_, fl := ?_, fl1 := ?_, fl2 := ?_, fl3 := ?_,
    rq := ?_, rq1 := ?_, fly := ?_ }
  all_goals (try simp only [hr, hs])
  · intro _ _; trivial
  · intro _ h1; simp [hcl] at h1
  · intro p hp h1
    exact hle p hp (by have := ne p hp; omega)
  · exact h.win
  · have e : (if 1 ≤ v.Q ∧ u v.Q = true then [v.Q] else []) = [] := by
      rw [if_neg]; rw [hu]; simp
    rw [usedList_succ, e, List.append_nil]
    exact hout
  · intro _ h1; simp [hu] at h1
  · intro h1 p hp h2 h3; exact hfl1 h1 p hp (by omega) h3
  · intro h1 k hk
    rcases hfl2 h1 k hk with ⟨p, h2, h3, h4, h5⟩ | h2
    · exact .inl ⟨p, h2, h3, by have := ne p h3; omega, h5⟩
    · simp [hu] at h2
  · intro h1 k hk; have := h.fl3 h1 k hk; simp [hu] at this
  · intro k hk; have := h.rq k hk; simp [hu] at this
  · intro _ _ h1; simp [hu] at h1
  · intro h1
    rw [usedList_skip hu]
    exact hfly h1

/-- Unpacking. -/
theorem CI.recv (h : CI u here v) (hb : v.bd = true) (hu : u v.Q = true)
    (hf : v.flag (v.Q % 3) ≠ .completed)
    (ha : v.flag (v.Q % 3) = .waiting → here = false ∧ v.rreq (v.Q % 3) ≠ .on) (hrd : v.rd = false)
    (rreq' : Nat → Req)
    (hrr : rreq' = v.rreq ∧ here = true ∨ rreq' = update v.rreq (v.Q % 3) .off ∧ here = false) :
    CI u here { v with
      rcv := true, out := v.out ++ [(v.Q, v.rbuf (v.Q % 3))],
      flag := update v.flag (v.Q % 3) .completed, rreq := rreq' } := by
  obtain ⟨hrc, hlt, hbuf⟩ := h.recv_buf hb hu hf ha hrd
  have hN := CI.rcvN_eq hb hrc
  have hr : ∀ a b c, View.rcvN { v with rcv := true, out := a, flag := b, rreq := c } = v.Q + 1 := by
    intros; simp [View.rcvN]
  have hs : ∀ a b c, View.sentN { v with rcv := true, out := a, flag := b, rreq := c } = v.sentN :=
    fun _ _ _ => rfl
  have hle := h.le
  have hout := h.out
  have hfl1 := h.fl1
  have hfl2 := h.fl2
  have hfly := h.fly
  rw [hN] at hle hout hfl1 hfl2 hfly
  have hcl : v.clrR = false := by
    by_contra hc
    have := (h.clrRr hb (by simpa using hc)).1
    simp [hrc] at this
  have hoff : ∀ k, rreq' k = .off := by
    intro k
    rcases hrr with ⟨rfl, hh⟩ | ⟨rfl, hh⟩
    · by_contra hk; have := (h.rq k hk).1; simp [hh] at this
    · by_cases hk : k = v.Q % 3
      · subst hk; simp
      · rw [Function.update_of_ne hk]
        by_contra hk2
        exact hk (h.rq k hk2).2.1
  refine { h with
    rdr := ?_, clrRr := ?_, le := ?_, win := ?_, out := ?_, fl := ?_, fl1 := ?_, fl2 := ?_, fl3 := ?_,
    rq := ?_, rq1 := ?_, fly := ?_ }
  all_goals (try simp only [hr, hs])
  · intro _ _; trivial
  · intro _ h1; simp [hcl] at h1
  · intro p hp h1
    rcases Nat.lt_succ_iff_lt_or_eq.1 h1 with h2 | rfl
    · exact hle p hp h2
    · exact hlt
  · exact h.win
  · have e : (if 1 ≤ v.Q ∧ u v.Q = true then [v.Q] else []) = [v.Q] := if_pos ⟨h.bd1 hb, hu⟩
    rw [usedList_succ, e, List.map_append, hout, hbuf]
    rfl
  · intro _ _ _ _; simp
  · intro h1 p hp h2 h3
    have := h.win h1 p hp h3
    rw [Function.update_of_ne (by omega)]
    exact hfl1 h1 p hp (by omega) h3
  · intro h1 k hk
    by_cases hkQ : k = v.Q % 3
    · exact .inr ⟨hkQ, hb, hu, trivial, hcl⟩
    · rw [Function.update_of_ne hkQ] at hk
      rcases hfl2 h1 k hk with ⟨p, h2, h3, h4, h5⟩ | h2
      · refine .inl ⟨p, h2, h3, ?_, h5⟩
        have : p ≠ v.Q := by rintro rfl; exact hkQ h2.symm
        omega
      · exact absurd h2.1 hkQ
  · intro h1 k hk
    by_cases hkQ : k = v.Q % 3
    · exact ⟨hkQ, hb, hu, trivial, hcl⟩
    · rw [Function.update_of_ne hkQ] at hk
      exact absurd (h.fl3 h1 k hk).1 hkQ
  · intro k hk; exact absurd (hoff k) hk
  · intro _ _ _ h1; simp at h1
  · intro h1
    have h3 : v.rreq (v.Q % 3) = .full := by
      have hw : v.flag (v.Q % 3) = .waiting := by
        by_contra hc
        have := (h.fl3 h1 _ hc).2.2.2.1
        simp [hrc] at this
      have h4 := h.rq1 h1 hb hu hrc
      have h5 := (ha hw).2
      cases h6 : v.rreq (v.Q % 3) <;> simp_all
    have hfly := hfly h1
    rw [if_pos h3, usedList_head hu hlt] at hfly
    simp only [List.cons_append, List.cons.injEq, List.nil_append] at hfly
    rw [hoff]
    simpa using hfly.2

theorem CI.received (h : CI u here v) (hr : v.rcv = true) : CI u here { v with rd := true } := by
  refine { h with rdr := ?_, clrRr := ?_ }
  · intro _ _; exact hr
  · intro _ _; exact ⟨hr, rfl⟩

theorem CI.clearR (h : CI u here v) (hb : v.bd = true) (hrd : v.rd = true) :
    CI u here { v with clrR := true, flag := update v.flag (v.Q % 3) .waiting } := by
  have hrc := h.rdr hb hrd
  have hN : v.rcvN = v.Q + 1 := by simp [View.rcvN, hrc]
  have hr : ∀ a, View.rcvN { v with clrR := true, flag := a } = v.Q + 1 := fun _ => hN
  have hs : ∀ a, View.sentN { v with clrR := true, flag := a } = v.sentN := fun _ => rfl
  have hle := h.le
  have hout := h.out
  have hfl1 := h.fl1
  have hfl2 := h.fl2
  have hfly := h.fly
  rw [hN] at hle hout hfl1 hfl2 hfly
  refine { h with
    clrRr := ?_, le := ?_, win := ?_, out := ?_, fl := ?_, fl1 := ?_, fl2 := ?_, fl3 := ?_, fly := ?_ }
  all_goals (try simp only [hr, hs])
  · intro _ _; exact ⟨hrc, hrd⟩
  · exact hle
  · exact h.win
  · exact hout
  · intro _ _ _ h1; simp at h1
  · intro h1 p hp h2 h3
    have := h.win h1 p hp h3
    rw [Function.update_of_ne (by omega)]
    exact hfl1 h1 p hp h2 h3
  · intro h1 k hk
    by_cases hkQ : k = v.Q % 3
    · subst hkQ; simp at hk
    · rw [Function.update_of_ne hkQ] at hk
      rcases hfl2 h1 k hk with h2 | h2
      · exact .inl h2
      · exact absurd h2.1 hkQ
  · intro h1 k hk
    by_cases hkQ : k = v.Q % 3
    · subst hkQ; simp at hk
    · rw [Function.update_of_ne hkQ] at hk
      exact absurd (h.fl3 h1 k hk).1 hkQ
  · exact hfly

theorem CI.clearS (h : CI u here v) (hs1 : v.snd = true)
    (hon : v.sreq (v.P % 3) ≠ .on) (sreq' : Nat → Req)
    (hsr : sreq' = update v.sreq (v.P % 3) .off ∨ sreq' = v.sreq ∧ ¬(here = false ∧ u v.P = true)) :
    CI u here { v with clrS := true, sflag := update v.sflag (v.P % 3) .waiting, sreq := sreq' } := by
  have hoff : ∀ k, sreq' k = .off := by
    intro k
    rcases hsr with rfl | ⟨rfl, hh⟩
    · by_cases hk : k = v.P % 3
      · subst hk; simp
      · rw [Function.update_of_ne hk]
        by_contra hk2
        exact hk (h.sq k hk2).2.1
    · by_contra hk
      have := h.sq k hk
      exact hh ⟨this.1, this.2.2.2.1⟩
  refine { h with clrSs := ?_, sf := ?_, sq := ?_, sq1 := ?_, fly := ?_ }
  · intro _ _; exact hs1
  · intro k hk
    by_cases hkP : k = v.P % 3
    · subst hkP; simp at hk
    · simp only [Function.update_of_ne hkP] at hk
      exact absurd (h.sf k hk).1 hkP
  · intro k hk; exact absurd (hoff k) hk
  · intro h1; simp [hoff] at h1
  · intro h1
    have := h.fly h1
    rw [if_neg hon] at this
    show _ ++ _ ++ (if sreq' (v.P % 3) = .on then [v.P] else []) = usedList u v.rcvN v.sentN
    rw [← this, hoff]
    rfl

theorem CI.endD (h : CI u here v) (hc : v.clrR = true) (hrd : v.rd = true) :
    CI u here { v with bd := false } := by
  by_cases hb : v.bd = true
  · have hrc := h.rdr hb hrd
    have hN : v.rcvN = v.Q + 1 := by simp [View.rcvN, hrc]
    have hr : View.rcvN { v with bd := false } = v.Q + 1 := by simp [View.rcvN]
    have hs : View.sentN { v with bd := false } = v.sentN := rfl
    have hle := h.le
    have hout := h.out
    have hfl1 := h.fl1
    have hfl2 := h.fl2
    have hfly := h.fly
    rw [hN] at hle hout hfl1 hfl2 hfly
    refine { h with
      bd1 := ?_, rdr := ?_, clrRr := ?_, le := ?_, win := ?_, out := ?_, fl := ?_, fl1 := ?_,
      fl2 := ?_, fl3 := ?_, rq := ?_, rq1 := ?_, fly := ?_ }
    all_goals (try simp only [hr, hs])
    · intro h1; simp at h1
    · intro h1; simp at h1
    · intro h1; simp at h1
    · exact hle
    · exact h.win
    · exact hout
    · intro h1; simp at h1
    · exact hfl1
    · intro h1 k hk
      rcases hfl2 h1 k hk with h2 | h2
      · exact .inl h2
      · simp [hc] at h2
    · intro h1 k hk; have := h.fl3 h1 k hk; simp [hc] at this
    · intro k hk; have := h.rq k hk; simp [hrc] at this
    · intro _ h1; simp at h1
    · exact hfly
  · have : ({ v with bd := false } : View) = v := by
      have : v.bd = false := by simpa using hb
      rw [← this]
    rw [this]; exact h

theorem CI.endS (h : CI u here v) (hc : v.clrS = true) (hsn : v.snd = true) :
    CI u here { v with bs := false } := by
  have hN : v.sentN = v.P + 1 := by simp [View.sentN, hsn]
  have hs : View.sentN { v with bs := false } = v.P + 1 := by simp [View.sentN]
  have hr : View.rcvN { v with bs := false } = v.rcvN := rfl
  have hle := h.le
  have hwin := h.win
  have hfl1 := h.fl1
  have hfl2 := h.fl2
  have hfly := h.fly
  rw [hN] at hle hwin hfl1 hfl2 hfly
  refine { h with
    bs1 := ?_, clrSs := ?_, le := ?_, win := ?_, out := ?_, fl1 := ?_, fl2 := ?_, sf := ?_, sq := ?_,
    fly := ?_ }
  all_goals (try simp only [hr, hs])
  · intro h1; simp at h1
  · intro h1; simp at h1
  · exact hle
  · exact hwin
  · exact h.out
  · exact hfl1
  · exact hfl2
  · intro k hk; have := h.sf k hk; simp [hc] at this
  · intro k hk; have := h.sq k hk; simp [hc] at this
  · exact hfly

theorem CI.transfer (h : CI u here v) {k : Nat} (hk : v.sreq k = .on) :
    CI u here { v with net := v.net ++ [v.sbuf k], sreq := update v.sreq k .full } := by
  have hq := h.sq k (by simp [hk])
  obtain rfl := hq.2.1
  refine { h with sq := ?_, sq1 := ?_, fly := ?_ }
  · intro k' hk'
    by_cases e : k' = v.P % 3
    · subst e; exact hq
    · simp only [Function.update_of_ne e] at hk'
      exact h.sq k' hk'
  · intro h1; simp at h1
  · intro h1
    have hf := h.fly h1
    rw [if_pos hk] at hf
    show (if v.rreq (v.Q % 3) = .full then [v.rbuf (v.Q % 3)] else []) ++ (v.net ++ [v.sbuf (v.P % 3)]) ++ (if update v.sreq (v.P % 3) .full (v.P % 3) = .on then [v.P] else []) =
      usedList u v.rcvN v.sentN
    rw [← hf, h.sq1 hk]
    simp

theorem CI.deliver (h : CI u here v) {k m : Nat} {rest : List Nat} (hk : v.rreq k = .on)
    (hm : v.net = m :: rest) :
    CI u here { v with rbuf := update v.rbuf k m, net := rest, rreq := update v.rreq k .full } := by
  have hq := h.rq k (by simp [hk])
  obtain rfl := hq.2.1
  have hh := hq.1
  refine { h with fl1 := ?_, rq := ?_, rq1 := ?_, fly := ?_ }
  · intro h1; simp [hh] at h1
  · intro k' hk'
    by_cases e : k' = v.Q % 3
    · subst e; exact hq
    · simp only [Function.update_of_ne e] at hk'
      exact h.rq k' hk'
  · intro _ _ _ _; simp
  · intro h1
    have hf := h.fly h1
    rw [hm, if_neg (by simp [hk])] at hf
    show (if update v.rreq (v.Q % 3) .full (v.Q % 3) = .full then
        [update v.rbuf (v.Q % 3) m (v.Q % 3)] else []) ++ rest ++
      (if v.sreq (v.P % 3) = .on then [v.P] else []) = usedList u v.rcvN v.sentN
    rw [← hf]
    simp

section
variable {B Ch R : Type} [DecidableEq B] [DecidableEq Ch] [DecidableEq R] {n : Net B Ch R}
variable {s : St B Ch}

/-- Invariant of the system. -/
structure Inv (n : Net B Ch R) (s : St B Ch) : Prop where
  ch : ∀ c, CI (fun p => n.used p c) (n.here c) (view n s c)
  err : s.err = false

/-- A block in phase `P` has everything sent to it before. -/
theorem Inv.lag (h : Inv n s) {c : Ch} {p : Nat} (hp : p < s.ph (n.dst c)) (hu : n.used p c = true) :
    p ≤ s.ph (n.src c) := by
  have h1 : p < (view n s c).rcvN := by
    unfold View.rcvN; split <;> simp only [view] <;> omega
  have h2 := (h.ch c).le p hu h1
  unfold View.sentN at h2
  split at h2 <;> simp only [view] at h2 <;> omega

theorem inv_init (h : Initial s) : Inv n s := by
  refine ⟨fun c => ?_, h.err⟩
  have hs : (view n s c).sentN = 1 := by simp [View.sentN, view, h.busy, h.ph]
  have hr : (view n s c).rcvN = 1 := by simp [View.rcvN, view, h.busy, h.ph]
  constructor
  all_goals (try simp only [hs, hr])
  · intro h1; simp [view, h.busy] at h1
  · intro h1; simp [view, h.busy] at h1
  · intro h1; simp [view, h.busy] at h1
  · intro h1; simp [view, h.busy] at h1
  · intro h1; simp [view, h.busy] at h1
  · intro p _ hp; exact hp
  · intro _ p _ hp; omega
  · rw [usedList_nil (Nat.le_refl 1)]; simp [view, h.out]
  · intro h1; simp [view, h.busy] at h1
  · intro _ p _ h1 h2; omega
  · intro _ k hk; simp [view, h.flag] at hk
  · intro _ k hk; simp [view, h.flag] at hk
  · intro k hk; simp [view, h.sflag] at hk
  · intro k hk; simp [view, h.rreq] at hk
  · intro _ h1; simp [view, h.busy] at h1
  · intro k hk; simp [view, h.sreq] at hk
  · intro hk; simp [view, h.sreq] at hk
  · intro _; rw [usedList_nil (Nat.le_refl 1)]; simp [view, h.rreq, h.sreq, h.net]

theorem inv_start (h : Inv n s) (b : B) (hb : s.busy b = false) : Inv n (start n b s) := by
  refine ⟨fun c => ?_, h.err⟩
  have h0 := h.ch c
  by_cases h1 : n.src c = b
  · have h2 := h0.startS (by simp [view, h1, hb])
    by_cases h3 : n.dst c = b
    · have h4 := h2.startD (by simp [view, h3, hb])
      convert h4 using 1
      simp [view, start, h1, h3]
    · convert h2 using 1
      simp [view, start, h1, h3]
  · by_cases h3 : n.dst c = b
    · have h4 := h0.startD (by simp [view, h3, hb])
      convert h4 using 1
      simp [view, start, h1, h3]
    · convert h0 using 1
      simp [view, start, h1, h3]

theorem Inv.close (h : Inv n s) {c : Ch} (hc : 3 ≤ s.ph (n.src c) → CloseAt n c (s.ph (n.src c))) :
    s.ph (n.src c) ≤ s.ph (n.dst c) + 2 := by
  by_cases h3 : 3 ≤ s.ph (n.src c)
  swap
  · omega
  rcases hc h3 with h1 | ⟨c1, h1, h2, h4⟩ | ⟨c1, c2, h1, h2, h4, h5, h6⟩
  · rw [h1]; omega
  · rcases h4 with h4 | h4
    · have := h.lag (by rw [h1]; omega) h4
      rw [h2] at this; omega
    · have := h.lag (by rw [h1]; omega) h4
      rw [h2] at this; omega
  · have a := h.lag (by rw [h1]; omega) h2
    have b := h.lag (by rw [h4]; omega) h6
    rw [h5] at b; omega

theorem inv_send (h : Inv n s) (c : Ch) (h1 : s.busy (n.src c) = true) (h2 : s.snd c = false)
    (hc : n.here c = true → n.used (s.ph (n.src c)) c = true →
      s.ph (n.src c) ≤ s.ph (n.dst c) + 2) : Inv n (send n c s) := by
  obtain ⟨k1, k2, k3, k4, k5⟩ := (h.ch c).send h1 h2 hc
  have k1' : s.sflag c (s.ph (n.src c) % 3) = .waiting := k1
  have k2' : n.here c = false → s.sreq c (s.ph (n.src c) % 3) = .off := k2
  have hne : ∀ c', c' ≠ c → view n (send n c s) c' = view n s c' := by
    intro c' hc'
    unfold send
    simp only
    split
    · simp [view, hc']
    split
    · simp [view, hc']
    split
    · simp [view, set2, hc']
    · split <;> simp [view, set2, hc']
  constructor
  · intro c'
    by_cases hcc : c' = c
    swap
    · rw [hne c' hcc]; exact h.ch c'
    subst hcc
    by_cases hu : n.used (s.ph (n.src c')) c' = true
    · by_cases hh : n.here c' = true
      · convert k4 hu hh using 1
        simp [view, send, k1', hu, hh, set2]
      · have hh : n.here c' = false := by simpa using hh
        convert k5 hu hh using 1
        simp [view, send, k1', hu, hh, set2, k2' hh]
    · have hu : n.used (s.ph (n.src c')) c' = false := by simpa using hu
      convert k3 hu using 1
      simp [view, send, k1', hu]
  · by_cases hu : n.used (s.ph (n.src c)) c = true
    · by_cases hh : n.here c = true
      · simp [send, k1', hu, hh, h.err]
      · have hh : n.here c = false := by simpa using hh
        simp [send, k1', hu, hh, h.err, k2' hh]
    · simp [send, k1', hu, h.err]

theorem inv_recv (h : Inv n s) (c : Ch) (h1 : s.busy (n.dst c) = true)
    (h2 : s.rdone (n.dst c) = false) : Inv n (recv n c s) := by
  have hne : ∀ c', c' ≠ c → view n (recv n c s) c' = view n s c' := by
    intro c' hc'
    unfold recv
    simp only
    split
    · simp [view, hc']
    split
    · simp [view, hc']
    split
    · split
      · rfl
      split
      · rfl
      · simp [view, set2, hc']
    · simp [view, set2, hc']
  constructor
  swap
  · unfold recv
    simp only
    repeat' split
    all_goals exact h.err
  intro c'
  by_cases hcc : c' = c
  swap
  · rw [hne c' hcc]; exact h.ch c'
  subst hcc
  have h0 := h.ch c'
  by_cases hf : s.flag c' (s.ph (n.dst c') % 3) = .completed
  · have := h0.recv_again hf
    convert h0 using 1
    have e : s.rcv c' = true := this
    simp [view, recv, hf, e]
  by_cases hu : n.used (s.ph (n.dst c')) c' = true
  swap
  · have hu : n.used (s.ph (n.dst c')) c' = false := by simpa using hu
    convert h0.recv_unused h1 hu using 1
    simp [view, recv, hf, hu]
  by_cases hw : s.flag c' (s.ph (n.dst c') % 3) = .waiting
  · by_cases hh : n.here c' = true
    · convert h0 using 1
      simp [view, recv, hf, hu, hw, hh]
    · have hh : n.here c' = false := by simpa using hh
      by_cases ho : s.rreq c' (s.ph (n.dst c') % 3) = .on
      · convert h0 using 1
        simp [view, recv, hf, hu, hw, hh, ho]
      · convert h0.recv h1 hu hf (fun _ => ⟨hh, ho⟩) h2 _ (.inr ⟨rfl, hh⟩) using 1
        simp [view, recv, hu, hw, hh, ho, set2]
  · have hh : n.here c' = true := by
      by_contra hc
      have := h0.fl3 (by simpa using hc) _ hw
      have e := (h0.recv_buf h1 hu hf (fun hc => absurd hc hw) h2).1
      simp [e] at this
    convert h0.recv h1 hu hf (fun hc => absurd hc hw) h2 _ (.inl ⟨rfl, hh⟩) using 1
    simp [view, recv, hf, hu, hw, set2]

theorem inv_step (hc : Close n)
    (h : Inv n s) {s' : St B Ch} (hs : Step n s s') : Inv n s' := by
  cases hs with
  | start b hb => exact inv_start h b hb
  | send c h1 h2 => exact inv_send h c h1 h2 (fun h3 h4 => h.close (fun h5 => hc c _ h5 h3 h4))
  | recv c h1 h2 => exact inv_recv h c h1 h2
  | received b h1 h2 h3 =>
    refine ⟨fun c => ?_, h.err⟩
    by_cases hb : n.dst c = b
    · convert (h.ch c).received (h2 c hb) using 1
      simp [view, hb]
    · convert h.ch c using 1
      simp [view, hb]
  | clearR c h1 h2 h3 h4 =>
    refine ⟨fun c' => ?_, h.err⟩
    by_cases hcc : c' = c
    · subst hcc
      convert (h.ch c').clearR h1 h2 using 1
      simp [view, clearR, set2]
    · convert h.ch c' using 1
      simp [view, clearR, set2, hcc]
  | clearS c h1 h2 h3 h4 h5 =>
    refine ⟨fun c' => ?_, h.err⟩
    by_cases hcc : c' = c
    · subst hcc
      by_cases hq : n.here c' = false ∧ n.used (s.ph (n.src c')) c' = true
      · convert (h.ch c').clearS (h3 c' rfl) h5 _ (.inl rfl) using 1
        simp [view, clearS, set2, hq]
      · convert (h.ch c').clearS (h3 c' rfl) h5 _ (.inr ⟨rfl, hq⟩) using 1
        simp only [view, clearS, set2, if_neg hq]
        simp
    · convert h.ch c' using 1
      by_cases hq : n.here c = false ∧ n.used (s.ph (n.src c)) c = true
      · simp [view, clearS, set2, hcc, hq]
      · simp only [view, clearS, set2, if_neg hq]
        simp [hcc]
  | cleared b h1 h2 h3 h4 h5 =>
    refine ⟨fun c => ?_, h.err⟩
    have h0 := h.ch c
    by_cases k1 : n.src c = b
    · have k2 := h0.endS (h3 c k1) (h5 c k1)
      by_cases k3 : n.dst c = b
      · have k4 := k2.endD (h2 c k3) (by simpa [view, k3] using h4)
        convert k4 using 1
        simp [view, k1, k3]
      · convert k2 using 1
        simp [view, k1, k3]
    · by_cases k3 : n.dst c = b
      · have k4 := h0.endD (h2 c k3) (by simpa [view, k3] using h4)
        convert k4 using 1
        simp [view, k1, k3]
      · convert h0 using 1
        simp [view, k1, k3]
  | transfer c k hk =>
    refine ⟨fun c' => ?_, h.err⟩
    by_cases hcc : c' = c
    · subst hcc
      convert (h.ch c').transfer hk using 1
      simp [view, transfer, set2]
    · convert h.ch c' using 1
      simp [view, transfer, set2, hcc]
  | deliver c k hk hm =>
    refine ⟨fun c' => ?_, h.err⟩
    by_cases hcc : c' = c
    · subst hcc
      convert (h.ch c').deliver hk hm using 1
      simp [view, deliver, set2]
    · convert h.ch c' using 1
      simp [view, deliver, set2, hcc]

theorem Reach.inv (hc : Close n)
    (h : Reach n s) : Inv n s := by
  induction h with
  | init h => exact inv_init h
  | step _ h' ih => exact inv_step hc ih h'


theorem usedList_phases (c : Ch) (N : Nat) :
    usedList (fun p => n.used p c) 1 (N + 1) = phases n c N := by
  induction N with
  | zero => simp [phases, usedList, List.range_succ]
  | succ N ih =>
    rw [usedList_succ, ih, phases, phases, List.range'_1_concat, List.filter_append]
    congr 1
    rw [Nat.add_comm 1 N]
    cases hu : n.used (N + 1) c <;> simp [hu]

theorem through_rcvN (h : Inv n s) (c : Ch) : (view n s c).rcvN = s.through n c + 1 := by
  have h1 : s.busy (n.dst c) = true → 1 ≤ s.ph (n.dst c) := (h.ch c).bd1
  have e : (view n s c).rcvN =
      if s.busy (n.dst c) = true ∧ s.rcv c = false then s.ph (n.dst c) else s.ph (n.dst c) + 1 := rfl
  rw [e, St.through]
  by_cases h2 : s.busy (n.dst c) = true ∧ s.rcv c = false
  · rw [if_pos h2, if_pos h2]; have := h1 h2.1; omega
  · rw [if_neg h2, if_neg h2]

/-- Some block in the least phase can go on. -/
theorem inv_progress [Nonempty B] (h : Inv n s) : ∃ s', Step n s s' ∧ s' ≠ s := by
  obtain ⟨b, hb⟩ : ∃ b, ∀ b', s.ph b ≤ s.ph b' := by
    obtain ⟨b0⟩ := ‹Nonempty B›
    have key : ∀ N, ∀ b : B, s.ph b ≤ N → ∃ b, ∀ b', s.ph b ≤ s.ph b' := by
      intro N
      induction N with
      | zero => intro b hb; exact ⟨b, fun b' => by omega⟩
      | succ N ih =>
        intro b hb
        by_cases hx : ∃ b', s.ph b' ≤ N
        · obtain ⟨b', h'⟩ := hx; exact ih b' h'
        · exact ⟨b, fun b' => by
            by_contra hc; exact hx ⟨b', by omega⟩⟩
    exact key _ b0 (Nat.le_refl _)
  by_cases h1 : s.busy b = false
  · refine ⟨_, .start b h1, fun he => ?_⟩
    have := congrArg (fun x => St.busy x b) he
    simp [start, h1] at this
  have h1 : s.busy b = true := by simpa using h1
  have sendp : ∀ c, s.busy (n.src c) = true → s.snd c = false → ∃ s', Step n s s' ∧ s' ≠ s := by
    intro c hb1 h2
    refine ⟨_, .send c hb1 h2, fun he => ?_⟩
    have := congrArg (fun x => St.snd x c) he
    have e : (send n c s).snd c = true := by
      unfold send
      simp only
      repeat' split
      all_goals simp
    rw [e] at this
    simp [h2] at this
  have transp : ∀ c k, s.sreq c k = .on → ∃ s', Step n s s' ∧ s' ≠ s := by
    intro c k hk
    refine ⟨_, .transfer c k hk, fun he => ?_⟩
    have := congrArg (fun x => St.sreq x c k) he
    simp [transfer, set2, hk] at this
  by_cases h2 : ∃ c, n.src c = b ∧ s.snd c = false
  · obtain ⟨c, hc, h3⟩ := h2
    exact sendp c (by rw [hc]; exact h1) h3
  have h2 : ∀ c, n.src c = b → s.snd c = true := by
    intro c hc
    by_contra h3
    exact h2 ⟨c, hc, by simpa using h3⟩
  by_cases h3 : s.rdone b = false
  · by_cases h4 : ∀ c, n.dst c = b → s.rcv c = true
    · refine ⟨_, .received b h1 h4 h3, fun he => ?_⟩
      have := congrArg (fun x => St.rdone x b) he
      simp [h3] at this
    push Not at h4
    obtain ⟨c, rfl, h5⟩ := h4
    have h5 : s.rcv c = false := by simpa using h5
    have h0 := h.ch c
    have recvp : (recv n c s).rcv c = true → ∃ s', Step n s s' ∧ s' ≠ s := by
      intro e
      refine ⟨_, .recv c h1 h3, fun he => ?_⟩
      rw [he, h5] at e
      simp at e
    by_cases hu : n.used (s.ph (n.dst c)) c = true
    swap
    · apply recvp
      by_cases hf : s.flag c (s.ph (n.dst c) % 3) = .completed <;> simp [recv, hf, hu]
    by_cases hsent : s.ph (n.dst c) < (view n s c).sentN
    swap
    · have h6 := hb (n.src c)
      unfold View.sentN at hsent
      split at hsent
      · rename_i h7
        exact sendp c h7.1 h7.2
      · simp only [view] at hsent; omega
    have hN : (view n s c).rcvN = s.ph (n.dst c) := CI.rcvN_eq h1 h5
    by_cases hh : n.here c = true
    · have h6 := (h0.fl1 hh _ hu (Nat.le_of_eq hN) hsent).1
      have h6 : s.flag c (s.ph (n.dst c) % 3) = .arrived := h6
      apply recvp
      simp [recv, h6, hu]
    · have hh : n.here c = false := by simpa using hh
      have hw : s.flag c (s.ph (n.dst c) % 3) = .waiting := by
        by_contra hc
        have := (h0.fl3 hh _ hc).2.2.2.1
        simp [view, h5] at this
      have h6 := h0.rq1 hh h1 hu h5
      have h6 : s.rreq c (s.ph (n.dst c) % 3) ≠ .off := h6
      by_cases ho : s.rreq c (s.ph (n.dst c) % 3) = .on
      swap
      · apply recvp
        simp [recv, hw, hu, hh, ho]
      have hfly := h0.fly hh
      rw [hN] at hfly
      rw [usedList_head hu hsent] at hfly
      have e1 : (view n s c).rreq ((view n s c).Q % 3) ≠ .full := by
        show s.rreq c (s.ph (n.dst c) % 3) ≠ .full
        simp [ho]
      rw [if_neg e1, List.nil_append] at hfly
      cases hnet : s.net c with
      | cons m rest =>
        refine ⟨_, .deliver c _ ho hnet, fun he => ?_⟩
        have := congrArg (fun x => St.rreq x c (s.ph (n.dst c) % 3)) he
        simp [deliver, set2, ho] at this
      | nil =>
        have e2 : (view n s c).net = [] := hnet
        rw [e2, List.nil_append] at hfly
        by_cases e3 : (view n s c).sreq ((view n s c).P % 3) = .on
        · exact transp c _ e3
        · rw [if_neg e3] at hfly
          simp at hfly
  have h3 : s.rdone b = true := by simpa using h3
  by_cases h4 : ∀ c, n.dst c = b → s.clrR c = true
  swap
  · push Not at h4
    obtain ⟨c, rfl, h5⟩ := h4
    have h5 : s.clrR c = false := by simpa using h5
    refine ⟨_, .clearR c h1 h3 h2 h5, fun he => ?_⟩
    have := congrArg (fun x => St.clrR x c) he
    simp [clearR, h5] at this
  by_cases h6 : ∀ c, n.src c = b → s.clrS c = true
  swap
  · push Not at h6
    obtain ⟨c, rfl, h5⟩ := h6
    have h5 : s.clrS c = false := by simpa using h5
    by_cases ho : s.sreq c (s.ph (n.src c) % 3) = .on
    · exact transp c _ ho
    refine ⟨_, .clearS c h1 h3 h2 h5 ho, fun he => ?_⟩
    have := congrArg (fun x => St.clrS x c) he
    simp [clearS, h5] at this
  refine ⟨_, .cleared b h1 h4 h6 h3 h2, fun he => ?_⟩
  have := congrArg (fun x => St.busy x b) he
  simp [h1] at this

end
end Verif.MgExchange
