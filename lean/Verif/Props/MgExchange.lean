import Verif.Lemmas.MgExchange
import Verif.Props.Exchange

/-!
Exchange of ghost cells in the multigrid solver: with three sets of buffers and no check of the
receiver before writing, each message is unpacked once, in order, in the phase it belongs to, as long
as no sender can be three phases ahead of a receiver on its process. This is so on every mesh when all
messages are exchanged, and fails on a refined mesh when messages to coarser blocks across edges and
corners are left out.
-/
namespace Verif.MgExchange
open Verif.Exchange (Status Req)
open Function (update)

section
variable {B Ch R : Type} [DecidableEq B] [DecidableEq Ch] [DecidableEq R] {n : Net B Ch R}

/-- Every message is unpacked exactly once, in order, in the phase in which it was packed. -/
theorem mg_exchange_in_order (hn : Close n) {s : St B Ch} (h : Reach n s) (c : Ch) :
    s.out c = (phases n c (s.through n c)).map (fun p => (p, p)) := by
  have hi := h.inv hn
  rw [← usedList_phases, ← through_rcvN hi]
  exact (hi.ch c).out

/-- No send is started while the one before from the same buffer is under way. -/
theorem mg_exchange_no_error (hn : Close n) {s : St B Ch} (h : Reach n s) : s.err = false :=
  (h.inv hn).err

/-- When a block is about to write into a buffer of a block on its process, whatever was there has been
unpacked and cleared; when it is about to write into a send buffer for another process, the buffer is
free. -/
theorem mg_exchange_no_overwrite (hn : Close n) {s : St B Ch} (h : Reach n s) (c : Ch)
    (h1 : s.busy (n.src c) = true) (h2 : s.snd c = false)
    (hu : n.used (s.ph (n.src c)) c = true) :
    s.sreq c (s.ph (n.src c) % 3) = .off ∧
      (n.rank (n.src c) = n.rank (n.dst c) → s.flag c (s.ph (n.src c) % 3) = .waiting) := by
  have hi := h.inv hn
  have hc := hi.ch c
  have hs : (view n s c).sentN = s.ph (n.src c) := by simp [View.sentN, view, h1, h2]
  refine ⟨?_, fun hr => ?_⟩
  · by_contra hk
    have := (hc.sq _ hk).2.2.2.2.1
    simp [view, h2] at this
  · have hh : n.here c = true := by simp [Net.here, hr]
    have hcl := hi.close (c := c) (fun h3 => hn c _ h3 hh hu)
    by_contra hk
    have hle : (view n s c).rcvN ≤ s.ph (n.src c) := by
      by_contra h3
      have := hc.le (s.ph (n.src c)) hu (by omega)
      omega
    have hQ : s.ph (n.dst c) ≤ (view n s c).rcvN := by
      unfold View.rcvN; split <;> simp only [view] <;> omega
    rcases hc.fl2 hh _ hk with ⟨p, k1, k2, k3, k4⟩ | k1
    · rw [hs] at k4
      omega
    · have hr1 : (view n s c).rcvN = s.ph (n.dst c) + 1 := by
        simp only [View.rcvN, k1.2.2.2.1]; simp [view]
      have : s.ph (n.src c) % 3 = s.ph (n.dst c) % 3 := k1.1
      omega

/-- A block starts a phase only with its receive requests of that colour free. -/
theorem mg_exchange_requests_free (hn : Close n) {s : St B Ch} (h : Reach n s) (b : B)
    (hb : s.busy b = false) (c : Ch) (k : Nat) :
    (n.dst c = b → s.rreq c k = .off) ∧ (n.src c = b → s.sreq c k = .off) := by
  have hc := (h.inv hn).ch c
  refine ⟨fun e => ?_, fun e => ?_⟩
  · by_contra hk
    have := (hc.rq k hk).2.2.1
    simp [view, e, hb] at this
  · by_contra hk
    have := (hc.sq k hk).2.2.1
    simp [view, e, hb] at this

/-- The exchange never comes to a stop. -/
theorem mg_exchange_no_deadlock (hn : Close n) [Nonempty B] {s : St B Ch} (h : Reach n s) :
    ∃ s', Step n s s' ∧ s' ≠ s := inv_progress (h.inv hn)

end

section Mesh
open Tree (NoPolar NoShear LevelsOk HasEntry entry_pair)
variable {m : Tree.Mesh} (hm : m.Valid) (hnp : NoPolar m) (hns : NoShear m)
  (hw : m.f2 = true → m.ix2 ≠ .polarWedge ∧ m.ox2 ≠ .polarWedge) {t : Tree.St} (h : Tree.Reach m t)
  {ml : Bool} (hml : LevelsOk m ml (t.tree.number m 0).1) {P : Type} (rank : Int → P)

/-- The network of the multigrid solver on a mesh when all messages are exchanged. -/
def meshNet (m : Tree.Mesh) (ml : Bool) (t : Tree.Tree) (rank : Int → P) :
    Net Int (Exchange.MeshChannel m ml t) P where
  src := fun c => c.1.1
  dst := fun c => c.1.2.gid
  rank := rank
  used := fun _ _ => true

include hm hnp hns hw h hml in
/-- On a mesh, refined or not, on which every neighbour gets a message in every phase (always so
without refinement), nothing is lost, mixed up or stuck, with any distribution over processes. -/
theorem mg_mesh_exchange_partial [DecidableEq P]
    [DecidableEq (Exchange.MeshChannel m ml (t.tree.number m 0).1)]
    {x : St Int (Exchange.MeshChannel m ml (t.tree.number m 0).1)}
    (hx : Reach (meshNet m ml (t.tree.number m 0).1 rank) x) :
    (∀ c, x.out c = (List.range' 1 (x.through (meshNet m ml (t.tree.number m 0).1 rank) c)).map
        (fun p => (p, p))) ∧
      x.err = false ∧ ∃ x', Step (meshNet m ml (t.tree.number m 0).1 rank) x x' ∧ x' ≠ x := by
  have hc : Close (meshNet m ml (t.tree.number m 0).1 rank) := by
    intro c p _ _ _
    obtain ⟨e', k1, k2, _, _⟩ := entry_pair hm hnp hns hw h hml c.2
    exact .inr (.inl ⟨⟨(c.1.2.gid, e'), k1⟩, k2, rfl, .inl rfl⟩)
  refine ⟨fun c => ?_, mg_exchange_no_error hc hx, ?_⟩
  · rw [mg_exchange_in_order hc hx c]
    congr 1
    unfold phases meshNet
    simp
  · haveI : Nonempty Int := ⟨0⟩
    exact mg_exchange_no_deadlock hc hx

end Mesh

/-! The five blocks `C = 0`, `Y = 1`, `Z = 2`, `F = 3`, `G = 4` of a mesh of 2×2×2 root blocks of which
the four with at least two upper coordinates are refined: `C` the root block at the lower corner, `Y`
the one above it in x1, `Z` the fine block of (1,1,0) below `F` in x3, `F` the fine block of (1,1,1)
that touches `C` with a corner, `G` the fine block at the upper corner, on another process. `C`-`Y`,
`Y`-`Z`, `Z`-`F` are neighbours across faces (the last of the same level), `F`-`G` across a corner;
`C`-`Z` and `Y`-`F` across edges and `C`-`F` across a corner between levels: there messages to the
coarser block are sent in phase 1 only, as when a prolongation is followed by phases with
`mg_faceonly`. The other blocks of the mesh are left out. -/

/-- Channels `CY, YC, YZ, ZY, ZF, FZ, FG, GF, CF, FC, CZ, ZC, YF, FY`. -/
def raceNet : Net (Fin 5) (Fin 14) Bool where
  src := ![0, 1, 1, 2, 2, 3, 3, 4, 0, 3, 0, 2, 1, 3]
  dst := ![1, 0, 2, 1, 3, 2, 4, 3, 3, 0, 2, 0, 3, 1]
  rank := ![false, false, false, false, true]
  used := fun p c => decide (p = 1) || !(c == 9 || c == 11 || c == 13)

def raceSt : St (Fin 5) (Fin 14) where
  ph := fun _ => 0
  busy := fun _ => false
  rdone := fun _ => false
  snd := fun _ => false
  rcv := fun _ => false
  clrS := fun _ => false
  clrR := fun _ => false
  flag := fun _ _ => .waiting
  sflag := fun _ _ => .waiting
  sreq := fun _ _ => .off
  rreq := fun _ _ => .off
  sbuf := fun _ _ => 0
  rbuf := fun _ _ => 0
  net := fun _ => []
  out := fun _ => []
  err := false

/-- Steps, by name. -/
inductive Op
  | start (b : Fin 5)
  | send (c : Fin 14)
  | recv (c : Fin 14)
  | received (b : Fin 5)
  | clearR (c : Fin 14)
  | clearS (c : Fin 14)
  | cleared (b : Fin 5)

/-- What a step does, if it may be taken. -/
def Op.run (n : Net (Fin 5) (Fin 14) Bool) (s : St (Fin 5) (Fin 14)) :
    Op → Option (St (Fin 5) (Fin 14))
  | .start b => if s.busy b = false then some (MgExchange.start n b s) else none
  | .send c => if s.busy (n.src c) = true ∧ s.snd c = false then some (MgExchange.send n c s) else none
  | .recv c => if s.busy (n.dst c) = true ∧ s.rdone (n.dst c) = false then
      some (MgExchange.recv n c s) else none
  | .received b => if s.busy b = true ∧ (∀ c, n.dst c = b → s.rcv c = true) ∧ s.rdone b = false then
      some { s with rdone := update s.rdone b true } else none
  | .clearR c => if s.busy (n.dst c) = true ∧ s.rdone (n.dst c) = true ∧
      (∀ c', n.src c' = n.dst c → s.snd c' = true) ∧ s.clrR c = false then
      some (MgExchange.clearR n c s) else none
  | .clearS c => if s.busy (n.src c) = true ∧ s.rdone (n.src c) = true ∧
      (∀ c', n.src c' = n.src c → s.snd c' = true) ∧ s.clrS c = false ∧
      s.sreq c (s.ph (n.src c) % 3) ≠ .on then
      some (MgExchange.clearS n c s) else none
  | .cleared b => if s.busy b = true ∧ (∀ c, n.dst c = b → s.clrR c = true) ∧
      (∀ c, n.src c = b → s.clrS c = true) ∧ s.rdone b = true ∧
      (∀ c, n.src c = b → s.snd c = true) then
      some { s with busy := update s.busy b false } else none

theorem Op.step {n : Net (Fin 5) (Fin 14) Bool} {s s' : St (Fin 5) (Fin 14)} {o : Op}
    (h : o.run n s = some s') : Step n s s' := by
  cases o <;> simp only [Op.run] at h <;> split at h <;> rename_i hg <;>
    simp only [Option.some.injEq, reduceCtorEq] at h <;> subst h
  · exact .start _ hg
  · exact .send _ hg.1 hg.2
  · exact .recv _ hg.1 hg.2
  · exact .received _ hg.1 hg.2.1 hg.2.2
  · exact .clearR _ hg.1 hg.2.1 hg.2.2.1 hg.2.2.2
  · exact .clearS _ hg.1 hg.2.1 hg.2.2.1 hg.2.2.2.1 hg.2.2.2.2
  · exact .cleared _ hg.1 hg.2.1 hg.2.2.1 hg.2.2.2.1 hg.2.2.2.2

/-- `C` goes on to phase 4 while `F`, in phase 1, waits for `G`. -/
def raceOps : List Op :=
  [.start 0, .send 0, .send 8, .send 10, .start 1, .send 1, .send 2, .send 12, .start 2, .send 3,
   .send 4, .send 11, .start 3, .send 5, .send 6, .send 9, .send 13, .recv 1, .recv 9, .recv 11,
   .received 0, .clearR 1, .clearR 9, .clearR 11, .clearS 0, .clearS 8, .clearS 10, .cleared 0,
   .recv 0, .recv 3, .recv 13, .received 1, .clearR 0, .clearR 3, .clearR 13, .clearS 1, .clearS 2,
   .clearS 12, .cleared 1, .recv 2, .recv 5, .recv 10, .received 2, .clearR 2, .clearR 5,
   .clearR 10, .clearS 3, .clearS 4, .clearS 11, .cleared 2, .start 0, .send 0, .send 8, .send 10,
   .start 1, .send 1, .send 2, .send 12, .start 2, .send 3, .send 4, .send 11, .recv 1, .recv 9,
   .recv 11, .received 0, .clearR 1, .clearR 9, .clearR 11, .clearS 0, .clearS 8, .clearS 10,
   .cleared 0, .recv 0, .recv 3, .recv 13, .received 1, .clearR 0, .clearR 3, .clearR 13,
   .clearS 1, .clearS 2, .clearS 12, .cleared 1, .start 0, .send 0, .send 8, .send 10, .start 1,
   .send 1, .send 2, .send 12, .recv 1, .recv 9, .recv 11, .received 0, .clearR 1, .clearR 9,
   .clearR 11, .clearS 0, .clearS 8, .clearS 10, .cleared 0, .start 0, .send 8, .recv 8]



/-! Evaluation: the tables are written out after every step. -/

def forceB {β : Type} (x : Bool) (k : Bool → β) : β := match x with | true => k true | false => k false
def forceS {β : Type} (x : Status) (k : Status → β) : β :=
  match x with | .waiting => k .waiting | .arrived => k .arrived | .completed => k .completed
def forceR {β : Type} (x : Req) (k : Req → β) : β :=
  match x with | .off => k .off | .on => k .on | .full => k .full
def forceN {β : Type} (x : Nat) (k : Nat → β) : β := match x with | 0 => k 0 | y + 1 => k (y + 1)

/-- A function on `Fin m` written out, entry by entry. -/
def tab {α β : Type} (f1 : α → (α → β) → β) : (m : Nat) → (Fin m → α) → ((Fin m → α) → β) → β
  | 0, f, k => k f
  | m + 1, f, k => f1 (f 0) (fun x => tab f1 m (fun i => f i.succ) (fun g => k (Fin.cons x g)))

theorem tab_eq {α β : Type} {f1 : α → (α → β) → β} (h : ∀ x k, f1 x k = k x) :
    ∀ (m : Nat) (f : Fin m → α) (k : (Fin m → α) → β), tab f1 m f k = k f
  | 0, f, k => rfl
  | m + 1, f, k => by
    rw [tab, h, tab_eq h m]
    congr 1
    funext i
    refine Fin.cases ?_ (fun j => ?_) i <;> simp

/-- A function of a colour written out for the three colours. -/
def tri {α β : Type} (f1 : α → (α → β) → β) (f : Nat → α) (k : (Nat → α) → β) : β :=
  f1 (f 0) fun a => f1 (f 1) fun b => f1 (f 2) fun c =>
    k (fun i => if i = 0 then a else if i = 1 then b else if i = 2 then c else f i)

theorem tri_eq {α β : Type} {f1 : α → (α → β) → β} (h : ∀ x k, f1 x k = k x) (f : Nat → α)
    (k : (Nat → α) → β) : tri f1 f k = k f := by
  simp only [tri, h]
  congr 1
  funext i
  split
  · rename_i e; rw [e]
  split
  · rename_i e; rw [e]
  split
  · rename_i e; rw [e]
  · rfl

theorem forceB_eq {β : Type} (x : Bool) (k : Bool → β) : forceB x k = k x := by cases x <;> rfl
theorem forceS_eq {β : Type} (x : Status) (k : Status → β) : forceS x k = k x := by cases x <;> rfl
theorem forceR_eq {β : Type} (x : Req) (k : Req → β) : forceR x k = k x := by cases x <;> rfl
theorem forceN_eq {β : Type} (x : Nat) (k : Nat → β) : forceN x k = k x := by cases x <;> rfl

def norm {β : Type} (s : St (Fin 5) (Fin 14)) (k : St (Fin 5) (Fin 14) → β) : β :=
  tab forceN 5 s.ph fun ph => tab forceB 5 s.busy fun busy => tab forceB 5 s.rdone fun rdone =>
  tab forceB 14 s.snd fun snd => tab forceB 14 s.rcv fun rcv =>
  tab forceB 14 s.clrS fun clrS => tab forceB 14 s.clrR fun clrR =>
  tab (tri forceS) 14 s.flag fun flag => tab (tri forceS) 14 s.sflag fun sflag =>
  tab (tri forceR) 14 s.sreq fun sreq => tab (tri forceR) 14 s.rreq fun rreq =>
  tab (tri forceN) 14 s.sbuf fun sbuf => tab (tri forceN) 14 s.rbuf fun rbuf =>
  k { s with ph, busy, rdone, snd, rcv, clrS, clrR, flag, sflag, sreq, rreq, sbuf, rbuf }

theorem norm_eq {β : Type} (s : St (Fin 5) (Fin 14)) (k : St (Fin 5) (Fin 14) → β) :
    norm s k = k s := by
  simp only [norm, tab_eq forceN_eq, tab_eq forceB_eq, tab_eq (tri_eq forceS_eq),
    tab_eq (tri_eq forceR_eq), tab_eq (tri_eq forceN_eq)]

/-- Run a list of steps, then test. -/
def runs (n : Net (Fin 5) (Fin 14) Bool) (q : St (Fin 5) (Fin 14) → Bool) :
    List Op → St (Fin 5) (Fin 14) → Bool
  | [], s => q s
  | o :: os, s => match o.run n s with
    | none => false
    | some s' => norm s' (runs n q os)

theorem runs_reach {n : Net (Fin 5) (Fin 14) Bool} {q : St (Fin 5) (Fin 14) → Bool} :
    ∀ (os : List Op) {s : St (Fin 5) (Fin 14)}, Reach n s → runs n q os s = true →
      ∃ s', Reach n s' ∧ q s' = true
  | [], s, h, hq => ⟨s, h, hq⟩
  | o :: os, s, h, hq => by
    rw [runs] at hq
    split at hq
    · simp at hq
    · rename_i s' he
      rw [norm_eq] at hq
      exact runs_reach os (h.step (Op.step he)) hq

theorem race_run : runs raceNet (fun s => decide (s.ph 3 = 1) && decide (s.out 8 = [(1, 4)])) raceOps
    raceSt = true := by
  decide +kernel

/-- **The exchange can go wrong.** With messages to coarser blocks across edges and corners left out
for three phases, a coarse block can get three phases ahead of a fine block that it touches with a
corner, and write its message for phase 4 over the one for phase 1 before the fine block, which waits
for a block on another process, has unpacked it: in phase 1 it unpacks the message of phase 4. -/
theorem mg_exchange_race : ∃ s, Reach raceNet s ∧ s.ph 3 = 1 ∧ s.out 8 = [(1, 4)] := by
  obtain ⟨s, h, hq⟩ := runs_reach raceOps (.init (by constructor <;> intros <;> rfl)) race_run
  simp only [Bool.and_eq_true, decide_eq_true_eq] at hq
  exact ⟨s, h, hq⟩

/-- In the network of the counterexample only the messages from `C` to `F`, from phase 4 on, miss the
condition. -/
theorem mg_exchange_race_lag :
    (∀ c p, 3 ≤ p → raceNet.here c = true → raceNet.used p c = true → c ≠ 8 → CloseAt raceNet c p) ∧
      CloseAt raceNet 8 3 ∧ ¬ CloseAt raceNet 8 4 := by
  have hu : ∀ (c : Fin 14) (p : Nat), c ≠ 9 → c ≠ 11 → c ≠ 13 → raceNet.used p c = true := by
    intro c p h1 h2 h3
    simp [raceNet, h1, h2, h3]
  refine ⟨?_, ?_, ?_⟩
  · intro c p h1 h2 h3 h4
    have back : ∀ c1 : Fin 14, raceNet.dst c1 = raceNet.src c → raceNet.src c1 = raceNet.dst c → c1 ≠ 9 →
        c1 ≠ 11 → c1 ≠ 13 → CloseAt raceNet c p := by
      intro c1 e1 e2 k1 k2 k3
      exact .inr (.inl ⟨c1, e1, e2, .inl (hu _ _ k1 k2 k3)⟩)
    have off : (c = 9 ∨ c = 11 ∨ c = 13) → False := by
      rintro (rfl | rfl | rfl) <;> simp [raceNet] at h3 <;> omega
    match c with
    | 0 => exact back 1 (by decide) (by decide) (by decide) (by decide) (by decide)
    | 1 => exact back 0 (by decide) (by decide) (by decide) (by decide) (by decide)
    | 2 => exact back 3 (by decide) (by decide) (by decide) (by decide) (by decide)
    | 3 => exact back 2 (by decide) (by decide) (by decide) (by decide) (by decide)
    | 4 => exact back 5 (by decide) (by decide) (by decide) (by decide) (by decide)
    | 5 => exact back 4 (by decide) (by decide) (by decide) (by decide) (by decide)
    | 6 => exact back 7 (by decide) (by decide) (by decide) (by decide) (by decide)
    | 7 => exact back 6 (by decide) (by decide) (by decide) (by decide) (by decide)
    | 8 => exact absurd rfl h4
    | 9 => exact (off (.inl rfl)).elim
    | 10 => exact .inr (.inr ⟨1, 3, by decide, hu _ _ (by decide) (by decide) (by decide), by decide,
        by decide, hu _ _ (by decide) (by decide) (by decide)⟩)
    | 11 => exact (off (.inr (.inl rfl))).elim
    | 12 => exact .inr (.inr ⟨3, 5, by decide, hu _ _ (by decide) (by decide) (by decide), by decide,
        by decide, hu _ _ (by decide) (by decide) (by decide)⟩)
    | 13 => exact (off (.inr (.inr rfl))).elim
  · exact .inr (.inl ⟨9, by decide, by decide, .inr (by decide)⟩)
  · unfold CloseAt; decide

/-- The mesh described above. -/
def raceMesh : Tree.Mesh :=
  ⟨2, 2, 2, 1, true, true, .outflow, .outflow, .outflow, .outflow, .outflow, .outflow⟩

/-- Its refinement. -/
def racePos : List Tree.Pos := [⟨2, 2, 0⟩, ⟨2, 0, 2⟩, ⟨0, 2, 2⟩, ⟨2, 2, 2⟩]

def raceTree : Option Tree.St :=
  racePos.foldl (fun s p => s.bind (Tree.addMeshBlock raceMesh 2 p)) (some ⟨Tree.rootGrid raceMesh, 0⟩)

/-- The five blocks: level and position. -/
def raceBlocks : List (Nat × Tree.Pos) :=
  [(1, ⟨0, 0, 0⟩), (1, ⟨1, 0, 0⟩), (2, ⟨2, 2, 1⟩), (2, ⟨2, 2, 2⟩), (2, ⟨3, 3, 3⟩)]

/-- The entries of the neighbour lists of the five blocks that lead to one of the five: the two blocks,
and whether a message is sent with `mg_faceonly` (bvals_mg.cpp:728). -/
def raceAdj (s : Tree.St) : List (Nat × Nat × Bool) :=
  let t := (s.tree.number raceMesh 0).1
  let gids := raceBlocks.map fun b => (t.get b.1 b.2).gid?
  (List.range 5).flatMap fun i =>
    let b := raceBlocks.getD i (0, ⟨0, 0, 0⟩)
    ((Tree.searchNeighbors raceMesh true t b.1 b.2).getD []).filterMap fun e =>
      (gids.idxOf? (some e.gid)).map fun j =>
        (i, j, decide (e.ni.ox1 ^ 2 + e.ni.ox2 ^ 2 + e.ni.ox3 ^ 2 = 1) || decide (b.1 ≤ e.level))

/-- The network of the counterexample is that of the five blocks in a mesh that the code builds. -/
theorem mg_race_mesh : ∃ s, Tree.Reach raceMesh s ∧ (Tree.meshBlocks raceMesh s.tree).length = 36 ∧
    (raceAdj s).Perm ((List.finRange 14).map fun c =>
      ((raceNet.src c).val, (raceNet.dst c).val, raceNet.used 2 c)) := by
  have h : raceTree.map (fun s => decide ((Tree.meshBlocks raceMesh s.tree).length = 36) &&
      decide ((raceAdj s).Perm ((List.finRange 14).map fun c =>
        ((raceNet.src c).val, (raceNet.dst c).val, raceNet.used 2 c)))) = some true := by
    decide +kernel
  have hd : ∀ p ∈ racePos, Tree.Dom raceMesh 2 p := by
    intro p hp
    simp only [racePos, List.mem_cons, List.not_mem_nil, or_false] at hp
    rcases hp with rfl | rfl | rfl | rfl <;> constructor <;> unfold Tree.DomDim <;> decide
  have key : ∀ (l : List Tree.Pos) (o : Option Tree.St), (∀ p ∈ l, Tree.Dom raceMesh 2 p) →
      (∀ s, o = some s → Tree.Reach raceMesh s) →
      ∀ s, l.foldl (fun s p => s.bind (Tree.addMeshBlock raceMesh 2 p)) o = some s →
        Tree.Reach raceMesh s := by
    intro l
    induction l with
    | nil => intro o _ ho s hs; exact ho s hs
    | cons p l ih =>
      intro o hl ho s hs
      refine ih _ (fun q hq => hl q (List.mem_cons_of_mem _ hq)) ?_ s hs
      intro s1 h1
      rw [Option.bind_eq_some_iff] at h1
      obtain ⟨s0, h2, h3⟩ := h1
      exact .add (ho s0 h2) (hl p List.mem_cons_self) h3
  rcases e : raceTree with _ | s
  · rw [e] at h; simp at h
  · rw [e] at h
    simp only [Option.map_some, Option.some.injEq, Bool.and_eq_true, decide_eq_true_eq] at h
    exact ⟨s, key racePos _ hd (fun s0 h0 => by cases h0; exact .start 0) s e, h⟩

/-- The same five blocks when all messages are exchanged: the condition holds, and a state is reached in
which `C` has unpacked the messages of `F`, `Y` and `Z` and gone on to the next phase. -/
example : Close { raceNet with used := fun _ _ => true } ∧
    ∃ s, Reach { raceNet with used := fun _ _ => true } s ∧ s.ph 0 = 2 ∧
      s.out 1 = [(1, 1)] ∧ s.out 9 = [(1, 1)] ∧ s.out 11 = [(1, 1)] := by
  constructor
  · intro c p _ _ _
    have h : ∀ c : Fin 14, ∃ c1 : Fin 14, raceNet.dst c1 = raceNet.src c ∧
      raceNet.src c1 = raceNet.dst c := by decide
    obtain ⟨c1, h1, h2⟩ := h c
    exact .inr (.inl ⟨c1, h1, h2, .inl rfl⟩)
  · have hr : runs { raceNet with used := fun _ _ => true } (fun s => decide (s.ph 0 = 2) &&
        decide (s.out 1 = [(1, 1)]) && decide (s.out 9 = [(1, 1)]) && decide (s.out 11 = [(1, 1)]))
        (raceOps.take 52) raceSt = true := by decide +kernel
    obtain ⟨s, h, hq⟩ := runs_reach _ (.init (by constructor <;> intros <;> rfl)) hr
    simp only [Bool.and_eq_true, decide_eq_true_eq] at hq
    exact ⟨s, h, hq.1.1.1, hq.1.1.2, hq.1.2, hq.2⟩

end Verif.MgExchange
