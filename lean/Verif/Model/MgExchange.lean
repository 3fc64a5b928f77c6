import Mathlib.Logic.Function.Basic
import Verif.Model.Exchange

/-!
The exchange of ghost cells in the multigrid solver, with three sets of buffers
(src/bvals/cc/mg/bvals_mg.cpp:438-502, 718-775, 968-1015; `triplebuf_` is always true, line 47).

A channel is one direction of one entry of a neighbour list: the sender with its send buffers and
`sflag`, the receiver with its receive buffers and `flag`, three of each, chosen by `bcolor_`. The
bodies of the loops over neighbours are steps, so that the loops of different blocks, threads and
processes may interleave in any way. The contents of a buffer are represented by the phase in which
the sender packed them; a phase of a block begins with `StartReceivingMultigrid` and ends with
`ClearBoundaryMultigrid`. `used p c` tells whether channel `c` carries a message in phase `p`: with
`mg_faceonly` messages to a coarser block across edges and corners are left out.

MPI as in `Verif.Model.Exchange`. Not modelled: the barrier at the end of a task list, the tasks
between receiving and clearing (they do not touch the buffers).
-/
namespace Verif.MgExchange
open Verif.Exchange (Status Req)

/-- Blocks `B`, processes `R`, channels `Ch`. -/
structure Net (B Ch R : Type) where
  src : Ch → B
  dst : Ch → B
  rank : B → R
  used : Nat → Ch → Bool

/-- Sender and receiver on the same process. -/
def Net.here {B Ch R : Type} [DecidableEq R] (n : Net B Ch R) (c : Ch) : Bool :=
  decide (n.rank (n.src c) = n.rank (n.dst c))

/-- State. `ph b` counts the calls of `StartReceivingMultigrid` of block `b`, `busy b` tells that its
phase has not ended; `snd c`, `rcv c`, `clrS c`, `clrR c` that the loop body for `c` has been run in
this phase (for `rcv`: without setting `bflag` to false), `rdone b` that the receive task has
completed. `flag`, `sflag`, `sreq`, `rreq`, `sbuf`, `rbuf` are those of `bdata_[k]`; `net c` are the
messages under way; `out c` lists what has been unpacked, with the phase of the receiver; `err` is
set by erroneous use of MPI. -/
structure St (B Ch : Type) where
  ph : B → Nat
  busy : B → Bool
  rdone : B → Bool
  snd : Ch → Bool
  rcv : Ch → Bool
  clrS : Ch → Bool
  clrR : Ch → Bool
  flag : Ch → Nat → Status
  sflag : Ch → Nat → Status
  sreq : Ch → Nat → Req
  rreq : Ch → Nat → Req
  sbuf : Ch → Nat → Nat
  rbuf : Ch → Nat → Nat
  net : Ch → List Nat
  out : Ch → List (Nat × Nat)
  err : Bool

/-- After `InitBoundaryData` (bvals_mg.cpp:85-127) and the reset of `bcolor_`
(multigrid_driver.cpp:491); buffers hold anything. -/
structure Initial {B Ch : Type} (s : St B Ch) : Prop where
  ph : ∀ b, s.ph b = 0
  busy : ∀ b, s.busy b = false
  flag : ∀ c k, s.flag c k = .waiting
  sflag : ∀ c k, s.sflag c k = .waiting
  sreq : ∀ c k, s.sreq c k = .off
  rreq : ∀ c k, s.rreq c k = .off
  net : ∀ c, s.net c = []
  out : ∀ c, s.out c = []
  err : s.err = false

section
variable {B Ch R : Type} [DecidableEq B] [DecidableEq Ch] [DecidableEq R] (n : Net B Ch R)
open Function (update)

/-- Change of one entry of a table. -/
def set2 {α : Type} (f : Ch → Nat → α) (c : Ch) (k : Nat) (x : α) : Ch → Nat → α :=
  update f c (update (f c) k x)

/-- `StartReceivingMultigrid` (bvals_mg.cpp:438-480): the colour changes, receives are posted for
messages from other processes. Touches only what belongs to the block. -/
def start (b : B) (s : St B Ch) : St B Ch :=
  let k := (s.ph b + 1) % 3
  { s with
    ph := update s.ph b (s.ph b + 1), busy := update s.busy b true, rdone := update s.rdone b false,
    snd := fun c => if n.src c = b then false else s.snd c,
    rcv := fun c => if n.dst c = b then false else s.rcv c,
    clrS := fun c => if n.src c = b then false else s.clrS c,
    clrR := fun c => if n.dst c = b then false else s.clrR c,
    rreq := fun c => if n.dst c = b ∧ n.here c = false ∧ n.used (s.ph b + 1) c = true then
        update (s.rreq c) k .on else s.rreq c }

/-- Body of the loop of `SendMultigridBoundaryBuffers` (bvals_mg.cpp:725-772). -/
def send (c : Ch) (s : St B Ch) : St B Ch :=
  let p := s.ph (n.src c)
  let k := p % 3
  let s := { s with snd := update s.snd c true }
  if s.sflag c k = .completed then s else
  if n.used p c = false then s else
  let s := { s with sbuf := set2 s.sbuf c k p }
  let s := if n.here c then
      { s with rbuf := set2 s.rbuf c k (s.sbuf c k), flag := set2 s.flag c k .arrived }
    else if s.sreq c k = .off then { s with sreq := set2 s.sreq c k .on }
    else { s with err := true }
  { s with sflag := set2 s.sflag c k .completed }

/-- Body of the loop of `ReceiveMultigridBoundaryBuffers` (bvals_mg.cpp:972-1012). -/
def recv (c : Ch) (s : St B Ch) : St B Ch :=
  let p := s.ph (n.dst c)
  let k := p % 3
  let unpack (s : St B Ch) : St B Ch :=
    { s with out := update s.out c (s.out c ++ [(p, s.rbuf c k)]), flag := set2 s.flag c k .completed,
             rcv := update s.rcv c true }
  if s.flag c k = .completed then { s with rcv := update s.rcv c true } else
  if n.used p c = false then { s with rcv := update s.rcv c true } else
  if s.flag c k = .waiting then
    if n.here c then s
    else if s.rreq c k = .on then s
    else unpack { s with rreq := set2 s.rreq c k .off, flag := set2 s.flag c k .arrived }
  else unpack s

/-- Body of the loop of `ClearBoundaryMultigrid` (bvals_mg.cpp:488-502), receiving side. -/
def clearR (c : Ch) (s : St B Ch) : St B Ch :=
  { s with flag := set2 s.flag c (s.ph (n.dst c) % 3) .waiting, clrR := update s.clrR c true }

/-- The same, sending side, after `MPI_Wait` has returned. -/
def clearS (c : Ch) (s : St B Ch) : St B Ch :=
  let k := s.ph (n.src c) % 3
  { s with sflag := set2 s.sflag c k .waiting, clrS := update s.clrS c true,
           sreq := if n.here c = false ∧ n.used (s.ph (n.src c)) c = true then set2 s.sreq c k .off
             else s.sreq }

/-- A started send leaves its buffer. -/
def transfer (c : Ch) (k : Nat) (s : St B Ch) : St B Ch :=
  { s with net := update s.net c (s.net c ++ [s.sbuf c k]), sreq := set2 s.sreq c k .full }

/-- A message reaches the buffer of a started receive. -/
def deliver (c : Ch) (k m : Nat) (rest : List Nat) (s : St B Ch) : St B Ch :=
  { s with rbuf := set2 s.rbuf c k m, net := update s.net c rest, rreq := set2 s.rreq c k .full }

/-- One step of the system. The order of the tasks of a block is that of the task lists
(`mg_coarser_order_partial` and the like): start; send and receive; clear when both have been done. -/
inductive Step : St B Ch → St B Ch → Prop
  | start {s} (b : B) (h : s.busy b = false) : Step s (start n b s)
  | send {s} (c : Ch) (h1 : s.busy (n.src c) = true) (h2 : s.snd c = false) : Step s (send n c s)
  | recv {s} (c : Ch) (h1 : s.busy (n.dst c) = true) (h2 : s.rdone (n.dst c) = false) :
      Step s (recv n c s)
  | received {s} (b : B) (h1 : s.busy b = true) (h2 : ∀ c, n.dst c = b → s.rcv c = true)
      (h3 : s.rdone b = false) : Step s { s with rdone := update s.rdone b true }
  | clearR {s} (c : Ch) (h1 : s.busy (n.dst c) = true) (h2 : s.rdone (n.dst c) = true)
      (h3 : ∀ c', n.src c' = n.dst c → s.snd c' = true) (h4 : s.clrR c = false) : Step s (clearR n c s)
  | clearS {s} (c : Ch) (h1 : s.busy (n.src c) = true) (h2 : s.rdone (n.src c) = true)
      (h3 : ∀ c', n.src c' = n.src c → s.snd c' = true) (h4 : s.clrS c = false)
      (h5 : s.sreq c (s.ph (n.src c) % 3) ≠ .on) : Step s (clearS n c s)
  | cleared {s} (b : B) (h1 : s.busy b = true) (h2 : ∀ c, n.dst c = b → s.clrR c = true)
      (h3 : ∀ c, n.src c = b → s.clrS c = true) (h4 : s.rdone b = true)
      (h5 : ∀ c, n.src c = b → s.snd c = true) : Step s { s with busy := update s.busy b false }
  | transfer {s} (c : Ch) (k : Nat) (h : s.sreq c k = .on) : Step s (transfer c k s)
  | deliver {s} (c : Ch) (k : Nat) {m : Nat} {rest : List Nat} (h : s.rreq c k = .on)
      (h' : s.net c = m :: rest) : Step s (deliver c k m rest s)

/-- States reached by any interleaving. -/
inductive Reach : St B Ch → Prop
  | init {s} (h : Initial s) : Reach s
  | step {s s'} (h : Reach s) (h' : Step n s s') : Reach s'

end
end Verif.MgExchange
