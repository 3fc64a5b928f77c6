import Mathlib.Logic.Function.Basic

/-!
The exchange of boundary data of one variable between blocks, over any number of stages
(src/bvals/bvals_var.cpp:208-296, src/bvals/cc/bvals_cc.cpp:718-840, src/task_list/task_list.cpp:66-93).

A channel stands for one entry of one neighbour list, with its send and its receive buffer, its flags
and its persistent requests. The body of each loop over neighbours is one step, so that the loops of
different blocks, threads and processes may interleave in any way, also within a task. The contents
of a buffer are represented by the stage in which the sender packed them.

MPI is modelled by its guarantees: a started send leaves the buffer at some later time, messages
between the same two requests do not overtake each other, a started receive takes the first message
that has arrived, `MPI_Start` of an active request is an error, `MPI_Test` of an inactive request
succeeds at once. Not modelled: the exchange at initialisation (`ReceiveAndSetBoundariesWithWait`),
flux correction, shearing-box and polar communication.
-/
namespace Verif.Exchange

/-- `enum class BoundaryStatus` (src/bvals/bvals_interfaces.hpp:92). -/
inductive Status where
  | waiting | arrived | completed
deriving DecidableEq, Repr

/-- A persistent request: inactive; started; started and complete, not yet tested or waited for. -/
inductive Req where
  | off | on | full
deriving DecidableEq, Repr

/-- Blocks `B`, processes `R`, channels `Ch`: the block a channel belongs to, the channel at the other
end (`snb.gid` and `targetid`), the process of a block. -/
structure Net (B Ch R : Type) where
  own : Ch → B
  peer : Ch → Ch
  rank : B → R

/-- The process of a channel. -/
def Net.proc {B Ch R : Type} (n : Net B Ch R) (c : Ch) : R := n.rank (n.own c)

/-- State. `stage` and `tasks` are those of a process (`tasks`: past the startup loop of
`DoTaskListOneStage`); `start`, `send`, `seen`, `set`, `clear` tell which loop bodies have been run in
this stage; `flag`, `sflag`, `sreq`, `rreq`, `sbuf`, `rbuf` are `bd_var_.flag` etc.; `net c` are the
messages under way to `c`; `out c` lists what has been unpacked from `recv`; `err` is set by
erroneous use of MPI. -/
structure St (Ch R : Type) where
  stage : R → Nat
  tasks : R → Bool
  start : Ch → Bool
  send : Ch → Bool
  seen : Ch → Bool
  set : Ch → Bool
  clear : Ch → Bool
  flag : Ch → Status
  sflag : Ch → Status
  sreq : Ch → Req
  rreq : Ch → Req
  sbuf : Ch → Nat
  rbuf : Ch → Nat
  net : Ch → List Nat
  out : Ch → List Nat
  err : Bool

/-- After `InitBoundaryData` (bvals_var.cpp:56-79) and `SetupPersistentMPI`; buffers hold anything. -/
structure Initial {Ch R : Type} (s : St Ch R) : Prop where
  stage : ∀ r, s.stage r = 0
  tasks : ∀ r, s.tasks r = false
  start : ∀ c, s.start c = false
  send : ∀ c, s.send c = false
  seen : ∀ c, s.seen c = false
  set : ∀ c, s.set c = false
  clear : ∀ c, s.clear c = false
  flag : ∀ c, s.flag c = .waiting
  sflag : ∀ c, s.sflag c = .waiting
  sreq : ∀ c, s.sreq c = .off
  rreq : ∀ c, s.rreq c = .off
  net : ∀ c, s.net c = []
  out : ∀ c, s.out c = []
  err : s.err = false

section
variable {B Ch R : Type} [DecidableEq Ch] [DecidableEq R] (n : Net B Ch R)
open Function (update)

/-- Body of the loop of `StartReceiving` (bvals_cc.cpp:725-728). -/
def startOne (c : Ch) (s : St Ch R) : St Ch R :=
  if n.proc c ≠ n.proc (n.peer c) then
    if s.rreq c = .off then { s with rreq := update s.rreq c .on, start := update s.start c true }
    else { s with err := true }
  else { s with start := update s.start c true }

/-- Body of the loop of `SendBoundaryBuffers` (bvals_var.cpp:215-233) with
`CopyVariableBufferSameProcess` (bvals_var.cpp:108-119). -/
def sendOne (c : Ch) (s : St Ch R) : St Ch R :=
  let s := { s with send := update s.send c true }
  if s.sflag c = .completed then s else
  let s := { s with sbuf := update s.sbuf c (s.stage (n.proc c)) }
  let s := if n.proc c = n.proc (n.peer c) then
      { s with rbuf := update s.rbuf (n.peer c) (s.sbuf c), flag := update s.flag (n.peer c) .arrived }
    else if s.sreq c = .off then { s with sreq := update s.sreq c .on }
    else { s with err := true }
  { s with sflag := update s.sflag c .completed }

/-- Body of the loop of `ReceiveBoundaryBuffers` (bvals_var.cpp:245-268); `seen` is set if the body
does not set `bflag` to false. -/
def testOne (c : Ch) (s : St Ch R) : St Ch R :=
  if s.flag c = .arrived then { s with seen := update s.seen c true }
  else if s.flag c = .waiting then
    if n.proc c = n.proc (n.peer c) then s
    else if s.rreq c = .on then s
    else { s with rreq := update s.rreq c .off, flag := update s.flag c .arrived,
                  seen := update s.seen c true }
  else { s with seen := update s.seen c true }

/-- Body of the loop of `SetBoundaries` (bvals_var.cpp:280-289). -/
def setOne (c : Ch) (s : St Ch R) : St Ch R :=
  { s with out := update s.out c (s.out c ++ [s.rbuf c]), flag := update s.flag c .completed,
           set := update s.set c true }

/-- Body of the loop of `ClearBoundary` (bvals_cc.cpp:801-816), after `MPI_Wait` has returned. -/
def clearOne (c : Ch) (s : St Ch R) : St Ch R :=
  { s with flag := update s.flag c .waiting, sflag := update s.sflag c .waiting,
           sreq := update s.sreq c .off, clear := update s.clear c true }

/-- A started send leaves its buffer. -/
def transfer (c : Ch) (s : St Ch R) : St Ch R :=
  { s with net := update s.net (n.peer c) (s.net (n.peer c) ++ [s.sbuf c]),
           sreq := update s.sreq c .full }

/-- A message reaches the buffer of a started receive. -/
def deliver (c : Ch) (m : Nat) (rest : List Nat) (s : St Ch R) : St Ch R :=
  { s with rbuf := update s.rbuf c m, net := update s.net c rest, rreq := update s.rreq c .full }

/-- End of a stage of process `r`: all tasks of all its blocks are done, the next call of
`DoTaskListOneStage` resets the task states (task_list.cpp:70-75). -/
def nextStage (r : R) (s : St Ch R) : St Ch R :=
  let z : (Ch → Bool) → Ch → Bool := fun f c => if n.proc c = r then false else f c
  { s with stage := update s.stage r (s.stage r + 1), tasks := update s.tasks r false,
           start := z s.start, send := z s.send, seen := z s.seen, set := z s.set, clear := z s.clear }

/-- One step of the system. The order of the tasks of a block: receiving starts in the startup loop,
which ends for all blocks of the process before any task runs; unpacking waits until
`ReceiveBoundaryBuffers` has seen all buffers of the block; clearing waits until all buffers of the
block have been sent and unpacked (that CLEAR_ALLBND comes after all other tasks is shown for the task
lists by `main_clear_last`). -/
inductive Step : St Ch R → St Ch R → Prop
  | start {s} (c : Ch) (h1 : s.tasks (n.proc c) = false) (h2 : s.start c = false) : Step s (startOne n c s)
  | tasks {s} (r : R) (h : ∀ c, n.proc c = r → s.start c = true) (h' : s.tasks r = false) :
      Step s { s with tasks := update s.tasks r true }
  | send {s} (c : Ch) (h1 : s.tasks (n.proc c) = true) (h2 : s.send c = false) : Step s (sendOne n c s)
  | test {s} (c : Ch) (h1 : s.tasks (n.proc c) = true) (h2 : s.seen c = false) : Step s (testOne n c s)
  | set {s} (c : Ch) (h1 : ∀ c', n.own c' = n.own c → s.seen c' = true) (h2 : s.set c = false) :
      Step s (setOne c s)
  | clear {s} (c : Ch) (h1 : ∀ c', n.own c' = n.own c → s.send c' = true ∧ s.set c' = true)
      (h2 : s.clear c = false) (h3 : s.sreq c ≠ .on) : Step s (clearOne c s)
  | next {s} (r : R) (h : ∀ c, n.proc c = r → s.clear c = true) (h' : s.tasks r = true) :
      Step s (nextStage n r s)
  | transfer {s} (c : Ch) (h : s.sreq c = .on) : Step s (transfer n c s)
  | deliver {s} (c : Ch) {m : Nat} {rest : List Nat} (h : s.rreq c = .on) (h' : s.net c = m :: rest) :
      Step s (deliver c m rest s)

/-- States reached by any interleaving. -/
inductive Reach : St Ch R → Prop
  | init {s} (h : Initial s) : Reach s
  | step {s s'} (h : Reach s) (h' : Step n s s') : Reach s'

end
end Verif.Exchange
