import Verif.Model.MgTasks

/-!
What the task lists of the multigrid solver are meant to do, as sequences of operations on a block.
-/
namespace Verif.TaskList

/-- An operation that needs ghost cells, with the exchange that fills them: messages are sent and
received, ghost cells at level boundaries and physical boundaries are made, the work is done, the
buffers are released. -/
def mgPhase (c : MgConfig) (k : MgKind) (work : List MgAct) : List MgAct :=
  [.start k, .send k, .receive k] ++ (if c.multilevel then [.prolongBoundary k] else []) ++
    [.physical] ++ work ++ [.clear k]

/-- One smoothing pass: red cells, then, with red-black smoothing, black cells; `first` is done with
the ghost cells of the first of them. -/
def mgPass (c : MgConfig) (first : List MgAct) : List MgAct :=
  mgPhase c .flux (first ++ [.smoothRed]) ++ (if c.redblack then mgPhase c .flux [.smoothBlack] else [])

/-- `n` smoothing passes. -/
def mgPasses (c : MgConfig) (n : Nat) : List MgAct := (List.replicate n (mgPass c [])).flatten

/-- Going to the coarser level: the right-hand side of the full approximation scheme is computed from
the potential at the start, then `n` smoothing passes, then restriction. -/
def mgCoarserSpec (c : MgConfig) : Nat → List MgAct
  | 0 => mgPhase c .flux ((if c.ffas then [.fasRhs] else []) ++ [.restrict])
  | n + 1 => mgPass c (if c.ffas then [.fasRhs] else []) ++ mgPasses c n ++ mgPhase c .flux [.restrict]

/-- Going to the finer level: prolongation (with ghost cells exchanged, except where they come from
the root grid), `n` smoothing passes, and a last exchange on the finest level. -/
def mgFinerSpec (c : MgConfig) (n : Nat) (first last : Bool) : List MgAct :=
  (if first then [.prolongate] else mgPhase c .prolong [.prolongate]) ++ mgPasses c n ++
    (if last then mgPhase c .flux [] else [])

/-- The prolongation of the full multigrid step. -/
def mgFmgSpec (c : MgConfig) (first : Bool) : List MgAct :=
  if first then [.fmgProlongate] else mgPhase c .prolong [.fmgProlongate]

/-- Tests for messages, which may be sent and received in any order. -/
def MgAct.isSend : MgAct → Bool
  | .send _ => true
  | _ => false
def MgAct.isReceive : MgAct → Bool
  | .receive _ => true
  | _ => false

/-- The operations `done` are those of `spec` up to some point, in that order, except that the
messages of an exchange may be sent and received in either order. -/
def MgFollows (done spec : List MgAct) : Prop :=
  done.filter (fun a => !a.isSend) <+: spec.filter (fun a => !a.isSend) ∧
  done.filter (fun a => !a.isReceive) <+: spec.filter (fun a => !a.isReceive)

end Verif.TaskList
