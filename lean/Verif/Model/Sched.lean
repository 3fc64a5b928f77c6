import Verif.Model.TaskId

/-!
# The task scheduler

Model of `TaskList::DoAllAvailableTasks` and `TaskList::DoTaskListOneStage`
(src/task_list/task_list.cpp:30-96) and of `struct TaskStates`
(src/task_list/task_list.hpp:87-95).

Simplifications: the body of a task is abstract; only its return status is seen, and
the status is chosen by an arbitrary environment (a function of the call number and of
the position of the task in the list).  Load-balancing timers are dropped.  OpenMP
threads are not modelled: the blocks of one process are visited in an order chosen by an
arbitrary schedule.
-/
namespace Verif.TaskList

/-- `enum class TaskStatus` (task_list.hpp:32). -/
inductive TaskStatus where
  | fail | success | next
deriving DecidableEq, Repr

/-- `enum class TaskListStatus` (task_list.hpp:31). -/
inductive ListStatus where
  | running | stuck | complete | nothingToDo
deriving DecidableEq, Repr

/-- `struct Task` (task_list.hpp:75-81), without function pointer and timer flag. -/
structure Task where
  tid : TaskID
  dep : TaskID
deriving DecidableEq, Repr

/-- A task as written in an `AddTask(id, d1|d2|...)` call (time_integrator.cpp:1209-1216):
task number and list of the task numbers combined with `|` (`NONE` is the empty list).
Numbers above 128 would be undefined behaviour in the constructor (`ofId = none`); they are
excluded by hypothesis in all theorems. -/
def mkTask (e : Nat × List Nat) : Task :=
  { tid := (TaskID.ofId e.1).getD TaskID.clear
    dep := e.2.foldl (fun a d => a.or ((TaskID.ofId d).getD TaskID.clear)) TaskID.clear }

/-- `struct TaskStates` (task_list.hpp:87-95). -/
structure TaskStates where
  finished : TaskID
  first : Nat
  left : Int

/-- `TaskStates::Reset` (task_list.hpp:90-94). -/
def TaskStates.reset (ntasks : Nat) : TaskStates := ⟨TaskID.clear, 0, ntasks⟩

/-- One attempt to run the task at a list position, with the status it returned. -/
structure Event where
  idx : Nat
  status : TaskStatus
deriving DecidableEq, Repr

/-- The `for` loop of `DoAllAvailableTasks` (task_list.cpp:35-57) from position `i`, on the
remaining tasks; `ev` collects the attempts made. -/
def scan (env : Nat → TaskStatus) : List Task → (i : Nat) → (skip : Nat) → TaskStates →
    List Event → ListStatus × TaskStates × List Event
  | [], _, _, ts, ev => (.stuck, ts, ev)
  | t :: rest, i, skip, ts, ev =>
    if ts.finished.isUnfinished t.tid then
      if ts.finished.checkDependencies t.dep then
        let ev' := ev ++ [⟨i, env i⟩]
        if env i ≠ .fail then
          let ts' : TaskStates :=
            { finished := ts.finished.setFinished t.tid
              first := if skip = 0 then ts.first + 1 else ts.first
              left := ts.left - 1 }
          if ts'.left = 0 then (.complete, ts', ev')
          else if env i = .next then scan env rest (i + 1) skip ts' ev'
          else (.running, ts', ev')
        else scan env rest (i + 1) (skip + 1) ts ev'
      else scan env rest (i + 1) (skip + 1) ts ev
    else
      scan env rest (i + 1) skip
        (if skip = 0 then { ts with first := ts.first + 1 } else ts) ev

/-- `TaskList::DoAllAvailableTasks` (task_list.cpp:30-60). -/
def doAllAvailableTasks (env : Nat → TaskStatus) (tasks : List Task) (ts : TaskStates) :
    ListStatus × TaskStates × List Event :=
  if ts.left = 0 then (.nothingToDo, ts, [])
  else scan env (tasks.drop ts.first) ts.first 0 ts []

/-- State of one block after a sequence of calls, one environment per call, starting
from `Reset`; second component: all attempts in order; third: the returned statuses. -/
def runBlock (tasks : List Task) : List (Nat → TaskStatus) →
    TaskStates × List Event × List ListStatus
  | [] => (TaskStates.reset tasks.length, [], [])
  | env :: envs =>
    -- `envs` are the earlier calls, `env` the latest one
    let (ts, ev, st) := runBlock tasks envs
    let (s, ts', e) := doAllAvailableTasks env tasks ts
    (ts', ev ++ e, st ++ [s])

/-- One pass of the `for` loop over MeshBlocks inside the `while` of
`DoTaskListOneStage` (task_list.cpp:85-90): every block of the process gets one call, and
every `complete` decrements `nmb_left`. `env b` is the environment of the call on block `b`. -/
def stageSweep (tasks : List Task) (env : Nat → Nat → TaskStatus) :
    List (Nat × TaskStates) → Int → List (Nat × TaskStates) × Int
  | [], left => ([], left)
  | (b, ts) :: rest, left =>
    let (s, ts', _) := doAllAvailableTasks (env b) tasks ts
    let (rest', left') := stageSweep tasks env rest (if s = .complete then left - 1 else left)
    ((b, ts') :: rest', left')

/-- The `while (nmb_left > 0)` loop (task_list.cpp:81-91) run for at most `fuel` sweeps;
returns the block states, the final `nmb_left` and whether the loop has exited. `env n b` is
the environment of sweep `n` on block `b`. -/
def stageLoop (tasks : List Task) (env : Nat → Nat → Nat → TaskStatus) :
    (fuel : Nat) → (n : Nat) → List (Nat × TaskStates) → Int →
    List (Nat × TaskStates) × Int × Bool
  | 0, _, bs, left => (bs, left, decide (left ≤ 0))
  | fuel + 1, n, bs, left =>
    if left > 0 then
      let (bs', left') := stageSweep tasks (env n) bs left
      stageLoop tasks env fuel (n + 1) bs' left'
    else (bs, left, true)

/-- `DoTaskListOneStage` (task_list.cpp:66-93) for a process with `nmb` blocks, observed for
at most `fuel` sweeps. -/
def doTaskListOneStage (tasks : List Task) (nmb : Nat) (env : Nat → Nat → Nat → TaskStatus)
    (fuel : Nat) : List (Nat × TaskStates) × Int × Bool :=
  stageLoop tasks env fuel 0
    ((List.range nmb).map fun b => (b, TaskStates.reset tasks.length)) nmb

/-- All processes together: an infinite run in which call number `n` is made on block
`sched n` with environment `env n`. The state of every block before call `n`. -/
def worldRun (tasks : List Task) (sched : Nat → Nat) (env : Nat → Nat → TaskStatus) :
    Nat → Nat → TaskStates
  | 0, _ => TaskStates.reset tasks.length
  | n + 1, b =>
    if sched n = b then (doAllAvailableTasks (env n) tasks (worldRun tasks sched env n b)).2.1
    else worldRun tasks sched env n b

end Verif.TaskList
