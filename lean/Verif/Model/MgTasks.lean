import Verif.Model.Sched

/-!
# The task lists of the multigrid solver

Models of the four functions of `MultigridTaskList` that build task lists
(src/task_list/mg_task_list.cpp:283-569); the sequences of `AddMultigridTask` are copied from the
source by a script. `MultigridTaskList::DoAllAvailableTasks` and `DoTaskListOneStage`
(mg_task_list.cpp:31-87) are, apart from types, the functions of the main task list
(`Verif.Model.Sched`). The parameter `ngh`, which the functions ignore, is dropped.
-/
namespace Verif.TaskList

/-! Task numbers, `namespace MultigridTaskNames` (src/task_list/mg_task_list.hpp:89-140), without
the prefix `MG_`. -/
namespace M
abbrev STARTRECV0 : Nat := 1
abbrev STARTRECV1R : Nat := 2
abbrev STARTRECV1B : Nat := 3
abbrev STARTRECV2R : Nat := 4
abbrev STARTRECV2B : Nat := 5
abbrev STARTRECVP : Nat := 6
abbrev STARTRECVL : Nat := 7
abbrev CLEARBND0 : Nat := 8
abbrev CLEARBND1R : Nat := 9
abbrev CLEARBND1B : Nat := 10
abbrev CLEARBND2R : Nat := 11
abbrev CLEARBND2B : Nat := 12
abbrev CLEARBNDP : Nat := 13
abbrev CLEARBNDL : Nat := 14
abbrev SENDBND0 : Nat := 15
abbrev SENDBND1R : Nat := 16
abbrev SENDBND1B : Nat := 17
abbrev SENDBND2R : Nat := 18
abbrev SENDBND2B : Nat := 19
abbrev SENDBNDP : Nat := 20
abbrev SENDBNDL : Nat := 21
abbrev RECVBND0 : Nat := 22
abbrev RECVBND1R : Nat := 23
abbrev RECVBND1B : Nat := 24
abbrev RECVBND2R : Nat := 25
abbrev RECVBND2B : Nat := 26
abbrev RECVBNDP : Nat := 27
abbrev RECVBNDL : Nat := 28
abbrev PRLNGBNDP : Nat := 29
abbrev PRLNGFC0 : Nat := 30
abbrev PRLNGFC1R : Nat := 31
abbrev PRLNGFC1B : Nat := 32
abbrev PRLNGFC2R : Nat := 33
abbrev PRLNGFC2B : Nat := 34
abbrev PRLNGFCL : Nat := 35
abbrev SMOOTH1R : Nat := 36
abbrev SMOOTH1B : Nat := 37
abbrev SMOOTH2R : Nat := 38
abbrev SMOOTH2B : Nat := 39
abbrev PHYSBND0 : Nat := 40
abbrev PHYSBND1R : Nat := 41
abbrev PHYSBND1B : Nat := 42
abbrev PHYSBND2R : Nat := 43
abbrev PHYSBND2B : Nat := 44
abbrev PHYSBNDL : Nat := 45
abbrev RESTRICT : Nat := 46
abbrev PROLONG : Nat := 47
abbrev FMGPROLONG : Nat := 48
abbrev CALCFASRHS : Nat := 49
end M
open M

/-- What the lists depend on: `nreflevel_ > 0`, `redblack_`, `ffas_` of the driver. -/
structure MgConfig where
  multilevel : Bool
  redblack : Bool
  ffas : Bool
deriving DecidableEq, Repr

/-- `MultigridTaskList::SetMGTaskListToFiner` (mg_task_list.cpp:287-383). -/
def mgToFiner (c : MgConfig) (nsmooth flag : Nat) : List (Nat × List Nat) :=
  (if flag = 1 then
    [(PROLONG, [])]
  else
    [(STARTRECVP, []), (SENDBNDP, [STARTRECVP]), (RECVBNDP, [STARTRECVP])] ++
    (if c.multilevel then
      [(PRLNGBNDP, [SENDBNDP, RECVBNDP]), (PHYSBND0, [PRLNGBNDP])]
    else
      [(PHYSBND0, [SENDBNDP, RECVBNDP])]) ++
    [(PROLONG, [PHYSBND0]), (CLEARBNDP, [PROLONG])]) ++
  (if 1 ≤ nsmooth then
    (if flag = 1 then
      [(STARTRECV1R, [PROLONG])]
    else
      [(STARTRECV1R, [CLEARBNDP])]) ++
    [(SENDBND1R, [STARTRECV1R]), (RECVBND1R, [STARTRECV1R])] ++
    (if c.multilevel then
      [(PRLNGFC1R, [SENDBND1R, RECVBND1R]), (PHYSBND1R, [PRLNGFC1R])]
    else
      [(PHYSBND1R, [SENDBND1R, RECVBND1R])]) ++
    [(SMOOTH1R, [PHYSBND1R])] ++
    (if c.redblack then
      [(CLEARBND1R, [SMOOTH1R]), (STARTRECV1B, [CLEARBND1R]), (SENDBND1B, [STARTRECV1B]),
       (RECVBND1B, [STARTRECV1B])] ++
      (if c.multilevel then
        [(PRLNGFC1B, [SENDBND1B, RECVBND1B]), (PHYSBND1B, [PRLNGFC1B])]
      else
        [(PHYSBND1B, [SENDBND1B, RECVBND1B])]) ++
      [(SMOOTH1B, [PHYSBND1B]), (CLEARBND1B, [SMOOTH1B])]
    else
      [(CLEARBND1B, [SMOOTH1R])]) else []) ++
  (if nsmooth = 2 then
    [(STARTRECV2R, [CLEARBND1B]), (SENDBND2R, [STARTRECV2R]), (RECVBND2R, [STARTRECV2R])] ++
    (if c.multilevel then
      [(PRLNGFC2R, [SENDBND2R, RECVBND2R]), (PHYSBND2R, [PRLNGFC2R])]
    else
      [(PHYSBND2R, [SENDBND2R, RECVBND2R])]) ++
    [(SMOOTH2R, [PHYSBND2R])] ++
    (if c.redblack then
      [(CLEARBND2R, [SMOOTH2R]), (STARTRECV2B, [CLEARBND2R]), (SENDBND2B, [STARTRECV2B]),
       (RECVBND2B, [STARTRECV2B])] ++
      (if c.multilevel then
        [(PRLNGFC2B, [SENDBND2B, RECVBND2B]), (PHYSBND2B, [PRLNGFC2B])]
      else
        [(PHYSBND2B, [SENDBND2B, RECVBND2B])]) ++
      [(SMOOTH2B, [PHYSBND2B]), (CLEARBND2B, [SMOOTH2B])]
    else
      [(CLEARBND2B, [SMOOTH2R])]) else []) ++
  (if flag = 2 then
    (if nsmooth = 0 then
      [(STARTRECVL, [CLEARBND0])]
    else
      (if nsmooth = 1 then
        [(STARTRECVL, [CLEARBND1B])]
      else
        [(STARTRECVL, [CLEARBND2B])])) ++
    [(SENDBNDL, [STARTRECVL]), (RECVBNDL, [STARTRECVL])] ++
    (if c.multilevel then
      [(PRLNGFCL, [SENDBNDL, RECVBNDL]), (PHYSBNDL, [PRLNGFCL])]
    else
      [(PHYSBNDL, [SENDBNDL, RECVBNDL])]) ++
    [(CLEARBNDL, [PHYSBNDL])] else [])

/-- `MultigridTaskList::SetMGTaskListToCoarser` (mg_task_list.cpp:390-526). -/
def mgToCoarser (c : MgConfig) (nsmooth : Nat) : List (Nat × List Nat) :=
  (if nsmooth = 0 then
    [(STARTRECV0, []), (SENDBND0, [STARTRECV0]), (RECVBND0, [STARTRECV0])] ++
    (if c.multilevel then
      [(PRLNGFC0, [SENDBND0, RECVBND0]), (PHYSBND0, [PRLNGFC0])]
    else
      [(PHYSBND0, [SENDBND0, RECVBND0])]) ++
    (if c.ffas then
      [(CALCFASRHS, [PHYSBND0]), (RESTRICT, [CALCFASRHS])]
    else
      [(RESTRICT, [PHYSBND0])]) ++
    [(CLEARBND0, [RESTRICT])]
  else
    (if nsmooth = 1 then
      [(STARTRECV1R, []), (SENDBND1R, [STARTRECV1R]), (RECVBND1R, [STARTRECV1R])] ++
      (if c.multilevel then
        [(PRLNGFC1R, [SENDBND1R, RECVBND1R]), (PHYSBND1R, [PRLNGFC1R])]
      else
        [(PHYSBND1R, [SENDBND1R, RECVBND1R])]) ++
      (if c.ffas then
        [(CALCFASRHS, [PHYSBND1R]), (SMOOTH1R, [CALCFASRHS])]
      else
        [(SMOOTH1R, [PHYSBND1R])]) ++
      (if c.redblack then
        [(CLEARBND1R, [SMOOTH1R]), (STARTRECV1B, [CLEARBND1R]), (SENDBND1B, [STARTRECV1B]),
         (RECVBND1B, [STARTRECV1B])] ++
        (if c.multilevel then
          [(PRLNGFC1B, [SENDBND1B, RECVBND1B]), (PHYSBND1B, [PRLNGFC1B])]
        else
          [(PHYSBND1B, [SENDBND1B, RECVBND1B])]) ++
        [(SMOOTH1B, [PHYSBND1B]), (CLEARBND1B, [SMOOTH1B])]
      else
        [(CLEARBND1B, [SMOOTH1R])]) ++
      [(STARTRECV0, [CLEARBND1B]), (SENDBND0, [STARTRECV0]), (RECVBND0, [STARTRECV0])] ++
      (if c.multilevel then
        [(PRLNGFC0, [SENDBND0, RECVBND0]), (PHYSBND0, [PRLNGFC0])]
      else
        [(PHYSBND0, [SENDBND0, RECVBND0])]) ++
      [(RESTRICT, [PHYSBND0]), (CLEARBND0, [RESTRICT])]
    else
      (if nsmooth = 2 then
        [(STARTRECV1R, []), (SENDBND1R, [STARTRECV1R]), (RECVBND1R, [STARTRECV1R])] ++
        (if c.multilevel then
          [(PRLNGFC1R, [SENDBND1R, RECVBND1R]), (PHYSBND1R, [PRLNGFC1R])]
        else
          [(PHYSBND1R, [SENDBND1R, RECVBND1R])]) ++
        (if c.ffas then
          [(CALCFASRHS, [PHYSBND1R]), (SMOOTH1R, [CALCFASRHS])]
        else
          [(SMOOTH1R, [PHYSBND1R])]) ++
        (if c.redblack then
          [(CLEARBND1R, [SMOOTH1R]), (STARTRECV1B, [CLEARBND1R]), (SENDBND1B, [STARTRECV1B]),
           (RECVBND1B, [STARTRECV1B])] ++
          (if c.multilevel then
            [(PRLNGFC1B, [SENDBND1B, RECVBND1B]), (PHYSBND1B, [PRLNGFC1B])]
          else
            [(PHYSBND1B, [SENDBND1B, RECVBND1B])]) ++
          [(SMOOTH1B, [PHYSBND1B]), (CLEARBND1B, [SMOOTH1B])]
        else
          [(CLEARBND1B, [SMOOTH1R])]) ++
        [(STARTRECV2R, [CLEARBND1B]), (SENDBND2R, [STARTRECV2R]), (RECVBND2R, [STARTRECV2R])] ++
        (if c.multilevel then
          [(PRLNGFC2R, [SENDBND2R, RECVBND2R]), (PHYSBND2R, [PRLNGFC2R])]
        else
          [(PHYSBND2R, [SENDBND2R, RECVBND2R])]) ++
        [(SMOOTH2R, [PHYSBND2R])] ++
        (if c.redblack then
          [(CLEARBND2R, [SMOOTH2R]), (STARTRECV2B, [CLEARBND2R]), (SENDBND2B, [STARTRECV2B]),
           (RECVBND2B, [STARTRECV2B])] ++
          (if c.multilevel then
            [(PRLNGFC2B, [SENDBND2B, RECVBND2B]), (PHYSBND2B, [PRLNGFC2B])]
          else
            [(PHYSBND2B, [SENDBND2B, RECVBND2B])]) ++
          [(SMOOTH2B, [PHYSBND2B]), (CLEARBND2B, [SMOOTH2B])]
        else
          [(CLEARBND2B, [SMOOTH2R])]) ++
        [(STARTRECV0, [CLEARBND2B]), (SENDBND0, [STARTRECV0]), (RECVBND0, [STARTRECV0])] ++
        (if c.multilevel then
          [(PRLNGFC0, [SENDBND0, RECVBND0]), (PHYSBND0, [PRLNGFC0])]
        else
          [(PHYSBND0, [SENDBND0, RECVBND0])]) ++
        [(RESTRICT, [PHYSBND0]), (CLEARBND0, [RESTRICT])] else [])))

/-- `MultigridTaskList::SetMGTaskListFMGProlongate` (mg_task_list.cpp:533-550). -/
def mgFmgProlongate (c : MgConfig) (flag : Nat) : List (Nat × List Nat) :=
  (if flag = 1 then
    [(FMGPROLONG, [])]
  else
    [(STARTRECVP, []), (SENDBNDP, [STARTRECVP]), (RECVBNDP, [STARTRECVP])] ++
    (if c.multilevel then
      [(PRLNGBNDP, [SENDBNDP, RECVBNDP]), (PHYSBND0, [PRLNGBNDP])]
    else
      [(PHYSBND0, [RECVBNDP, SENDBNDP])]) ++
    [(FMGPROLONG, [PHYSBND0]), (CLEARBNDP, [FMGPROLONG])])

/-- `MultigridTaskList::SetMGTaskListBoundaryCommunication` (mg_task_list.cpp:557-569). -/
def mgBoundary (c : MgConfig) : List (Nat × List Nat) :=
  [(STARTRECVL, []), (SENDBNDL, [STARTRECVL]), (RECVBNDL, [STARTRECVL])] ++
  (if c.multilevel then
    [(PRLNGFCL, [SENDBNDL, RECVBNDL]), (PHYSBNDL, [PRLNGFCL])]
  else
    [(PHYSBNDL, [RECVBNDL, SENDBNDL])]) ++
  [(CLEARBNDL, [PHYSBNDL])]

/-- The two kinds of boundary exchange: flux-conserving (`btypef`, faces only where levels differ) and
for prolongation (`btype`). -/
inductive MgKind where
  | flux | prolong
deriving DecidableEq, Repr

/-- The functions tasks point to. -/
inductive MgAct where
  | start (k : MgKind) | send (k : MgKind) | receive (k : MgKind) | prolongBoundary (k : MgKind)
  | clear (k : MgKind) | physical | smoothRed | smoothBlack | restrict | prolongate | fmgProlongate
  | fasRhs
deriving DecidableEq, Repr

/-- The choice of the function in `AddMultigridTask` (mg_task_list.cpp:93-180) with the functions
(mg_task_list.cpp:182-280); `none` is the fatal error. -/
def mgAction (id : Nat) : Option MgAct :=
  if id = STARTRECV0 ∨ id = STARTRECV1R ∨ id = STARTRECV1B ∨ id = STARTRECV2R ∨ id = STARTRECV2B ∨
    id = STARTRECVL then some (.start .flux)
  else if id = STARTRECVP then some (.start .prolong)
  else if id = CLEARBNDP then some (.clear .prolong)
  else if id = CLEARBND0 ∨ id = CLEARBND1R ∨ id = CLEARBND1B ∨ id = CLEARBND2R ∨ id = CLEARBND2B ∨
    id = CLEARBNDL then some (.clear .flux)
  else if id = SENDBND0 ∨ id = SENDBND1R ∨ id = SENDBND1B ∨ id = SENDBND2R ∨ id = SENDBND2B ∨
    id = SENDBNDL then some (.send .flux)
  else if id = SENDBNDP then some (.send .prolong)
  else if id = RECVBND0 ∨ id = RECVBND1R ∨ id = RECVBND1B ∨ id = RECVBND2R ∨ id = RECVBND2B ∨
    id = RECVBNDL then some (.receive .flux)
  else if id = RECVBNDP then some (.receive .prolong)
  else if id = PRLNGBNDP then some (.prolongBoundary .prolong)
  else if id = PRLNGFC0 ∨ id = PRLNGFC1R ∨ id = PRLNGFC1B ∨ id = PRLNGFC2R ∨ id = PRLNGFC2B ∨
    id = PRLNGFCL then some (.prolongBoundary .flux)
  else if id = SMOOTH1R ∨ id = SMOOTH2R then some .smoothRed
  else if id = SMOOTH1B ∨ id = SMOOTH2B then some .smoothBlack
  else if id = PHYSBND0 ∨ id = PHYSBND1R ∨ id = PHYSBND1B ∨ id = PHYSBND2R ∨ id = PHYSBND2B ∨
    id = PHYSBNDL then some .physical
  else if id = RESTRICT then some .restrict
  else if id = PROLONG then some .prolongate
  else if id = FMGPROLONG then some .fmgProlongate
  else if id = CALCFASRHS then some .fasRhs
  else none

end Verif.TaskList
