/-!
# Task identifiers (bit fields)

Model of `class TaskID` (src/task_list/task_list.hpp:44-68 and
src/task_list/task_id.cpp:13-91).  A `TaskID` is an array of `kNField_ = 2`
64-bit words.
-/
namespace Verif.TaskList

/-- `class TaskID`, data member `std::uint64_t bitfld_[kNField_]` with `kNField_ = 2`
(task_list.hpp:59-60). -/
structure TaskID where
  w0 : BitVec 64
  w1 : BitVec 64
deriving DecidableEq, Repr, Inhabited

namespace TaskID

/-- All bits cleared; `TaskID::Clear` (task_id.cpp:28-31) and the value of `TaskID(0)`. -/
def clear : TaskID := ⟨0, 0⟩

/-- Constructor `TaskID::TaskID(unsigned int id)` (task_id.cpp:13-21).
`id > 128` writes outside `bitfld_` (undefined behaviour): modelled as `none`. -/
def ofId (id : Nat) : Option TaskID :=
  if id > 0 then
    let id' := id - 1
    let n := id' / 64
    let m := id' % 64
    if n = 0 then some ⟨(1 : BitVec 64) <<< m, 0⟩
    else if n = 1 then some ⟨0, (1 : BitVec 64) <<< m⟩
    else none
  else some clear

/-- `TaskID::IsUnfinished` (task_id.cpp:38-43). -/
def isUnfinished (s id : TaskID) : Bool :=
  ((s.w0 &&& id.w0) ||| (s.w1 &&& id.w1)) == 0

/-- `TaskID::CheckDependencies` (task_id.cpp:50-55). -/
def checkDependencies (s dep : TaskID) : Bool :=
  ((s.w0 &&& dep.w0) == dep.w0) && ((s.w1 &&& dep.w1) == dep.w1)

/-- `TaskID::SetFinished` (task_id.cpp:63-66). -/
def setFinished (s id : TaskID) : TaskID :=
  ⟨s.w0 ||| id.w0, s.w1 ||| id.w1⟩

/-- `TaskID::operator==` (task_id.cpp:73-78). -/
def beq (a b : TaskID) : Bool := (a.w0 == b.w0) && (a.w1 == b.w1)

/-- `TaskID::operator|` (task_id.cpp:84-89). -/
def or (a b : TaskID) : TaskID :=
  ⟨a.w0 ||| b.w0, a.w1 ||| b.w1⟩

end TaskID

/-- Specification: the set of task numbers `1..128` a bit field stands for
(number `k` is bit `(k-1) % 64` of word `(k-1) / 64`). -/
def TaskID.Has (s : TaskID) (k : Nat) : Prop :=
  1 ≤ k ∧ k ≤ 128 ∧
    (if (k - 1) / 64 = 0 then s.w0.getLsbD ((k - 1) % 64) else s.w1.getLsbD ((k - 1) % 64)) = true

instance (s : TaskID) (k : Nat) : Decidable (s.Has k) := by
  unfold TaskID.Has; infer_instance

end Verif.TaskList
