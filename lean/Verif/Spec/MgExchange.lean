import Verif.Model.MgExchange

/-! Specification of the exchange of the multigrid solver. -/
namespace Verif.MgExchange
section
variable {B Ch R : Type} [DecidableEq R]

/-- In phase `p` the sender of `c` cannot be more than two phases ahead of the receiver, because of
what it has waited for: it is the receiver itself, or it has waited for a message of the receiver one
or two phases ago, or one phase ago for a message of a block that had waited for a message of the
receiver the phase before. -/
def CloseAt (n : Net B Ch R) (c : Ch) (p : Nat) : Prop :=
  n.src c = n.dst c ∨
  (∃ c1, n.dst c1 = n.src c ∧ n.src c1 = n.dst c ∧
    (n.used (p - 1) c1 = true ∨ n.used (p - 2) c1 = true)) ∨
  (∃ c1 c2, n.dst c1 = n.src c ∧ n.used (p - 1) c1 = true ∧ n.dst c2 = n.src c1 ∧
    n.src c2 = n.dst c ∧ n.used (p - 2) c2 = true)

/-- Every message within a process is of this kind. -/
def Close (n : Net B Ch R) : Prop :=
  ∀ c p, 3 ≤ p → n.here c = true → n.used p c = true → CloseAt n c p

/-- The phases in which the receiver of `c` has been through its loop for `c`: all before the present
one, and the present one if it has. -/
def St.through (n : Net B Ch R) (s : St B Ch) (c : Ch) : Nat :=
  if s.busy (n.dst c) = true ∧ s.rcv c = false then s.ph (n.dst c) - 1 else s.ph (n.dst c)

/-- The phases `1, …, N` in which `c` carries a message. -/
def phases (n : Net B Ch R) (c : Ch) (N : Nat) : List Nat :=
  (List.range' 1 N).filter (fun p => n.used p c)

end
end Verif.MgExchange
