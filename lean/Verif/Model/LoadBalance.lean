/-!
# `Mesh::CalculateLoadBalance` (src/mesh/amr_loadbalance.cpp:71-135)

The arithmetic on costs (C++ `double`) is a parameter, so that statements about the ranges hold for
floating point with any rounding, NaN included; the statement about positive costs is made for an
ordered field.
-/
namespace Verif.LoadBalance

/-- The operations on `double` used by the function. -/
structure CostOps (α : Type) where
  zero : α
  add : α → α → α
  sub : α → α → α
  /-- `x/n` for an integer `n` -/
  divN : α → Nat → α
  /-- `x >= y` -/
  ge : α → α → Bool
  /-- `x == 0.0` -/
  isZero : α → Bool

/-- Local variables of the first loop (amr_loadbalance.cpp:75-105). -/
structure Loop (α : Type) where
  j : Nat
  total : α
  target : α
  my : α
  rlist : Nat → Nat

/-- Assignment to an array element. -/
def upd {β : Type} (f : Nat → β) (i : Nat) (v : β) : Nat → β := fun k => if k = i then v else f k

/-- The loop `for (int i = nb-1; i >= 0; i--)` (amr_loadbalance.cpp:87-109) with `n = i + 1` blocks
left; `none` is the fatal error "There is at least one process which has no MeshBlock". -/
def rankLoop {α : Type} (A : CostOps α) (clist : Nat → α) : (n : Nat) → Loop α → Option (Nat → Nat)
  | 0, s => some s.rlist
  | i + 1, s =>
    if i = s.j then some (fun k => if k ≤ i then k else s.rlist k)
    else if A.isZero s.target then none
    else
      let my := A.add s.my (clist i)
      let rlist := upd s.rlist i s.j
      if A.ge my s.target && decide (0 < s.j) then
        let total := A.sub s.total my
        rankLoop A clist i ⟨s.j - 1, total, A.divN total (s.j - 1 + 1), A.zero, rlist⟩
      else
        rankLoop A clist i { s with my := my, rlist := rlist }

/-- Sum of the costs in the order of the loop (amr_loadbalance.cpp:77-81). -/
def totalCost {α : Type} (A : CostOps α) (clist : Nat → α) : Nat → α
  | 0 => A.zero
  | i + 1 => A.add (totalCost A clist i) (clist i)

/-- The second loop `for (int i = 1; i < nb; i++)` (amr_loadbalance.cpp:110-117): `fuel` iterations
left. -/
def tableLoop (rlist : Nat → Nat) : (fuel i j : Nat) → (slist nlist : Nat → Nat) →
    Nat × (Nat → Nat) × (Nat → Nat)
  | 0, _, j, slist, nlist => (j, slist, nlist)
  | f + 1, i, j, slist, nlist =>
    if rlist i ≠ rlist (i - 1) then
      tableLoop rlist f (i + 1) (j + 1) (upd slist (j + 1) i) (upd nlist j (i - slist j))
    else tableLoop rlist f (i + 1) j slist nlist

/-- The output arrays. -/
structure Out where
  rlist : Nat → Nat
  slist : Nat → Nat
  nlist : Nat → Nat

/-- `CalculateLoadBalance`; `none` is a fatal error. Not modelled: the warning about uneven division
(amr_loadbalance.cpp:120-127). Arrays start with zeros here; the code leaves them uninitialised. -/
def calculateLoadBalance {α : Type} (A : CostOps α) (clist : Nat → α) (nb nranks threads : Nat) :
    Option Out :=
  let total := totalCost A clist nb
  match rankLoop A clist nb ⟨nranks - 1, total, A.divN total nranks, A.zero, fun _ => 0⟩ with
  | none => none
  | some rlist =>
    let (j, slist, nlist) := tableLoop rlist (nb - 1) 1 0 (fun _ => 0) (fun _ => 0)
    let nlist := upd nlist j (nb - slist j)
    if nranks * threads > nb then none else some ⟨rlist, slist, nlist⟩

end Verif.LoadBalance
