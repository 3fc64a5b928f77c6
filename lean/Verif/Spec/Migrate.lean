import Verif.Model.Migrate
import Verif.Spec.Tree

/-! # Specification vocabulary for the redistribution of blocks -/
namespace Verif.Tree

/-- Two locations share cells. -/
def Overlap (a b : Nat × Pos) : Prop := Covers a.1 a.2 b.1 b.2 ∨ Covers b.1 b.2 a.1 a.2

/-- Block numbers `0..nb-1` are divided into intervals, one per process. -/
structure Intervals (nranks nb : Nat) (rank start count : Nat → Nat) : Prop where
  lt : ∀ i, i < nb → rank i < nranks
  iff : ∀ r, r < nranks → ∀ i, (start r ≤ i ∧ i < start r + count r) ↔ (i < nb ∧ rank i = r)

/-- Block `q` of the same level lies beyond the face of `p` in direction `d` that is not shared with
the siblings of `p`. -/
def OuterFace (m : Mesh) (L : Nat) (p : Pos) (d : Nat) (q : Pos) : Prop :=
  Shift m L p (if d = 0 then 2 * (p.x1 % 2 : Nat) - 1 else 0) (if d = 1 then 2 * (p.x2 % 2 : Nat) - 1 else 0)
    (if d = 2 then 2 * (p.x3 % 2 : Nat) - 1 else 0) q

end Verif.Tree
