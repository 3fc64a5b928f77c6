import Verif.Lemmas.Tree

/-!
# `addMeshBlock` is the top-down walk of the C++ function

`MeshBlockTree::AddMeshBlock` (meshblock_tree.cpp:116-132) is a recursion from the root:
`if (loc_.level == rloc.level) return; if (pleaf_ == nullptr) Refine(nnew);` then step to the child
on the path.  The model `addMeshBlock` recurses on the level of the target.  Both agree.
-/
namespace Verif.Tree

/-- The C++ recursion, called on the ancestor of `(M, p)` that lies `j` levels above it. -/
def walk (m : Mesh) (M : Nat) (p : Pos) : (j : Nat) → St → Option St
  | 0, s => some s
  | j + 1, s =>
    match refine m (M - (j + 1)) ⟨p.x1 / 2 ^ (j + 1), p.x2 / 2 ^ (j + 1), p.x3 / 2 ^ (j + 1)⟩ s with
    | none => none
    | some s2 =>
      match s2.tree.get (M - j) ⟨p.x1 / 2 ^ j, p.x2 / 2 ^ j, p.x3 / 2 ^ j⟩ with
      | .null => none
      | _ => walk m M p j s2

theorem walk_half (m : Mesh) (M : Nat) (p : Pos) (j : Nat) (hj : j ≤ M) (s : St) :
    walk m (M + 1) p (j + 1) s = (walk m M p.half j s).bind (walk m (M + 1) p 1) := by
  induction j generalizing s with
  | zero => simp [walk]
  | succ j ih =>
    rw [walk, walk]
    have e : ∀ k, (⟨p.x1 / 2 ^ (k + 1), p.x2 / 2 ^ (k + 1), p.x3 / 2 ^ (k + 1)⟩ : Pos) =
        ⟨p.half.x1 / 2 ^ k, p.half.x2 / 2 ^ k, p.half.x3 / 2 ^ k⟩ := by
      intro k
      simp [Pos.half, Nat.div_div_eq_div_mul, Nat.pow_succ, Nat.mul_comm]
    rw [show M + 1 - (j + 1 + 1) = M - (j + 1) by omega, e (j + 1),
      show M + 1 - (j + 1) = M - j by omega, e j]
    split
    · simp
    · split
      · simp
      · rw [ih (by omega)]

/-- The walk from the root is `addMeshBlock`. -/
theorem addMeshBlock_eq_walk (m : Mesh) (L : Nat) (p : Pos) (s : St) :
    addMeshBlock m L p s = walk m L p L s := by
  induction L generalizing p s with
  | zero => rfl
  | succ L ih =>
    rw [walk_half m L p L (Nat.le_refl _), ← ih, addMeshBlock]
    rcases addMeshBlock m L p.half s with _ | s1
    · rfl
    · simp only [Option.bind_some, walk]
      rw [show L + 1 - (0 + 1) = L by omega]
      simp only [Nat.zero_add, Nat.pow_one, Nat.sub_zero, Nat.pow_zero, Nat.div_one]
      show (match refineWith m (addMeshBlock m L) L p.half s1 with | none => none | some s2 => _) =
        match refineWith m (addMeshBlock m L) L p.half s1 with | none => none | some s2 => _
      rcases refineWith m (addMeshBlock m L) L p.half s1 with _ | s2
      · rfl
      · rfl

end Verif.Tree
