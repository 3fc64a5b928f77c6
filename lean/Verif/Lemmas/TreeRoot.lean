import Verif.Lemmas.TreeAdd

/-! # The root grid -/
namespace Verif.Tree

theorem domDim_low {n root L rem x : Nat} (h : L + rem = root) :
    DomDim true n root L x ↔ x * 2 ^ rem < n := by
  unfold DomDim
  subst h
  simp only [if_true]
  rw [Nat.pow_add, Nat.mul_comm (2 ^ L), ← Nat.mul_assoc]
  exact Nat.mul_lt_mul_right (Nat.pow_pos (by omega))

theorem root_cond {m : Mesh} (hm : m.Valid) {L rem : Nat} (h : L + rem = m.rootLevel) (p : Pos)
    (n : Fin 8) :
    (n.val < m.nleaf ∧ (p.child n).x3 * 2 ^ rem < m.nrbx3 ∧ (p.child n).x2 * 2 ^ rem < m.nrbx2
      ∧ (p.child n).x1 * 2 ^ rem < m.nrbx1) ↔ Dom m L (p.child n) := by
  have off : ∀ x : Nat, x * 2 ^ rem < 1 ↔ x = 0 := by
    intro x
    have := Nat.pow_pos (n := rem) (show 0 < 2 by omega)
    constructor
    · intro h1
      have h2 : x * 2 ^ rem = 0 := by omega
      rcases Nat.mul_eq_zero.1 h2 with h3 | h3
      · exact h3
      · omega
    · intro h1; subst h1; omega
  have d2 : DomDim m.f2 m.nrbx2 m.rootLevel L (p.child n).x2 ↔ (p.child n).x2 * 2 ^ rem < m.nrbx2 := by
    rcases hf : m.f2
    · rw [hm.one2 hf, off]; simp [DomDim]
    · exact domDim_low h
  have d3 : DomDim m.f3 m.nrbx3 m.rootLevel L (p.child n).x3 ↔ (p.child n).x3 * 2 ^ rem < m.nrbx3 := by
    rcases hf : m.f3
    · rw [hm.one3 hf, off]; simp [DomDim]
    · exact domDim_low h
  have d1 := domDim_low (n := m.nrbx1) (x := (p.child n).x1) h
  constructor
  · rintro ⟨_, h3, h2, h1⟩; exact ⟨d1.2 h1, d2.2 h2, d3.2 h3⟩
  · intro hd; exact ⟨child_lt_nleaf hm hd, d3.1 hd.d3, d2.1 hd.d2, d1.1 hd.d1⟩

open Classical in
theorem createRootGrid_at {m : Mesh} (hm : m.Valid) :
    ∀ (j rem L : Nat) (p q : Pos), L + rem = m.rootLevel → q.shr j = p → Dom m L p →
      (Dom m (L + j) q → (createRootGrid m rem p).at j q =
        if j < rem then .node (-1) else if j = rem then .leaf (-1) else .null) ∧
      (¬ Dom m (L + j) q → (createRootGrid m rem p).at j q = .null) := by
  intro j
  induction j with
  | zero =>
    intro rem L p q hL hq hd
    simp at hq
    subst hq
    refine ⟨fun _ => ?_, fun h => absurd hd (by simpa using h)⟩
    cases rem <;> simp [createRootGrid, Tree.at, Tree.kind]
  | succ j ih =>
    intro rem L p q hL hq hd
    cases rem with
    | zero =>
      have : (createRootGrid m 0 p).at (j + 1) q = .null := by
        rw [at_null_iff]; simp only [createRootGrid]; exact get_leaf_succ _ _ _
      rw [this]; simp
    | succ rem =>
      have hchild : q.shr j = p.child (q.bitIdx j) := by
        have h1 := Pos.child_half (q.shr j)
        rw [Pos.shr_half, hq, Pos.bitIdx_shr, Nat.add_zero] at h1
        exact h1.symm
      have hat : (createRootGrid m (rem + 1) p).at (j + 1) q =
          (if Dom m (L + 1) (p.child (q.bitIdx j)) then
            (createRootGrid m rem (p.child (q.bitIdx j))).at j q else .null) := by
        have hc := root_cond hm (L := L + 1) (rem := rem) (by omega) p (q.bitIdx j)
        unfold Tree.at
        rw [get_succ_top]
        simp only [createRootGrid, kid_node]
        by_cases hD : Dom m (L + 1) (p.child (q.bitIdx j))
        · rw [if_pos (hc.2 hD), if_pos hD]
        · rw [if_neg (fun h => hD (hc.1 h)), if_neg hD]; simp [Tree.kind]
      rw [hat]
      have hadd : L + (j + 1) = L + 1 + j := by omega
      rw [hadd]
      by_cases hD : Dom m (L + 1) (p.child (q.bitIdx j))
      · have := ih rem (L + 1) _ q (by omega) hchild hD
        rw [if_pos hD]
        refine ⟨fun h => ?_, this.2⟩
        rw [this.1 h]
        simp
      · rw [if_neg hD]
        refine ⟨fun h => absurd ?_ hD, fun _ => rfl⟩
        rw [← hchild]; exact Dom.shr h

/-- What the root grid contains. -/
theorem rootGrid_at {m : Mesh} (hm : m.Valid) {L : Nat} {p : Pos} (hp : InRange L p) :
    (Dom m L p → (rootGrid m).at L p =
      if L < m.rootLevel then .node (-1) else if L = m.rootLevel then .leaf (-1) else .null) ∧
    (¬ Dom m L p → (rootGrid m).at L p = .null) := by
  have h0 : p.shr L = ⟨0, 0, 0⟩ := by
    simp only [Pos.shr, Nat.div_eq_of_lt hp.1, Nat.div_eq_of_lt hp.2.1, Nat.div_eq_of_lt hp.2.2]
  have := createRootGrid_at hm L m.rootLevel 0 ⟨0, 0, 0⟩ p (by omega) h0 (Dom.zero hm)
  simpa [rootGrid] using this

theorem rootGrid_wf {m : Mesh} (hm : m.Valid) : WF m (rootGrid m) := by
  have A := fun {L : Nat} {p : Pos} (h : InRange L p) => rootGrid_at hm h
  refine ⟨?_, ?_, ?_⟩
  · intro h
    have := (A (L := 0) (p := ⟨0, 0, 0⟩) (by simp [InRange])).1 (Dom.zero hm)
    rw [h] at this
    simp only [Tree.at, get_null, Tree.kind] at this
    split at this
    · simp at this
    · split at this <;> simp at this
      omega
  · intro L p g hd hn n
    rw [(A (hd.inRange hm)).1 hd] at hn
    have hL : L < m.rootLevel := by
      split at hn
      · assumption
      · split at hn <;> simp at hn
    have hc := A ((hd.inRange hm).child n)
    constructor
    · intro h
      apply Classical.byContradiction
      intro h'; exact h (hc.2 h')
    · intro h
      rw [hc.1 h]
      split
      · simp
      · rw [if_pos (by omega)]; simp
  · intro L p g hd hl
    rw [(A (hd.inRange hm)).1 hd] at hl
    split at hl
    · simp at hl
    · split at hl
      · omega
      · simp at hl

theorem rootGrid_ok {m : Mesh} (hm : m.Valid) (S : Nat → Pos → Prop) : OkX m (rootGrid m) S := by
  intro L p g hd hn _
  rw [(rootGrid_at hm (hd.inRange hm)).1 hd] at hn
  split at hn
  · simp at hn; exact ⟨hn.symm, fun h => by omega⟩
  · split at hn <;> simp at hn

end Verif.Tree
