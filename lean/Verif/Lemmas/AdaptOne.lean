import Verif.Props.Adapt

/-! # An adaptation step changes the level of a block by at most one -/
namespace Verif.Tree

/-- The tree with every leaf refined. -/
def expandAll (m : Mesh) : Tree → Tree
  | .null => .null
  | .leaf _ => fresh m (-1)
  | .node _ k => .node (-1) (fun n => expandAll m (k n))

theorem expandAll_get {m : Mesh} (t : Tree) (K : Nat) (q : Pos) (h : t.get K q ≠ .null) :
    (expandAll m t).get K q = expandAll m (t.get K q) := by
  induction K generalizing t with
  | zero => simp
  | succ K ih =>
    rw [get_succ_top] at h ⊢
    rcases t with _ | g | ⟨g, k⟩
    · simp at h
    · simp at h
    · rw [get_succ_top]
      simp only [expandAll, kid_node] at h ⊢
      exact ih _ h

theorem expandAll_at {m : Mesh} (t : Tree) (K : Nat) (q : Pos) (h : t.at K q ≠ .null) :
    (expandAll m t).at K q = .node (-1) := by
  have h' : t.get K q ≠ .null := by rwa [Ne, ← at_null_iff]
  unfold Tree.at
  rw [expandAll_get t K q h']
  cases hh : t.get K q with
  | null => exact absurd hh h'
  | leaf g => simp [expandAll, fresh, Tree.kind]
  | node g k => simp [expandAll, Tree.kind]

theorem expandAll_at_null {m : Mesh} (t : Tree) (K : Nat) (q : Pos) (h : t.at (K + 1) q = .null) :
    ((∃ g, t.at K q.half = .leaf g) ∧ (q.bitIdx 0).val < m.nleaf ∧
      (expandAll m t).at (K + 1) q = .leaf (-1)) ∨
    (¬ ((∃ g, t.at K q.half = .leaf g) ∧ (q.bitIdx 0).val < m.nleaf) ∧
      (expandAll m t).at (K + 1) q = .null) := by
  induction K generalizing t with
  | zero =>
    unfold Tree.at at *
    rw [get_succ_top] at h ⊢
    simp only [get_zero] at h ⊢
    rcases t with _ | g | ⟨g, k⟩
    · right; simp [expandAll, Tree.kind]
    · by_cases hb : (q.bitIdx 0).val < m.nleaf
      · left; simp [expandAll, fresh, Tree.kind, hb]
      · right; simp [expandAll, fresh, Tree.kind, hb]
    · right
      simp only [kid_node, kind_null_iff] at h
      simp [expandAll, Tree.kind, h]
  | succ K ih =>
    unfold Tree.at at *
    rcases t with _ | g | ⟨g, k⟩
    · right; simp [expandAll, Tree.kind]
    · right
      rw [get_leaf_succ]
      constructor
      · rintro ⟨⟨g', h'⟩, -⟩; simp [Tree.kind] at h'
      · simp only [expandAll, fresh]
        rw [get_succ_top]
        simp only [kid_node]
        split <;> simp [get_leaf_succ]
    · rw [get_succ_top] at h ⊢
      simp only [kid_node, expandAll] at h ⊢
      have := ih (k (q.bitIdx (K + 1))) h
      rw [get_succ_top (L := K + 1)]
      simp only [kid_node, Pos.bitIdx_half]
      exact this

theorem step_half {per : Prop} {n x y : Nat} {o : Int} (hx : x < 2 * n) (h : Step per (2 * n) x o y) :
    ∃ o', Step per n (x / 2) o' (y / 2) := by
  obtain ⟨h1, h2, h3, h4⟩ := h
  rcases h4 with h4 | ⟨hp, h4 | h4⟩
  · exact ⟨(y / 2 : Nat) - (x / 2 : Nat), by omega, by omega, by omega, .inl (by omega)⟩
  · exact ⟨-1, by omega, by omega, by omega, .inr ⟨hp, .inl (by omega)⟩⟩
  · exact ⟨1, by omega, by omega, by omega, .inr ⟨hp, .inr (by omega)⟩⟩

theorem shift_half {m : Mesh} {L : Nat} (hL : m.rootLevel ≤ L) {p q : Pos} {o1 o2 o3 : Int}
    (hp : Dom m (L + 1) p) (h : Shift m (L + 1) p o1 o2 o3 q) :
    ∃ c1 c2 c3, Shift m L p.half c1 c2 c3 q.half := by
  obtain ⟨e1, e2, e3⟩ := nmax_succ hL
  rw [dom_iff_ge (by omega)] at hp
  obtain ⟨d1, d2, d3⟩ := hp
  have s1 := h.s1
  rw [e1] at s1 d1
  obtain ⟨c1, t1⟩ := step_half d1 s1
  have key2 : ∃ c2, Step (m.ix2 = .periodic) (m.nmax2 L) (p.x2 / 2) c2 (q.x2 / 2) ∧ (m.f2 = false → c2 = 0) := by
    rcases hf : m.f2
    · have := h.s2
      have ho := h.off2 hf
      have n1 : m.nmax2 (L + 1) = 1 := by simp [Mesh.nmax2, hf]
      have n2 : m.nmax2 L = 1 := by simp [Mesh.nmax2, hf]
      rw [n1] at this d2
      have := this.lt
      exact ⟨0, ⟨by omega, by omega, by omega, .inl (by omega)⟩, fun _ => rfl⟩
    · have s2 := h.s2
      rw [e2 hf] at s2 d2
      obtain ⟨c2, t2⟩ := step_half d2 s2
      exact ⟨c2, t2, by simp⟩
  have key3 : ∃ c3, Step (m.ix3 = .periodic) (m.nmax3 L) (p.x3 / 2) c3 (q.x3 / 2) ∧ (m.f3 = false → c3 = 0) := by
    rcases hf : m.f3
    · have := h.s3
      have ho := h.off3 hf
      have n1 : m.nmax3 (L + 1) = 1 := by simp [Mesh.nmax3, hf]
      have n2 : m.nmax3 L = 1 := by simp [Mesh.nmax3, hf]
      rw [n1] at this d3
      have := this.lt
      exact ⟨0, ⟨by omega, by omega, by omega, .inl (by omega)⟩, fun _ => rfl⟩
    · have s3 := h.s3
      rw [e3 hf] at s3 d3
      obtain ⟨c3, t3⟩ := step_half d3 s3
      exact ⟨c3, t3, by simp⟩
  obtain ⟨c2, t2, z2⟩ := key2
  obtain ⟨c3, t3, z3⟩ := key3
  exact ⟨c1, c2, c3, z2, z3, t1, t2, t3⟩

/-- The same-level neighbours of a node of a balanced tree exist in the tree refined once. -/
theorem expandAll_inv {m : Mesh} (hm : m.Valid) (hnp : NoPolar m) {t : Tree} (hi : Inv m t) :
    Inv m (expandAll m t) := by
  have hw := hi.wf
  have node_iff : ∀ K q, (∃ g, (expandAll m t).at K q = .node g) → t.at K q ≠ .null := by
    rintro K q ⟨g, hg⟩ h0
    rcases K with _ | K
    · rw [at_null_iff] at h0
      exact hw.root (by simpa using h0)
    · rcases expandAll_at_null (m := m) t K q h0 with h | h
      · rw [h.2.2] at hg; simp at hg
      · rw [h.2] at hg; simp at hg
  refine ⟨⟨?_, ?_, ?_⟩, ?_⟩
  · cases h : t with
    | null => exact absurd h hw.root
    | leaf g => simp [expandAll, fresh]
    | node g k => simp [expandAll]
  · intro L p g hd hn n
    have hex := node_iff L p ⟨g, hn⟩
    rcases kind_cases (t.at L p) with h0 | ⟨g0, h0⟩ | ⟨g0, h0⟩
    · exact absurd h0 hex
    · have hL := hw.leaf L p g0 hd h0
      have hnull : t.at (L + 1) (p.child n) = .null := by
        by_contra hc
        obtain ⟨g1, h1⟩ := parent_node hc
        rw [Pos.half_child, h0] at h1; simp at h1
      have := expandAll_at_null (m := m) t L (p.child n) hnull
      rw [Pos.half_child, Pos.bitIdx_child] at this
      rcases this with ⟨-, h2, h3⟩ | ⟨h2, h3⟩
      · rw [h3]; simp only [ne_eq, reduceCtorEq, not_false_eq_true, true_iff]
        exact hd.child hm hL h2
      · rw [h3]; simp only [ne_eq, not_true_eq_false, false_iff]
        intro hd'
        exact h2 ⟨⟨g0, h0⟩, child_lt_nleaf hm hd'⟩
    · rw [← hw.kids L p g0 hd h0 n]
      constructor
      · intro h1 h2
        have := expandAll_at_null (m := m) t L (p.child n) h2
        rw [Pos.half_child, h0] at this
        rcases this with h | h
        · simp at h
        · exact h1 h.2
      · intro h1; rw [expandAll_at t _ _ h1]; simp
  · intro L p g hd hl
    have hnull : t.at L p = .null := by
      by_contra hc
      rw [expandAll_at t _ _ hc] at hl; simp at hl
    rcases L with _ | L
    · rw [at_null_iff] at hnull
      exact absurd (by simpa using hnull) hw.root
    · rcases expandAll_at_null (m := m) t L p hnull with h | h
      · obtain ⟨⟨g0, h0⟩, -⟩ := h
        have := hw.leaf L p.half g0 hd.half h0
        omega
      · rw [h.2] at hl; simp at hl
  · intro L p g hd hn _
    have hex := node_iff L p ⟨g, hn⟩
    rw [expandAll_at t _ _ hex] at hn
    simp only [Kind.node.injEq] at hn
    refine ⟨hn.symm, fun hL q hq => ?_⟩
    have hqd := refineNbrs_dom hm hL q hq
    rcases Nat.lt_or_ge m.rootLevel L with hlt | hge
    · obtain ⟨L, rfl⟩ : ∃ K, L = K + 1 := ⟨L - 1, by omega⟩
      obtain ⟨g1, h1⟩ := parent_node hex
      obtain ⟨o1, o2, o3, h0, hs⟩ := (mem_refineNbrs hm hnp (by omega) hd).1 hq
      obtain ⟨c1, c2, c3, hc⟩ := shift_half (by omega) hd hs
      have hpar : t.at L q.half ≠ .null := by
        by_cases hz : c1 = 0 ∧ c2 = 0 ∧ c3 = 0
        · obtain ⟨rfl, rfl, rfl⟩ := hz
          have hx : q.half = p.half := by
            have hd1 := (dom_iff_ge (by omega : m.rootLevel ≤ L)).1 hd.half
            have a1 := hc.s1; have a2 := hc.s2; have a3 := hc.s3
            obtain ⟨b1, b2, b3⟩ := hd1
            apply Pos.ext'
            · rcases a1.eq with h | ⟨_, h | h⟩
              · omega
              · have := a1.lt; omega
              · omega
            · rcases a2.eq with h | ⟨_, h | h⟩
              · omega
              · have := a2.lt; omega
              · omega
            · rcases a3.eq with h | ⟨_, h | h⟩
              · omega
              · have := a3.lt; omega
              · omega
          rw [hx, h1]; simp
        · exact (hi.ok L p.half g1 hd.half h1 (by simp)).2 (by omega) _
            ((mem_refineNbrs hm hnp (by omega) hd.half).2 ⟨c1, c2, c3, hz, hc⟩)
      by_cases hex2 : t.at (L + 1) q = .null
      · rcases expandAll_at_null (m := m) t L q hex2 with h | h
        · rw [h.2.2]; simp
        · exfalso
          apply h.1
          refine ⟨?_, hqd.idx_lt hm⟩
          rcases kind_cases (t.at L q.half) with h3 | h3 | ⟨g3, h3⟩
          · exact absurd h3 hpar
          · exact h3
          · exact absurd hex2 (hw.exists_child hqd h3)
      · rw [expandAll_at t _ _ hex2]; simp
    · have := hw.low hqd hge
      rw [expandAll_at t _ _ this]; simp

/-- After refining blocks of a balanced tree, internal nodes are locations that existed before. -/
theorem refined_once {m : Mesh} (hm : m.Valid) (hnp : NoPolar m) {t t' : Tree} (hi : Inv m t)
    {l : List (Nat × Pos)} (hl : ∀ b ∈ l, t.at b.1 b.2 ≠ .null)
    (hle : Least m t t' (fun T => ∀ b ∈ l, ∃ g, T.at b.1 b.2 = .node g))
    {K : Nat} {q : Pos} {g : Int} (hq : InRange K q) (hn : t'.at K q = .node g) : t.at K q ≠ .null := by
  have hT := expandAll_inv hm hnp hi
  have h := hle (expandAll m t) hT.wf hT.ok (by
    intro K q hq
    constructor
    · rintro ⟨g, hg⟩; exact ⟨-1, expandAll_at t _ _ (by rw [hg]; simp)⟩
    · intro hx; rw [expandAll_at t _ _ hx]; simp) (fun b hb => ⟨-1, expandAll_at t _ _ (hl b hb)⟩)
  obtain ⟨g', h'⟩ := (h K q hq).1 ⟨g, hn⟩
  intro h0
  rcases K with _ | K
  · rw [at_null_iff] at h0
    exact hi.wf.root (by simpa using h0)
  · rcases expandAll_at_null (m := m) t K q h0 with h | h
    · rw [h.2.2] at h'; simp at h'
    · rw [h.2] at h'; simp at h'

end Verif.Tree
