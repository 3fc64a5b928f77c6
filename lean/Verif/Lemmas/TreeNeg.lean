import Verif.Lemmas.TreeReach
import Verif.Lemmas.TreeRestart

/-! # Internal nodes carry gid -1, on all meshes (poles included) -/
namespace Verif.Tree

def NegX (t : Tree) (S : Nat → Pos → Prop) : Prop :=
  ∀ L p g, InRange L p → t.at L p = .node g → ¬ S L p → g = -1

def NegAdd (m : Mesh) (L : Nat) : Prop :=
  ∀ (p : Pos) (s s' : St) (S : Nat → Pos → Prop), WF m s.tree → NegX s.tree S → Dom m L p →
    addMeshBlock m L p s = some s' → NegX s'.tree S

theorem foldl_neg {m : Mesh} (hm : m.Valid) {L : Nat} (ih : NegAdd m L) (l : List Pos) :
    ∀ (s s' : St) (S : Nat → Pos → Prop), WF m s.tree → NegX s.tree S → (∀ q ∈ l, Dom m L q) →
      l.foldlM (fun s q => addMeshBlock m L q s) s = some s' → NegX s'.tree S := by
  induction l with
  | nil => intro s s' S _ hn _ he; simp at he; subst he; exact hn
  | cons q l ihl =>
    intro s s' S hw hn hd he
    obtain ⟨s1, e1, w1, _⟩ := add_spec hm L q s _ hw (okTrue m _) (hd q (by simp))
    rw [List.foldlM_cons, e1] at he
    exact ihl s1 s' S w1 (ih q s s1 S hw hn (hd q (by simp)) e1) (fun q' h' => hd q' (by simp [h'])) he

/-- Expanding a leaf keeps the tree well-formed. -/
theorem expand_wf {m : Mesh} (hm : m.Valid) {t : Tree} (hw : WF m t) {L : Nat} {p : Pos}
    (hd : Dom m L p) {g : Int} (h0 : t.at L p = .leaf g) : WF m (t.put L p (fresh m g)) := by
  have hr := hd.inRange hm
  have hroot := hw.leaf L p g hd h0
  have A := fun {K : Nat} {q : Pos} (hq : InRange K q) =>
    at_expand (m := m) (t := t) hr h0 (K := K) (q := q) hq
  have hkid : ∀ n, (t.put L p (fresh m g)).at (L + 1) (p.child n) =
      if n.val < m.nleaf then .leaf g else .null := by
    intro n
    rw [A (hr.child n), if_neg (by omega), if_pos ⟨rfl, by simp⟩]; simp
  refine ⟨?_, ?_, ?_⟩
  · intro h
    have hq : InRange 0 (⟨0, 0, 0⟩ : Pos) := by simp [InRange]
    have h1 := A hq
    rw [h, at_null_iff.2 (get_null 0 _)] at h1
    split at h1
    · simp at h1
    · split at h1
      · omega
      · have := h1.symm
        rw [at_null_iff] at this
        exact hw.root (by simpa using this)
  · intro K q g' hq hn n
    by_cases h1 : K = L ∧ q = p
    · obtain ⟨rfl, rfl⟩ := h1
      rw [hkid]
      constructor
      · intro h2
        split at h2
        · rename_i h3; exact Dom.child hm hroot hd h3
        · exact absurd rfl h2
      · intro h2
        rw [if_pos (child_lt_nleaf hm h2)]; simp
    · have hqr := hq.inRange hm
      have h2 : t.at K q = .node g' := by
        rw [A hqr, if_neg h1] at hn
        split at hn
        · split at hn <;> simp at hn
        · exact hn
      rw [← hw.kids K q g' hq h2 n, A (hqr.child n)]
      by_cases h3 : K + 1 = L ∧ q.child n = p
      · rw [if_pos h3]
        have : t.at (K + 1) (q.child n) = .leaf g := by rw [h3.1, h3.2]; exact h0
        simp [this]
      · rw [if_neg h3]
        by_cases h4 : K + 1 = L + 1 ∧ (q.child n).half = p
        · rw [Pos.half_child] at h4
          exact absurd ⟨by omega, h4.2⟩ h1
        · rw [if_neg h4]
  · intro K q g' hq
    rw [A (hq.inRange hm)]
    split
    · simp
    · split
      · rename_i h2; intro _; omega
      · intro h3; exact hw.leaf K q g' hq h3

theorem refineWith_neg {m : Mesh} (hm : m.Valid) {L : Nat} (ih : NegAdd m L) {p : Pos} {s s' : St}
    {S : Nat → Pos → Prop} (hw : WF m s.tree) (hn : NegX s.tree S) (hd : Dom m L p)
    (he : refineWith m (addMeshBlock m L) L p s = some s') : NegX s'.tree S := by
  have hr := hd.inRange hm
  have hsome := he
  unfold refineWith at he
  rcases hg : s.tree.get L p with _ | g | ⟨g, k⟩
  · rw [hg] at he; simp at he
  · rw [hg] at he
    simp only at he
    have h0 := at_leaf_iff.2 hg
    have hroot := hw.leaf L p g hd h0
    obtain ⟨_, _, w', _, gr, hx, _⟩ := refine_spec hm hw (okTrue m _) hd (by rw [h0]; simp)
    have A := fun {K : Nat} {q : Pos} (hq : InRange K q) =>
      at_expand (m := m) (t := s.tree) hr h0 (K := K) (q := q) hq
    rcases hf : (refineNbrs m L p).foldlM (fun s q => addMeshBlock m L q s)
        (⟨s.tree.put L p (.node g (fun n => if n.val < m.nleaf then .leaf g else .null)), s.cnt⟩ : St) with _ | s2
    · rw [hf] at he; simp at he
    · rw [hf] at he
      simp only [Option.some.injEq] at he
      subst he
      have wf1 : WF m (s.tree.put L p (fresh m g)) := expand_wf hm hw hd h0
      have n1 : NegX (s.tree.put L p (fresh m g)) (fun K q => S K q ∨ (K = L ∧ q = p)) := by
        intro K q g' hq hnode hS
        rw [A hq, if_neg (fun h => hS (.inr h))] at hnode
        split at hnode
        · split at hnode <;> simp at hnode
        · exact hn K q g' hq hnode (fun h => hS (.inl h))
      have n2 := foldl_neg hm ih (refineNbrs m L p) _ s2 _ wf1 n1 (refineNbrs_dom hm hroot) hf
      obtain ⟨s3, e3, _, _, g3, _⟩ := foldl_add_spec hm (add_spec hm L) (refineNbrs m L p)
        ⟨s.tree.put L p (fresh m g), s.cnt⟩ _ wf1 (okTrue m _) (refineNbrs_dom hm hroot)
      have e4 : s3 = s2 := by
        have : some s3 = some s2 := by rw [← e3, ← hf]; rfl
        simpa using this
      subst e4
      obtain ⟨gp, hp2⟩ := (g3.le L p hr).1 ⟨g, by
        show (s.tree.put L p (fresh m g)).at L p = _
        rw [A hr]; simp⟩
      intro K q g' hq hnode hS
      simp only at hnode
      rw [at_setGid hr hp2 hq] at hnode
      split at hnode
      · simp at hnode; exact hnode.symm
      · rename_i h; exact n2 K q g' hq hnode (by rintro (h1 | h1); exacts [hS h1, h h1])
  · rw [hg] at he
    simp at he
    subst he; exact hn

theorem add_neg {m : Mesh} (hm : m.Valid) (L : Nat) : NegAdd m L := by
  induction L with
  | zero => intro p s s' S _ hn _ he; simp [addMeshBlock] at he; subst he; exact hn
  | succ L ih =>
    intro p s s' S hw hn hd he
    obtain ⟨s1, e1, w1, _⟩ := add_spec hm L p.half s _ hw (okTrue m _) hd.half
    have n1 := ih _ _ _ S hw hn hd.half e1
    unfold addMeshBlock at he
    rw [e1] at he
    simp only at he
    rcases e2 : refineWith m (addMeshBlock m L) L p.half s1 with _ | s2
    · rw [e2] at he; simp at he
    · rw [e2] at he
      simp only at he
      have n2 := refineWith_neg hm ih w1 n1 hd.half e2
      split at he
      · simp at he
      · simp at he; subst he; exact n2

theorem number_node {m : Mesh} (t : Tree) (c K : Nat) (q : Pos) (g : Int) :
    (t.number m c).1.at K q = .node g ↔ t.at K q = .node g :=
  shape_node (number_shape _ _ _ _) g

theorem Reach.neg {m : Mesh} (hm : m.Valid) {s : St} (h : Reach m s) :
    NegX s.tree (fun _ _ => False) := by
  induction h with
  | start c =>
    intro L p g hp hn _
    exact ((rootGrid_ok hm (fun _ _ => False)) L p g ((rootGrid_wf hm).dom hm hp (by rw [hn]; simp)) hn (by simp)).1
  | add h hd he ih => exact add_neg hm _ _ _ _ _ (h.wf hm) ih hd he
  | refine h hd hex he ih => exact refineWith_neg hm (add_neg hm _) (h.wf hm) ih hd he
  | @derefine s s' L p g k h _ hd hL hn he ih =>
    have hn' := at_node_iff.2 ⟨_, hn⟩
    rcases derefine_cases hm (h.wf hm) hL hd hn' he with h1 | ⟨_, g', _, h1⟩
    · rw [h1]; exact ih
    · rw [h1]
      intro K q g2 hq hnode hS
      exact ih K q g2 hq (collapse_node hm hd (by rw [hn']; simp) g' K q g2 hq hnode).1 hS
  | number c _ ih =>
    intro K q g hq hnode hS
    exact ih K q g hq ((number_node _ _ _ _ _).1 hnode) hS
  | recount c _ ih => exact ih

end Verif.Tree
