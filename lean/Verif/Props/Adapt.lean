import Verif.Lemmas.Adapt
import Mathlib.Data.List.Sort

/-!
# C18: one adaptation step (`Mesh::UpdateMeshBlockTree`)
-/
namespace Verif.Tree

/-- The blocks of all processes, in rank order, are the blocks of the mesh (`loclist`, see C13), and
derefinement is requested only by blocks finer than the root grid (`refine_flag_spec`, C17). -/
structure Flags (m : Mesh) (t : Tree) (parts : List (List FBlock)) : Prop where
  locs : parts.flatten.map (fun b => (b.1, b.2.1)) = (meshBlocks m t).map (fun b => (b.1, b.2.1))
  root : ∀ L p, (L, p, -1) ∈ parts.flatten → m.rootLevel < L

/-- What `std::sort(clderef, &(clderef[ctnd-1]), Greater)` does: everything but the last element is
sorted, finer levels first. -/
def StdSort (sort : List (Nat × Pos) → List (Nat × Pos)) : Prop :=
  ∀ l, ∃ pre last, sort l = pre ++ last ∧ pre.Perm l.dropLast ∧ last = l.getLast?.toList ∧
    pre.Pairwise (fun a b => b.1 ≤ a.1)

/-- All children of `(L, p)` are blocks that ask for derefinement. -/
def FlaggedGroup (m : Mesh) (parts : List (List FBlock)) (L : Nat) (p : Pos) : Prop :=
  ∀ n : Fin 8, n.val < m.nleaf → (L + 1, p.child n, -1) ∈ parts.flatten

theorem StdSort.perm {sort : List (Nat × Pos) → List (Nat × Pos)} (h : StdSort sort) (l) :
    (sort l).Perm l := by
  obtain ⟨pre, last, h1, h2, h3, _⟩ := h l
  rw [h1, h3]
  refine (h2.append_right _).trans ?_
  rcases l.eq_nil_or_concat with rfl | ⟨l', a, rfl⟩
  · simp
  · simp

section
variable {m : Mesh} {t : Tree} {parts : List (List FBlock)}

theorem Flags.unique (hf : Flags m t parts) {L : Nat} {p : Pos} {f f' : Int}
    (h : (L, p, f) ∈ parts.flatten) (h' : (L, p, f') ∈ parts.flatten) : f = f' := by
  have hs := (blocks_sorted (m := m) t 0 ⟨0, 0, 0⟩)
  have hs1 : (parts.flatten.map (fun b => (b.1, b.2.1))).Nodup := by
    rw [hf.locs]
    unfold List.Nodup
    rw [List.pairwise_map]
    refine hs.imp ?_
    intro a b hab he
    simp only [Prod.mk.injEq] at he
    rw [he.1, he.2] at hab
    exact zBefore_irrefl hab
  have := List.inj_on_of_nodup_map hs1 h h' rfl
  simpa using this

theorem Flags.block (hf : Flags m t parts) {L : Nat} {p : Pos} {f : Int}
    (h : (L, p, f) ∈ parts.flatten) : ∃ g, (L, p, g) ∈ meshBlocks m t := by
  have : (L, p) ∈ parts.flatten.map (fun b => (b.1, b.2.1)) := List.mem_map.2 ⟨_, h, rfl⟩
  rw [hf.locs] at this
  obtain ⟨b, hb, he⟩ := List.mem_map.1 this
  obtain ⟨b1, b2, b3⟩ := b
  simp at he
  obtain ⟨rfl, rfl⟩ := he
  exact ⟨b3, hb⟩

theorem Flags.sorted (hf : Flags m t parts) (flag : Int) :
    (gathered flag parts).Pairwise (fun a b => ZBefore a.1 a.2 b.1 b.2) := by
  rw [gathered_eq, List.pairwise_map]
  apply List.Pairwise.filter
  have h2 : (parts.flatten.map (fun b => (b.1, b.2.1))).Pairwise (fun a b => ZBefore a.1 a.2 b.1 b.2) := by
    rw [hf.locs, List.pairwise_map]
    exact blocks_sorted t 0 ⟨0, 0, 0⟩
  rwa [List.pairwise_map] at h2

theorem Flags.nodup (hf : Flags m t parts) (flag : Int) : (gathered flag parts).Nodup := by
  refine (hf.sorted flag).imp ?_
  intro a b h he
  subst he
  exact zBefore_irrefl h

theorem Flags.mem_groups (hf : Flags m t parts) {L : Nat} {p : Pos} :
    (L, p) ∈ groups m (gathered (-1) parts) ↔ FlaggedGroup m parts L p := by
  constructor
  · intro h n hn
    have := groups_sound (m := m) (l := gathered (-1) parts) (by
      intro b hb
      have := hf.root b.1 b.2 (mem_gathered.1 hb)
      omega) h n hn
    exact mem_gathered.1 this
  · intro h
    exact groups_complete (hf.sorted _) (fun n hn => mem_gathered.2 (h n hn))

theorem Flags.grp (hm : m.Valid) (hw : WF m t) (hf : Flags m t parts) {b : Nat × Pos}
    (h : b ∈ groups m (gathered (-1) parts)) : Grp m t b := by
  obtain ⟨L, p⟩ := b
  have hg := hf.mem_groups.1 h
  have h0 := hg 0 (nleaf_pos m)
  have hr := hf.root _ _ h0
  have hk : ∀ n : Fin 8, n.val < m.nleaf → Dom m (L + 1) (p.child n) ∧ ∃ g, t.at (L + 1) (p.child n) = .leaf g := by
    intro n hn
    obtain ⟨g, hb⟩ := hf.block (hg n hn)
    have := (block_iff hm hw).1 hb
    exact ⟨this.1, g, this.2⟩
  obtain ⟨hd, g, hl⟩ := hk 0 (nleaf_pos m)
  refine ⟨by simp only; omega, ?_, ?_, fun n hn => (hk n hn).2⟩
  · have := hd.half; simpa using this
  · have := parent_node (t := t) (L := L) (p := p.child 0) (by rw [hl]; simp)
    simpa using this

end

/-- **C18** (collection of sibling groups) For every distribution of the blocks over processes and
every flag assignment, the collected list `clderef` consists exactly of the locations all of whose
children are blocks asking for derefinement, each once, and it fits the array allocated for it
(`tnderef/nleaf` entries). -/
theorem groups_exact {m : Mesh} (_hm : m.Valid) {t : Tree} {parts : List (List FBlock)}
    (hf : Flags m t parts) :
    (∀ L p, (L, p) ∈ groups m (gathered (-1) parts) ↔ FlaggedGroup m parts L p) ∧
      (groups m (gathered (-1) parts)).Nodup ∧
      (groups m (gathered (-1) parts)).length ≤ (gathered (-1) parts).length / m.nleaf := by
  refine ⟨fun L p => hf.mem_groups, groups_nodup ?_ (hf.nodup _), ?_⟩
  · intro b hb
    have := hf.root b.1 b.2 (mem_gathered.1 hb)
    omega
  · rw [Nat.le_div_iff_mul_le (nleaf_pos m)]
    exact groups_length m _

/-- **C18** The new tree depends only on the flags of the blocks, not on their distribution over
processes. -/
theorem adapt_independent_of_ranks {m : Mesh} {sort : List (Nat × Pos) → List (Nat × Pos)}
    {parts parts' : List (List FBlock)} {t : Tree} (h : parts.flatten = parts'.flatten) :
    updateTree m sort parts t = updateTree m sort parts' t := by
  unfold updateTree
  simp only [gathered_eq, h]

/-- The part of the result that depends on the tree only. -/
structure Adapted (m : Mesh) (t : Tree) (parts : List (List FBlock)) (t' : Tree) (nnew ndel : Int) : Prop where
  /-- the new tree is a legal mesh tree -/
  reach : ∀ c, Reach m ⟨t', c⟩
  /-- every block that asked for refinement is refined -/
  refined : ∀ L p, (L, p, 1) ∈ parts.flatten → ∃ g k, t'.get L p = .node g k
  /-- a refined location becomes a block only if all its children were blocks asking for it -/
  merged : ∀ L p g k g', t.get L p = .node g k → (L, p, g') ∈ meshBlocks m t' → FlaggedGroup m parts L p
  /-- a block vanishes only by such a merger -/
  vanished : ∀ L p g, (L, p, g) ∈ meshBlocks m t → t'.get L p = .null →
    (L, p, -1) ∈ parts.flatten ∧ 0 < L ∧ FlaggedGroup m parts (L - 1) p.half ∧
      ∃ g', (L - 1, p.half, g') ∈ meshBlocks m t'
  /-- the counters are the numbers of created and destroyed blocks -/
  count : ((meshBlocks m t').length : Int) = (meshBlocks m t).length + nnew - ndel

theorem adapted_of_folds {m : Mesh} (hm : m.Valid) (hns : NoShear m) {t : Tree} {c : Int}
    (hr : Reach m ⟨t, c⟩) {parts : List (List FBlock)} (hf : Flags m t parts) {cl : List (Nat × Pos)}
    (hcl : ∀ b ∈ cl, b ∈ groups m (gathered (-1) parts)) (hnd : cl.Nodup) {s1 s2 : St}
    (h1 : (gathered 1 parts).foldlM (fun s b => refine m b.1 b.2 s) (⟨t, 0⟩ : St) = some s1)
    (h2 : cl.foldlM (fun s b => derefine m b.1 b.2 s) (⟨s1.tree, 0⟩ : St) = some s2) :
    Adapted m t parts s2.tree s1.cnt s2.cnt := by
  have hw : WF m t := hr.wf hm
  have hr0 : Reach m ⟨t, 0⟩ := .recount 0 hr
  obtain ⟨s1', e1, r1, le1, c1, n1, -⟩ := refines_spec hm (gathered 1 parts) hr0 (by
    intro b hb
    obtain ⟨g, hb⟩ := hf.block (mem_gathered.1 hb)
    have := (block_iff hm hw).1 hb
    exact ⟨this.1, by rw [this.2]; simp⟩)
  rw [h1] at e1; simp at e1; subst e1
  have hg : ∀ b ∈ cl, Grp m t b := fun b hb => hf.grp hm hw (hcl b hb)
  have hnode : ∀ b ∈ cl, ∃ g, s1.tree.at b.1 b.2 = .node g := fun b hb =>
    (le1 _ _ ((hg b hb).dom.inRange hm)).1 (hg b hb).node
  obtain ⟨r2, c2, d2⟩ := derefs_spec hm hns hw cl hg hnd (.recount 0 r1) hnode h2
  refine ⟨fun c => .recount c r2, ?_, ?_, ?_, ?_⟩
  · intro L p hb
    obtain ⟨g0, hb0⟩ := hf.block hb
    obtain ⟨hd, hl⟩ := (block_iff hm hw).1 hb0
    obtain ⟨g, hn⟩ := n1 (L, p) (mem_gathered.2 hb)
    simp only at hn
    rcases d2 L p (hd.inRange hm) with h | ⟨b, hbc, h3, h4, h5⟩
    · simp only at h
      rw [hn] at h
      obtain ⟨k, hk⟩ := at_node_iff.1 h
      exact ⟨g, k, hk⟩
    · exfalso
      rcases (hg b hbc).under hm hw (hd.inRange hm) (by rw [hl]; simp) h3 h4 with ⟨h6, h7⟩ | ⟨h6, n, hn', h7⟩
      · obtain ⟨g', h8⟩ := (hg b hbc).node
        rw [← h6, ← h7, hl] at h8; simp at h8
      · have := hf.mem_groups.1 (hcl b hbc) n hn'
        rw [← h6, ← h7] at this
        have := hf.unique hb this
        omega
  · intro L p g k g' hn hb
    obtain ⟨hd, hl⟩ := (block_iff hm (r2.wf hm)).1 hb
    have hn' := at_node_iff.2 ⟨k, hn⟩
    obtain ⟨g1, hn1⟩ := (le1 L p (hd.inRange hm)).1 ⟨g, hn'⟩
    rcases d2 L p (hd.inRange hm) with h | ⟨b, hbc, h3, h4, h5⟩
    · simp only at h
      rw [hl, hn1] at h; simp at h
    · rcases (hg b hbc).under hm hw (hd.inRange hm) (by rw [hn']; simp) h3 h4 with ⟨h6, h7⟩ | ⟨h6, n, hn2, h7⟩
      · have : b = (L, p) := Prod.ext h6.symm h7.symm
        exact hf.mem_groups.1 (this ▸ hcl b hbc)
      · obtain ⟨g2, h8⟩ := (hg b hbc).kids n hn2
        rw [← h6, ← h7, hn'] at h8; simp at h8
  · intro L p g hb hnull
    obtain ⟨hd, hl⟩ := (block_iff hm hw).1 hb
    have hex1 := (le1 L p (hd.inRange hm)).2 (by simp only; rw [hl]; simp)
    rcases d2 L p (hd.inRange hm) with h | ⟨b, hbc, h3, h4, g5, h5⟩
    · simp only at h
      rw [at_null_iff.2 hnull] at h
      exact absurd h.symm hex1
    · rcases (hg b hbc).under hm hw (hd.inRange hm) (by rw [hl]; simp) h3 h4 with ⟨h6, h7⟩ | ⟨h6, n, hn2, h7⟩
      · obtain ⟨g', h8⟩ := (hg b hbc).node
        rw [← h6, ← h7, hl] at h8; simp at h8
      · have hG := hf.mem_groups.1 (hcl b hbc)
        have hfl := hG n hn2
        rw [← h6, ← h7] at hfl
        refine ⟨hfl, by omega, ?_, g5, ?_⟩
        · rw [h7, Pos.half_child, h6]; exact hG
        · rw [h7, Pos.half_child, h6, block_iff hm (r2.wf hm)]
          exact ⟨(hg b hbc).dom, h5⟩
  · simp only at c1 c2
    unfold meshBlocks
    rw [← count_eq_length, ← count_eq_length]
    omega

/-- **C18** One adaptation step, for every mesh (polar boundaries allowed), every flag assignment
and every distribution over processes: if it does not crash, blocks asking for refinement are
refined, blocks disappear only by merging complete groups of siblings that all asked for it, and
the counters are exact. -/
theorem adapt_step_safe {m : Mesh} (hm : m.Valid) (hns : NoShear m) {t : Tree} {c : Int}
    (hr : Reach m ⟨t, c⟩) {parts : List (List FBlock)} (hf : Flags m t parts)
    {sort : List (Nat × Pos) → List (Nat × Pos)} (hs : StdSort sort) {t' : Tree} {nnew ndel : Int}
    (he : updateTree m sort parts t = some (t', nnew, ndel)) : Adapted m t parts t' nnew ndel := by
  have hnd := (groups_exact hm hf).2.1
  unfold updateTree at he
  simp only at he
  split at he
  · rename_i h0
    simp at he
    obtain ⟨rfl, rfl, rfl⟩ := he
    have e0 : gathered 1 parts = [] := List.length_eq_zero_iff.1 h0.1
    exact adapted_of_folds hm hns hr hf (cl := []) (by simp) (by simp) (s1 := ⟨t, 0⟩) (s2 := ⟨t, 0⟩)
      (by rw [e0]; rfl) rfl
  · split at he
    · simp at he
    · rename_i s1 h1
      split at he
      · simp at he
      · rename_i s2 h2
        simp at he
        obtain ⟨rfl, rfl, rfl⟩ := he
        refine adapted_of_folds hm hns hr hf ?_ ?_ h1 h2
        · intro b hb
          split at hb
          · exact (hs.perm _).subset hb
          · simp at hb
        · split
          · exact (hs.perm _).nodup_iff.2 hnd
          · simp

/-- **C18** Without poles the step never crashes.  Moreover the refinement part is minimal: in every
legal mesh in which all refined locations of `t` and all blocks asking for refinement are refined,
everything refined in the new tree is refined, too. -/
theorem adapt_step_total {m : Mesh} (hm : m.Valid) (hnp : NoPolar m) (hns : NoShear m) {t : Tree} {c : Int}
    (hr : Reach m ⟨t, c⟩) {parts : List (List FBlock)} (hf : Flags m t parts)
    {sort : List (Nat × Pos) → List (Nat × Pos)} (hs : StdSort sort) :
    ∃ t' nnew ndel, updateTree m sort parts t = some (t', nnew, ndel) ∧
      ∀ T : St, Reach m T →
        (∀ K q g k, InRange K q → t.get K q = .node g k → ∃ g' k', T.tree.get K q = .node g' k') →
        (∀ K q, (K, q, 1) ∈ parts.flatten → ∃ g' k', T.tree.get K q = .node g' k') →
        ∀ K q g k, InRange K q → t'.get K q = .node g k → ∃ g' k', T.tree.get K q = .node g' k' := by
  have hw : WF m t := hr.wf hm
  have hnd := (groups_exact hm hf).2.1
  unfold updateTree
  simp only
  split
  · exact ⟨t, 0, 0, rfl, fun T _ h _ => h⟩
  · obtain ⟨s1, e1, r1, le1, c1, n1, l1⟩ := refines_spec hm (gathered 1 parts) (.recount 0 hr) (by
      intro b hb
      obtain ⟨g, hb⟩ := hf.block (mem_gathered.1 hb)
      have := (block_iff hm hw).1 hb
      exact ⟨this.1, by rw [this.2]; simp⟩)
    rw [e1]
    generalize hcl : (if (gathered (-1) parts).length ≥ m.nleaf then sort (groups m (gathered (-1) parts)) else []) = cl
    have hcl' : ∀ b ∈ cl, b ∈ groups m (gathered (-1) parts) := by
      intro b hb
      rw [← hcl] at hb
      split at hb
      · exact (hs.perm _).subset hb
      · simp at hb
    have hnd' : cl.Nodup := by
      rw [← hcl]
      split
      · exact (hs.perm _).nodup_iff.2 hnd
      · simp
    have hg : ∀ b ∈ cl, Grp m t b := fun b hb => hf.grp hm hw (hcl' b hb)
    have hnode : ∀ b ∈ cl, ∃ g, s1.tree.at b.1 b.2 = .node g := fun b hb =>
      (le1 _ _ ((hg b hb).dom.inRange hm)).1 (hg b hb).node
    obtain ⟨s2, e2⟩ := derefs_total hm hnp hns hw cl hg hnd' (.recount 0 r1) hnode
    obtain ⟨r2, c2, d2⟩ := derefs_spec hm hns hw cl hg hnd' (.recount 0 r1) hnode e2
    simp only [e2]
    refine ⟨_, _, _, rfl, ?_⟩
    intro T hT hle hP
    have hwT := hT.wf hm
    have hle' : Le t T.tree := by
      intro K q hq
      have h1 : ∀ K q, InRange K q → (∃ g, t.at K q = .node g) → ∃ g, T.tree.at K q = .node g := by
        rintro K q hq ⟨g, hg⟩
        obtain ⟨k, hk⟩ := at_node_iff.1 hg
        obtain ⟨g', k', h'⟩ := hle K q g k hq hk
        exact ⟨g', at_node_iff.2 ⟨k', h'⟩⟩
      refine ⟨h1 K q hq, ?_⟩
      intro hex
      rcases K with _ | K
      · rw [Ne, at_null_iff]; simpa using hwT.root
      · obtain ⟨g, hg⟩ := parent_node hex
        obtain ⟨g', hg'⟩ := h1 K q.half hq.half ⟨g, hg⟩
        exact hwT.exists_child (hw.dom hm hq hex) hg'
    have := l1 T.tree hwT (hT.inv hm hnp).ok hle' (by
      intro b hb
      obtain ⟨g', k', h'⟩ := hP _ _ (mem_gathered.1 hb)
      exact ⟨g', at_node_iff.2 ⟨k', h'⟩⟩)
    intro K q g k hq hk
    have hk' := at_node_iff.2 ⟨k, hk⟩
    have hs1 : ∃ g, s1.tree.at K q = .node g := by
      rcases d2 K q hq with h | ⟨b, hb, h3, h4, g5, h5⟩
      · exact ⟨g, by simpa [hk'] using h.symm⟩
      · exfalso
        rcases Nat.lt_or_ge b.1 K with h6 | h6
        · obtain ⟨j, rfl⟩ : ∃ j, K = b.1 + j := ⟨K - b.1, by omega⟩
          obtain ⟨g6, h7⟩ := node_anc (t := s2.tree) (L := b.1) (j := j) (p := q) (by rw [hk']; simp) (by omega)
          rw [show b.1 + j - b.1 = j by omega] at h4
          rw [h4, h5] at h7; simp at h7
        · have : K = b.1 := by omega
          subst this
          simp at h4
          rw [h4, h5] at hk'; simp at hk'
    obtain ⟨g', h'⟩ := (this K q hq).1 hs1
    obtain ⟨k', h'⟩ := at_node_iff.1 h'
    exact ⟨g', k', h'⟩

/-- **C18** Every complete group asking for derefinement is merged, unless it touches a location one
level finer that is refined after the step, or one that is itself such a group.  The last exception
is a defect of the code: `std::sort` leaves out the last group, so the groups are not handled from
fine to coarse (see `derefine_missed`). -/
theorem derefine_complete_partial {m : Mesh} (hm : m.Valid) (hnp : NoPolar m) (hns : NoShear m) {t : Tree} {c : Int}
    (hr : Reach m ⟨t, c⟩) {parts : List (List FBlock)} (hf : Flags m t parts)
    {sort : List (Nat × Pos) → List (Nat × Pos)} (hs : StdSort sort) {t' : Tree} {nnew ndel : Int}
    (he : updateTree m sort parts t = some (t', nnew, ndel)) {L : Nat} {p : Pos} (hG : FlaggedGroup m parts L p) :
    (∃ g, (L, p, g) ∈ meshBlocks m t') ∨ ∃ r, InRange (L + 1) r ∧ Touch m L p (L + 1) r ∧
      ((∃ g k, t'.get (L + 1) r = .node g k) ∨
        FlaggedGroup m parts (L + 1) r ∧ (groups m (gathered (-1) parts)).getLast? = some (L + 1, r)) := by
  have hw : WF m t := hr.wf hm
  have hnd := (groups_exact hm hf).2.1
  have hin := hf.mem_groups.2 hG
  have hlen : m.nleaf ≤ (gathered (-1) parts).length := by
    have := groups_length m (gathered (-1) parts)
    have h1 : 0 < (groups m (gathered (-1) parts)).length := List.length_pos_of_mem hin
    calc m.nleaf = 1 * m.nleaf := by omega
      _ ≤ _ := Nat.mul_le_mul_right _ h1
      _ ≤ _ := this
  unfold updateTree at he
  simp only at he
  rw [if_neg (by omega), if_pos hlen] at he
  obtain ⟨s1, e1, r1, le1, c1, n1, l1⟩ := refines_spec hm (gathered 1 parts) (.recount 0 hr) (by
    intro b hb
    obtain ⟨g, hb⟩ := hf.block (mem_gathered.1 hb)
    have := (block_iff hm hw).1 hb
    exact ⟨this.1, by rw [this.2]; simp⟩)
  rw [e1] at he
  have hperm := hs.perm (groups m (gathered (-1) parts))
  generalize hcl : sort (groups m (gathered (-1) parts)) = cl at he hperm
  simp only at he
  split at he
  · simp at he
  rename_i s2 e2
  simp at he
  obtain ⟨rfl, rfl, rfl⟩ := he
  have hnd' := hperm.nodup_iff.2 hnd
  have hg : ∀ b ∈ cl, Grp m t b := fun b hb => hf.grp hm hw (hperm.subset hb)
  have hnode : ∀ b ∈ cl, ∃ g, s1.tree.at b.1 b.2 = .node g := fun b hb =>
    (le1 _ _ ((hg b hb).dom.inRange hm)).1 (hg b hb).node
  obtain ⟨r2, c2, d2⟩ := derefs_spec hm hns hw cl hg hnd' (.recount 0 r1) hnode e2
  have hmem : (L, p) ∈ cl := hperm.symm.subset hin
  obtain ⟨pre, post, hsplit⟩ := List.append_of_mem hmem
  rcases derefs_complete hm hnp hns hw cl hg hnd' (.recount 0 r1) hnode e2 pre post hsplit with h | ⟨r, h1, h2, h3⟩
  · left
    obtain ⟨g, h⟩ := h
    exact ⟨g, (block_iff hm (r2.wf hm)).2 ⟨(hg _ hmem).dom, h⟩⟩
  · right
    refine ⟨r, h1, h2, ?_⟩
    rcases h3 with ⟨g, h3⟩ | h3
    · left
      obtain ⟨k, hk⟩ := at_node_iff.1 h3
      exact ⟨g, k, hk⟩
    · right
      have hrmem : (L + 1, r) ∈ cl := by rw [hsplit]; simp [h3]
      refine ⟨hf.mem_groups.1 (hperm.subset hrmem), ?_⟩
      obtain ⟨a, last, s1', s2', s3, s4⟩ := hs (groups m (gathered (-1) parts))
      rw [hcl] at s1'
      rcases hlast : (groups m (gathered (-1) parts)).getLast? with _ | z
      · rw [hlast] at s3
        simp at s3
        subst s3
        rw [List.append_nil] at s1'
        subst s1'
        rw [hsplit, List.pairwise_append] at s4
        have := (List.pairwise_cons.1 s4.2.1).1 _ h3
        simp at this
      · rw [hlast] at s3
        simp at s3
        subst s3
        by_cases hz : z = (L + 1, r)
        · rw [hz]
        · exfalso
          -- both lie in the sorted part
          have hpl : (L, p) :: post ≠ [] := by simp
          have hne : post ≠ [] := by rintro rfl; simp at h3
          obtain ⟨post', z', rfl⟩ := List.eq_nil_or_concat post |>.resolve_left hne
          have e3 : a ++ [z] = (pre ++ (L, p) :: post') ++ [z'] := by
            rw [← s1', hsplit]; simp
          have e4 := List.append_inj' e3 (by simp)
          have ez : z = z' := by simpa using e4.2
          rw [e4.1, List.pairwise_append] at s4
          have hz' : (L + 1, r) ∈ post' := by
            simp at h3
            rcases h3 with h3 | h3
            · exact h3
            · exact absurd (by rw [ez]; exact h3.symm) hz
          have := (List.pairwise_cons.1 s4.2.1).1 _ hz'
          simp at this

/-! ## Examples -/

/-- A sort of the described kind (insertion sort of all but the last). -/
def exSort (l : List (Nat × Pos)) : List (Nat × Pos) :=
  l.dropLast.insertionSort (fun a b => b.1 ≤ a.1) ++ l.getLast?.toList

theorem exSort_std : StdSort exSort := by
  intro l
  have : Std.Total (fun (a b : Nat × Pos) => b.1 ≤ a.1) := ⟨fun a b => by omega⟩
  have : IsTrans (Nat × Pos) (fun (a b : Nat × Pos) => b.1 ≤ a.1) := ⟨fun a b c h1 h2 => by omega⟩
  exact ⟨_, _, rfl, List.perm_insertionSort _ _, rfl, List.pairwise_insertionSort _ _⟩

/-- One dimension, two root blocks, both refined, the third quarter refined twice. -/
def exMesh1 : Mesh := ⟨2, 1, 1, 1, false, false, .outflow, .outflow, .outflow, .outflow, .outflow, .outflow⟩

theorem exMesh1_valid : exMesh1.Valid := by constructor <;> decide
theorem exMesh1_noPolar : NoPolar exMesh1 := by unfold NoPolar; decide
theorem exMesh1_noShear : NoShear exMesh1 := by unfold NoShear; decide

def exAdd : Option St :=
  (addMeshBlock exMesh1 2 ⟨0, 0, 0⟩ ⟨rootGrid exMesh1, 0⟩).bind (addMeshBlock exMesh1 3 ⟨4, 0, 0⟩)

/-- The flags, on three processes (one of them without blocks). -/
def exParts : List (List FBlock) :=
  [[(2, ⟨0, 0, 0⟩, -1), (2, ⟨1, 0, 0⟩, -1), (3, ⟨4, 0, 0⟩, -1)], [], [(3, ⟨5, 0, 0⟩, -1), (2, ⟨3, 0, 0⟩, 0)]]

theorem exAdd_facts : (exAdd.map (fun s => (meshBlocks exMesh1 s.tree).map (fun b => (b.1, b.2.1)))) =
      some (exParts.flatten.map (fun b => (b.1, b.2.1))) ∧
    ((exAdd.bind (fun s => updateTree exMesh1 exSort exParts s.tree)).map
      (fun r => ((meshBlocks exMesh1 r.1).map (fun b => (b.1, b.2.1)), r.2))) =
      some ([(2, ⟨0, 0, 0⟩), (2, ⟨1, 0, 0⟩), (2, ⟨2, 0, 0⟩), (2, ⟨3, 0, 0⟩)], 0, 1) := by
  decide +kernel

theorem exAdd_reach : ∃ s, exAdd = some s ∧ Reach exMesh1 s ∧ Flags exMesh1 s.tree exParts := by
  have h := exAdd_facts.1
  rcases h1 : addMeshBlock exMesh1 2 ⟨0, 0, 0⟩ ⟨rootGrid exMesh1, 0⟩ with _ | s1
  · simp [exAdd, h1] at h
  · rcases h2 : exAdd with _ | s2
    · rw [h2] at h; simp at h
    · refine ⟨s2, rfl, ?_, ?_, ?_⟩
      · have h3 : addMeshBlock exMesh1 3 ⟨4, 0, 0⟩ s1 = some s2 := by
          unfold exAdd at h2; rw [h1] at h2; exact h2
        exact .add (.add (.start 0) (by constructor <;> unfold DomDim <;> decide) h1)
          (by constructor <;> unfold DomDim <;> decide) h3
      · rw [h2] at h
        simp only [Option.map_some, Option.some.injEq] at h
        exact h.symm
      · intro L p hb
        have : ∀ b ∈ exParts.flatten, b.2.2 = -1 → exMesh1.rootLevel < b.1 := by decide
        exact this _ hb rfl

/-- **C18** (defect) The left half is a complete group asking for derefinement, and after the step it
touches no finer refined location, yet it is not merged: the group in the third quarter, which is
finer, is the last of the list, is left out of the sort and is merged only afterwards. -/
theorem derefine_missed : ∃ (m : Mesh) (t : Tree) (parts : List (List FBlock)) (sort : List (Nat × Pos) → List (Nat × Pos))
    (t' : Tree) (nnew ndel : Int) (L : Nat) (p : Pos),
    m.Valid ∧ NoPolar m ∧ NoShear m ∧ Reach m ⟨t, 0⟩ ∧ Flags m t parts ∧ StdSort sort ∧
    updateTree m sort parts t = some (t', nnew, ndel) ∧ FlaggedGroup m parts L p ∧
    (¬ ∃ g, (L, p, g) ∈ meshBlocks m t') ∧
    ∀ r g k, InRange (L + 1) r → t'.get (L + 1) r ≠ .node g k := by
  obtain ⟨s, hs, hr, hf⟩ := exAdd_reach
  have hfacts := exAdd_facts.2
  rw [hs] at hfacts
  simp only [Option.bind_some] at hfacts
  rcases hu : updateTree exMesh1 exSort exParts s.tree with _ | ⟨t', nnew, ndel⟩
  · rw [hu] at hfacts; simp at hfacts
  · rw [hu] at hfacts
    simp only [Option.map_some, Option.some.injEq, Prod.mk.injEq] at hfacts
    have ha := adapt_step_safe exMesh1_valid exMesh1_noShear hr hf exSort_std hu
    have hw := (ha.reach 0).wf exMesh1_valid
    have hblk : ∀ b ∈ meshBlocks exMesh1 t', b.1 = 2 := by
      intro b hb
      have : (b.1, b.2.1) ∈ (meshBlocks exMesh1 t').map (fun b => (b.1, b.2.1)) := List.mem_map.2 ⟨b, hb, rfl⟩
      rw [hfacts.1] at this
      simp at this
      omega
    refine ⟨exMesh1, s.tree, exParts, exSort, t', nnew, ndel, 1, ⟨0, 0, 0⟩, exMesh1_valid, exMesh1_noPolar,
      exMesh1_noShear, .recount 0 hr, hf, exSort_std, hu, ?_, ?_, ?_⟩
    · intro n hn
      have : ∀ n : Fin 8, n.val < exMesh1.nleaf → (1 + 1, (⟨0, 0, 0⟩ : Pos).child n, (-1 : Int)) ∈ exParts.flatten := by
        decide
      exact this n hn
    · rintro ⟨g, hb⟩
      have := hblk _ hb
      simp at this
    · intro r g k hr2 hk
      have hk' := at_node_iff.2 ⟨k, hk⟩
      -- the node has a descendant block of level 3 or more
      obtain ⟨j, p, g', h2, h3, h4⟩ := exists_leaf_below exMesh1_valid hw hr2 (by rw [hk']; simp)
      rcases j with _ | j
      · simp only [Nat.add_zero, Pos.shr_zero] at h3 h4
        rw [h3, hk'] at h4; simp at h4
      · have := hblk _ ((mem_meshBlocks exMesh1_valid hw).2 ⟨h2, h4⟩)
        simp only at this
        omega

end Verif.Tree
