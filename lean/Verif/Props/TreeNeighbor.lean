import Verif.Props.Tree
import Verif.Lemmas.TreeNeg

/-!
# Neighbour search, derefinement and restart

Vocabulary in `Verif/Spec/Tree.lean`.
-/
namespace Verif.Tree

theorem block_iff {m : Mesh} (hm : m.Valid) {t : Tree} (hw : WF m t) {L : Nat} {p : Pos} {g : Int} :
    (L, p, g) ∈ meshBlocks m t ↔ Dom m L p ∧ t.at L p = .leaf g := by
  rw [mem_meshBlocks hm hw]
  exact ⟨fun h => ⟨hw.dom hm h.1 (by rw [h.2]; simp), h.2⟩, fun h => ⟨h.1.inRange hm, h.2⟩⟩

/-! ## C07 neighbour search -/

/-- **C07** `FindNeighbor` from a block in any direction: it reports "no neighbour" exactly when the
direction leaves the mesh through a boundary that is not periodic; otherwise, with `q` the adjacent
location of the same level, it returns `q` which is a block, or the parent of `q` which is a block
one level coarser, or `q` which is refined and whose children on the facing side are blocks.  The
fatal error "Neighbor search failed" is therefore unreachable. -/
theorem neighbor_search_total {m : Mesh} (hm : m.Valid) (hnp : NoPolar m) (hns : NoShear m) {s : St}
    (h : Reach m s) {L : Nat} {p : Pos} {g : Int} (hb : (L, p, g) ∈ meshBlocks m s.tree)
    {o1 o2 o3 : Int} (hd : Dir m o1 o2 o3) (h0 : ¬ (o1 = 0 ∧ o2 = 0 ∧ o3 = 0)) :
    (findNeighbor m s.tree L p o1 o2 o3 false = .nothing ∧ ¬ ∃ q, Shift m L p o1 o2 o3 q) ∨
    ∃ q, Shift m L p o1 o2 o3 q ∧
      ((findNeighbor m s.tree L p o1 o2 o3 false = .found L q ∧
          ∃ g', (L, q, g') ∈ meshBlocks m s.tree) ∨
       (∃ K, L = K + 1 ∧ findNeighbor m s.tree L p o1 o2 o3 false = .found K q.half ∧
          ∃ g', (K, q.half, g') ∈ meshBlocks m s.tree) ∨
       (findNeighbor m s.tree L p o1 o2 o3 false = .found L q ∧
          ∀ n : Fin 8, n.val < m.nleaf → Face o1 o2 o3 n →
            ∃ g', (L + 1, q.child n, g') ∈ meshBlocks m s.tree)) := by
  have hi := h.inv hm hnp
  obtain ⟨hp, hl⟩ := (block_iff hm hi.wf).1 hb
  have hL := hi.wf.leaf L p g hp hl
  by_cases hex : ∃ q, Shift m L p o1 o2 o3 q
  · obtain ⟨q, hs⟩ := hex
    have hq := hs.dom hL
    refine .inr ⟨q, hs, ?_⟩
    rw [findNeighbor_shift hm hnp hns hL hp hs]
    rcases neighbour_cases hm hnp hi hp hl hs with ⟨g', h1⟩ | ⟨g', h1⟩ | ⟨K, g', rfl, hK, h1, _⟩
    · exact .inl ⟨fnAt_leaf hm hq h1 .., g', (block_iff hm hi.wf).2 ⟨hq, h1⟩⟩
    · right; right
      have hf : ∀ n : Fin 8, n.val < m.nleaf → Face o1 o2 o3 n →
          ∃ g', s.tree.at (L + 1) (q.child n) = .leaf g' :=
        fun n hn hf => facing_leaf hm hnp hi hp hl h0 hs h1 hn hf
      refine ⟨fnAt_node hm hq h1 (.inl (hf _ (faceIdx_lt hs) faceIdx_face)), ?_⟩
      intro n hn hfn
      obtain ⟨g2, h2⟩ := hf n hn hfn
      exact ⟨g2, (block_iff hm hi.wf).2 ⟨hq.child hm hL hn, h2⟩⟩
    · exact .inr (.inl ⟨K, rfl, fnAt_coarse h1 .., g', (block_iff hm hi.wf).2 ⟨hq.half, h1⟩⟩)
  · exact .inl ⟨findNeighbor_nothing hm hnp hns hL hp hd false hex, hex⟩

/-- All three kinds of neighbours, and the edge of the mesh, occur in the example. -/
example : exState.map (fun s => (findNeighbor exMesh s.tree 4 ⟨0, 3, 0⟩ (-1) 0 0 false,
      findNeighbor exMesh s.tree 3 ⟨5, 1, 0⟩ 1 0 0 false, findNeighbor exMesh s.tree 3 ⟨5, 1, 0⟩ (-1) 0 0 false,
      findNeighbor exMesh s.tree 3 ⟨5, 3, 0⟩ 0 1 0 false)) =
    some (.found 3 ⟨5, 1, 0⟩, .found 3 ⟨0, 1, 0⟩, .found 3 ⟨4, 1, 0⟩, .nothing) := by decide +kernel

example : Dir exMesh (-1) 1 0 := ⟨by decide, by decide, by decide⟩

/-! ## C08 symmetry -/

/-- **C08** If the lookup from block A in direction `o` yields a block B of the same level, the
lookup from B in direction `-o` yields A. -/
theorem neighbor_symmetric_same {m : Mesh} (hm : m.Valid) (hnp : NoPolar m) (hns : NoShear m) {s : St}
    (h : Reach m s) {L : Nat} {p q : Pos} {g g' : Int} (hA : (L, p, g) ∈ meshBlocks m s.tree)
    (hB : (L, q, g') ∈ meshBlocks m s.tree) {o1 o2 o3 : Int} (hd : Dir m o1 o2 o3)
    (hf : findNeighbor m s.tree L p o1 o2 o3 false = .found L q) :
    findNeighbor m s.tree L q (-o1) (-o2) (-o3) false = .found L p := by
  have hi := h.inv hm hnp
  obtain ⟨hp, hl⟩ := (block_iff hm hi.wf).1 hA
  obtain ⟨hq, hl'⟩ := (block_iff hm hi.wf).1 hB
  have hL := hi.wf.leaf L p g hp hl
  by_cases hex : ∃ q, Shift m L p o1 o2 o3 q
  · obtain ⟨q', hs⟩ := hex
    have hq' := hs.dom hL
    rw [findNeighbor_shift hm hnp hns hL hp hs] at hf
    have hqq : q' = q := by
      rcases neighbour_cases hm hnp hi hp hl hs with ⟨g', h1⟩ | ⟨g', h1⟩ | ⟨K, g', rfl, hK, h1, _⟩
      · rw [fnAt_leaf hm hq' h1] at hf; simpa using hf
      · by_cases h0 : o1 = 0 ∧ o2 = 0 ∧ o3 = 0
        · obtain ⟨rfl, rfl, rfl⟩ := h0
          have := hs.unique hL hp (self_shift hL hp)
          subst this
          rw [hl] at h1; simp at h1
        · rw [fnAt_node hm hq' h1 (.inl (facing_leaf hm hnp hi hp hl h0 hs h1 (faceIdx_lt hs)
            faceIdx_face))] at hf
          simpa using hf
      · rw [fnAt_coarse h1] at hf; simp at hf
    subst hqq
    rw [findNeighbor_shift hm hnp hns hL hq (hs.symm hL hp)]
    exact fnAt_leaf hm hp hl ..
  · rw [findNeighbor_nothing hm hnp hns hL hp hd false hex] at hf; simp at hf

/-- **C08** If the lookup from block A in direction `o` yields a coarser block B, then there is a
direction `c`, each component of which is zero or that of `o` (for a face, `c = o`), such that the
lookup from B in direction `-c` yields the refined parent of A, and A is one of the children of it
that face B. -/
theorem neighbor_symmetric_coarse {m : Mesh} (hm : m.Valid) (hnp : NoPolar m) (hns : NoShear m)
    {s : St} (h : Reach m s) {L K : Nat} {p q : Pos} {g g' : Int}
    (hA : (L, p, g) ∈ meshBlocks m s.tree) (hB : (K, q, g') ∈ meshBlocks m s.tree)
    {o1 o2 o3 : Int} (hd : Dir m o1 o2 o3)
    (hf : findNeighbor m s.tree L p o1 o2 o3 false = .found K q) (hK : K < L) :
    L = K + 1 ∧ ∃ c1 c2 c3, ¬ (c1 = 0 ∧ c2 = 0 ∧ c3 = 0) ∧ (c1 = 0 ∨ c1 = o1) ∧ (c2 = 0 ∨ c2 = o2) ∧
      (c3 = 0 ∨ c3 = o3) ∧ findNeighbor m s.tree K q (-c1) (-c2) (-c3) false = .found K p.half ∧
      ∃ n : Fin 8, n.val < m.nleaf ∧ Face (-c1) (-c2) (-c3) n ∧ p.half.child n = p := by
  have hi := h.inv hm hnp
  obtain ⟨hp, hl⟩ := (block_iff hm hi.wf).1 hA
  obtain ⟨hq, hl'⟩ := (block_iff hm hi.wf).1 hB
  have hL := hi.wf.leaf L p g hp hl
  have hKr := hi.wf.leaf K q g' hq hl'
  by_cases hex : ∃ q, Shift m L p o1 o2 o3 q
  · obtain ⟨q', hs⟩ := hex
    have hq' := hs.dom hL
    rw [findNeighbor_shift hm hnp hns hL hp hs] at hf
    rcases neighbour_cases hm hnp hi hp hl hs with
      ⟨g', h1⟩ | ⟨g', h1⟩ | ⟨J, g2, rfl, hJ, h1, c1, c2, c3, hc0, hcs, hc1, hc2, hc3⟩
    · rw [fnAt_leaf hm hq' h1] at hf
      simp at hf; omega
    · by_cases h0 : o1 = 0 ∧ o2 = 0 ∧ o3 = 0
      · obtain ⟨rfl, rfl, rfl⟩ := h0
        have := hs.unique hL hp (self_shift hL hp)
        subst this
        rw [hl] at h1; simp at h1
      · rw [fnAt_node hm hq' h1 (.inl (facing_leaf hm hnp hi hp hl h0 hs h1 (faceIdx_lt hs)
          faceIdx_face))] at hf
        simp at hf; omega
    · rw [fnAt_coarse h1] at hf
      simp only [FN.found.injEq] at hf
      obtain ⟨rfl, rfl⟩ := hf
      refine ⟨rfl, c1, c2, c3, hc0, hc1.imp id (·.1), hc2.imp id (·.1), hc3.imp id (·.1), ?_,
        p.bitIdx 0, hp.idx_lt hm, ?_, Pos.child_half p⟩
      · have hsy := hcs.symm hKr hp.half
        rw [findNeighbor_shift hm hnp hns hKr hq hsy]
        obtain ⟨gn, hn⟩ := parent_node (t := s.tree) (L := J) (p := p) (by rw [hl]; simp)
        exact fnAt_node hm hp.half hn (.inl (facing_leaf hm hnp hi hq hl'
          (by omega) hsy hn (faceIdx_lt hsy) faceIdx_face))
      · have b1 : (p.bitIdx 0).val % 2 = p.x1 % 2 := by
          simp only [Pos.bitIdx, Nat.pow_zero, Nat.div_one]; omega
        have b2 : (p.bitIdx 0).val / 2 % 2 = p.x2 % 2 := by
          simp only [Pos.bitIdx, Nat.pow_zero, Nat.div_one]; omega
        have b3 : (p.bitIdx 0).val / 4 % 2 = p.x3 % 2 := by
          simp only [Pos.bitIdx, Nat.pow_zero, Nat.div_one]; omega
        constructor <;> intro hx
        · rw [b1]; rcases hc1 with h | ⟨h, h1, h2⟩ <;> omega
        · rw [b1]; rcases hc1 with h | ⟨h, h1, h2⟩ <;> omega
        · rw [b2]; rcases hc2 with h | ⟨h, h1, h2⟩ <;> omega
        · rw [b2]; rcases hc2 with h | ⟨h, h1, h2⟩ <;> omega
        · rw [b3]; rcases hc3 with h | ⟨h, h1, h2⟩ <;> omega
        · rw [b3]; rcases hc3 with h | ⟨h, h1, h2⟩ <;> omega
  · rw [findNeighbor_nothing hm hnp hns hL hp hd false hex] at hf; simp at hf

/-- The coarser case occurs in the example: block (4,(0,2)) looks through the periodic boundary. -/
example : exState.map (fun s => (findNeighbor exMesh s.tree 4 ⟨0, 2, 0⟩ (-1) 1 0 false,
      findNeighbor exMesh s.tree 3 ⟨5, 1, 0⟩ 1 0 0 false)) =
    some (.found 3 ⟨5, 1, 0⟩, .found 3 ⟨0, 1, 0⟩) := by decide +kernel

/-! ## C09 derefinement -/

/-- **C09** `Derefine` of a refined node never fails. If a location one level finer than the node
that touches the node (in particular one of its children) is itself refined, nothing changes.
Otherwise the children of the node, all of them blocks, are replaced by one block; all other blocks
stay. Since the result is reachable again, `touching_blocks_balanced` and `blocks_tile_domain` hold
for it. -/
theorem derefine_safe_complete {m : Mesh} (hm : m.Valid) (hnp : NoPolar m) (hns : NoShear m) {s : St}
    (h : Reach m s) {L : Nat} (hL : m.rootLevel ≤ L) {p : Pos} (hp : Dom m L p) {g : Int}
    {k : Fin 8 → Tree} (hn : s.tree.get L p = .node g k) :
    ∃ s', derefine m L p s = some s' ∧ Reach m s' ∧
      ((∃ r g k, InRange (L + 1) r ∧ Touch m L p (L + 1) r ∧ s.tree.get (L + 1) r = .node g k) → s' = s) ∧
      ((∀ r g k, InRange (L + 1) r → Touch m L p (L + 1) r → s.tree.get (L + 1) r ≠ .node g k) →
        (∀ n : Fin 8, n.val < m.nleaf → ∃ g', (L + 1, p.child n, g') ∈ meshBlocks m s.tree) ∧
        ∀ K q g', (K, q, g') ∈ meshBlocks m s'.tree ↔
          (K, q, g') ∈ meshBlocks m s.tree ∧ ¬ (K = L + 1 ∧ q.half = p) ∨
          K = L ∧ q = p ∧ (L + 1, p.child 0, g') ∈ meshBlocks m s.tree) := by
  have hi := h.inv hm hnp
  have hn' := at_node_iff.2 ⟨_, hn⟩
  have hcl := clear_iff hm hi.wf hL hp
  have hcl' : Clear m s.tree L p ↔
      ∀ r g k, InRange (L + 1) r → Touch m L p (L + 1) r → s.tree.get (L + 1) r ≠ .node g k := by
    rw [hcl]
    constructor
    · intro h r g k hr ht hk
      exact h r g hr ht (at_node_iff.2 ⟨k, hk⟩)
    · intro h r g hr ht hk
      obtain ⟨k, hk⟩ := at_node_iff.1 hk
      exact h r g k hr ht hk
  rcases derefine_eq hm hnp hns hi hL hp hn' with ⟨hc, he⟩ | ⟨hc, g1, hg1, he⟩
  · refine ⟨s, he, h, fun _ => rfl, fun h2 => absurd (hcl'.2 h2) hc⟩
  · refine ⟨_, he, .derefine h hns hp hL hn he, ?_, fun _ => ⟨?_, ?_⟩⟩
    · rintro ⟨r, g2, k2, hr, ht, hk⟩
      exact absurd hk (hcl'.1 hc r g2 k2 hr ht)
    · intro n hnl
      obtain ⟨g2, h2⟩ := hc.kids hm hi hL hp hn' hnl
      exact ⟨g2, (block_iff hm hi.wf).2 ⟨hp.child hm hL hnl, h2⟩⟩
    · intro K q g2
      have hw' : WF m (s.tree.put L p (.leaf g1)) := collapse_wf hm hi.wf hL hp (by rw [hn']; simp) g1
      simp only
      rw [mem_meshBlocks hm hw', mem_meshBlocks hm hi.wf, mem_meshBlocks hm hi.wf, hg1]
      have hz : InRange (L + 1) (p.child 0) := (hp.child hm hL (nleaf_pos m)).inRange hm
      constructor
      · rintro ⟨hq, hl⟩
        rw [at_collapse (hp.inRange hm) (by rw [hn']; simp) g1 hq] at hl
        split at hl
        · rename_i hc2
          split at hl
          · subst_vars
            simp only [Nat.sub_self, Pos.shr_zero, Kind.leaf.injEq] at hc2 hl
            exact .inr ⟨rfl, hc2.2, hz, by rw [hl]⟩
          · simp at hl
        · rename_i hc2
          refine .inl ⟨⟨hq, hl⟩, ?_⟩
          rintro ⟨rfl, h2⟩
          exact hc2 ⟨by omega, by rw [show L + 1 - L = 1 by omega, ← h2]; simp [Pos.shr, Pos.half]⟩
      · rintro (⟨⟨hq, hl⟩, h2⟩ | ⟨rfl, rfl, _, h3⟩)
        · refine ⟨hq, ?_⟩
          rw [at_collapse (hp.inRange hm) (by rw [hn']; simp) g1 hq, if_neg]
          · exact hl
          · rintro ⟨h3, h4⟩
            -- a leaf below the node is one of its children
            rcases Nat.lt_trichotomy K L with h5 | h5 | h5
            · omega
            · subst h5
              simp only [Nat.sub_self, Pos.shr_zero] at h4
              subst h4; rw [hl] at hn'; simp at hn'
            · rcases Nat.lt_or_ge (L + 1) K with h6 | h6
              · obtain ⟨g4, h7⟩ := node_anc (t := s.tree) (L := L + 1) (j := K - (L + 1)) (p := q)
                  (by rw [show L + 1 + (K - (L + 1)) = K by omega, hl]; simp) (by omega)
                have h8 : (q.shr (K - (L + 1))).half = p := by
                  rw [← h4, Pos.shr_half]; congr 1; omega
                have hin : InRange (L + 1) (q.shr (K - (L + 1))) :=
                  InRange.shr (by rw [show L + 1 + (K - (L + 1)) = K by omega]; exact hq)
                have hdm := hi.wf.dom hm hin (by rw [h7]; simp)
                obtain ⟨g5, h9⟩ := hc.kids hm hi hL hp hn' (hdm.idx_lt hm)
                rw [← h8, Pos.child_half, h7] at h9
                simp at h9
              · obtain rfl : K = L + 1 := by omega
                exact h2 ⟨rfl, by rw [← h4, show L + 1 - L = 1 by omega]; simp [Pos.shr, Pos.half]⟩
        · refine ⟨hp.inRange hm, ?_⟩
          rw [at_collapse (hp.inRange hm) (by rw [hn']; simp) g1 (hp.inRange hm), if_pos ⟨Nat.le_refl _, by simp⟩,
            if_pos rfl]
          exact h3

/-- Both outcomes occur in the example: (3,(0,1)) has no neighbour two levels finer and is
derefined (21 - 3 blocks), its parent (2,(0,0)) has a refined child and is not. -/
example : exState.map (fun s => ((derefine exMesh 3 ⟨0, 1, 0⟩ s).map (fun s' => (meshBlocks exMesh s'.tree).length),
      (derefine exMesh 2 ⟨0, 0, 0⟩ s).map (fun s' => (meshBlocks exMesh s'.tree).length))) =
    some (some 18, some 21) := by decide +kernel

/-! ## C10 restart -/

/-- **C10** The tree rebuilt from the list of locations stored in a restart file is, after
`GetMeshBlockList`, identical to the tree that wrote the list, including the numbering, the list of
blocks and the count. This holds on all meshes, with or without poles. -/
theorem restart_same_tree {m : Mesh} (hm : m.Valid) {s : St} (h : Reach m s) :
    let t := rebuild m ((meshBlocks m s.tree).map (fun b => (b.1, b.2.1)))
    (t.number m 0).1 = (s.tree.number m 0).1 ∧ (t.number m 0).2 = (s.tree.number m 0).2 := by
  intro t
  have : t.number m 0 = s.tree.number m 0 := rebuild_number hm (h.wf hm) fun L p g hp hn => h.neg hm L p g hp hn (by simp)
  rw [this]
  exact ⟨rfl, rfl⟩

example : exState.map (fun s => (meshBlocks exMesh (rebuild exMesh ((meshBlocks exMesh s.tree).map
    (fun b => (b.1, b.2.1))))).length) = some 21 := by decide +kernel

end Verif.Tree
