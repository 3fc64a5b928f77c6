import Verif.Lemmas.TreeTouch

/-!
# Properties of the MeshBlock tree

`Mesh.Valid`, `NoPolar`, `NoShear`, `Touch`, `Covers`, `ZBefore`, `Dom`, `Shift`, `Face`, `Reach`
and `meshBlocks` are defined in `Verif/Spec/Tree.lean`.
-/
namespace Verif.Tree

/-! ## Example mesh used to show that the hypotheses can be met

Two dimensions, 3 x 2 root blocks (not a power of two), periodic in the first direction. -/

def exMesh : Mesh :=
  ⟨3, 2, 1, 2, true, false, .periodic, .periodic, .outflow, .reflect, .outflow, .outflow⟩

theorem exMesh_valid : exMesh.Valid := by constructor <;> decide
theorem exMesh_noPolar : NoPolar exMesh := by unfold NoPolar; decide
theorem exMesh_noShear : NoShear exMesh := by unfold NoShear; decide

/-- One refinement request of level 4 (two levels below the root grid). -/
def exState : Option St := addMeshBlock exMesh 4 ⟨0, 3, 0⟩ ⟨rootGrid exMesh, 0⟩

theorem exState_blocks : (exState.map (fun s => (meshBlocks exMesh s.tree).map (fun b => (b.1, b.2.1))))
    = some [(3, ⟨0, 0, 0⟩), (3, ⟨1, 0, 0⟩), (4, ⟨0, 2, 0⟩), (4, ⟨1, 2, 0⟩), (4, ⟨0, 3, 0⟩),
        (4, ⟨1, 3, 0⟩), (3, ⟨1, 1, 0⟩), (2, ⟨1, 0, 0⟩), (3, ⟨0, 2, 0⟩), (3, ⟨1, 2, 0⟩),
        (3, ⟨0, 3, 0⟩), (3, ⟨1, 3, 0⟩), (2, ⟨1, 1, 0⟩), (3, ⟨4, 0, 0⟩), (3, ⟨5, 0, 0⟩),
        (3, ⟨4, 1, 0⟩), (3, ⟨5, 1, 0⟩), (3, ⟨4, 2, 0⟩), (3, ⟨5, 2, 0⟩), (3, ⟨4, 3, 0⟩),
        (3, ⟨5, 3, 0⟩)] := by decide +kernel

theorem exDom : Dom exMesh 4 ⟨0, 3, 0⟩ := by
  constructor <;> unfold DomDim <;> decide

/-- A reachable state of the example mesh with blocks on three levels. -/
theorem exReach : ∃ s, exState = some s ∧ Reach exMesh s := by
  rcases h : exState with _ | s
  · have := exState_blocks; rw [h] at this; simp at this
  · exact ⟨s, rfl, .add (.start 0) exDom h⟩

/-! ## C02 tiling -/

/-- **C02** The blocks of every reachable mesh (poles allowed) lie inside the mesh, and every cell
of the mesh on a level at least as fine as all blocks belongs to exactly one block. -/
theorem blocks_tile_domain {m : Mesh} (hm : m.Valid) {s : St} (h : Reach m s) :
    (∀ L p g, (L, p, g) ∈ meshBlocks m s.tree → m.rootLevel ≤ L ∧
      ∀ M r, Covers L p M r → (m.f2 = false → r.x2 = 0) → (m.f3 = false → r.x3 = 0) → Dom m M r) ∧
    ∀ M, (∀ b ∈ meshBlocks m s.tree, b.1 ≤ M) → ∀ r, Dom m M r →
      ∃! b, b ∈ meshBlocks m s.tree ∧ Covers b.1 b.2.1 M r := by
  have hw := h.wf hm
  constructor
  · intro L p g hb
    obtain ⟨hr, hl⟩ := (mem_meshBlocks hm hw).1 hb
    have hd := hw.dom hm hr (by rw [hl]; simp)
    have hL := hw.leaf L p g hd hl
    refine ⟨hL, fun M r hc hz2 hz3 => ?_⟩
    obtain ⟨hLM, rfl⟩ := covers_iff.1 hc
    rw [dom_iff_ge hL] at hd
    rw [dom_iff_ge (by omega)]
    have hp : 0 < 2 ^ (M - L) := Nat.pow_pos (by omega)
    have key : ∀ n x, x / 2 ^ (M - L) < n * 2 ^ (L - m.rootLevel) → x < n * 2 ^ (M - m.rootLevel) := by
      intro n x hx
      rw [show M - m.rootLevel = (L - m.rootLevel) + (M - L) by omega, Nat.pow_add, ← Nat.mul_assoc]
      exact (Nat.div_lt_iff_lt_mul hp).1 hx
    refine ⟨key _ _ hd.1, ?_, ?_⟩
    · have h2 := hd.2.1
      unfold Mesh.nmax2 at h2 ⊢
      split
      · rw [if_pos ‹_›] at h2; exact key _ _ h2
      · rename_i hne; rw [hz2 (by simpa using hne)]; omega
    · have h3 := hd.2.2
      unfold Mesh.nmax3 at h3 ⊢
      split
      · rw [if_pos ‹_›] at h3; exact key _ _ h3
      · rename_i hne; rw [hz3 (by simpa using hne)]; omega
  · intro M hM r hr
    have hrr := hr.inRange hm
    -- existence
    have hex : ∃ L p g, L ≤ M ∧ InRange L p ∧ r.shr (M - L) = p ∧ s.tree.at L p = .leaf g := by
      rcases hw.leaf_above hr with h1 | ⟨j, g, h1, h2, h3⟩
      · obtain ⟨j, p, g, h2, h3, h4⟩ := exists_leaf_below hm hw hrr h1
        have := hM _ ((mem_meshBlocks hm hw).2 ⟨h2, h4⟩)
        obtain rfl : j = 0 := by simp only at this; omega
        simp only [Nat.add_zero, Pos.shr_zero] at h2 h3 h4
        subst h3
        exact ⟨M, p, g, Nat.le_refl _, hrr, by simp, h4⟩
      · refine ⟨M - j, _, g, by omega, ?_, ?_, h3⟩
        · exact InRange.shr (by rw [Nat.sub_add_cancel h2]; exact hrr)
        · rw [show M - (M - j) = j by omega]
    obtain ⟨L, p, g, hL, hp, hs, hl⟩ := hex
    refine ⟨(L, p, g), ⟨(mem_meshBlocks hm hw).2 ⟨hp, hl⟩, covers_iff.2 ⟨hL, hs⟩⟩, ?_⟩
    rintro ⟨L', p', g'⟩ ⟨hb', hc'⟩
    obtain ⟨hp', hl'⟩ := (mem_meshBlocks hm hw).1 hb'
    obtain ⟨hL', hs'⟩ := covers_iff.1 hc'
    simp only at hL' hs' hp' hl'
    -- of two leaves above the same cell none is strictly above the other
    have key : ∀ (A B : Nat) (a b : Pos) (x y : Int), A < B → B ≤ M → r.shr (M - A) = a → r.shr (M - B) = b →
        s.tree.at A a = .leaf x → s.tree.at B b = .leaf y → False := by
      intro A B a b x y hAB hBM ha hb hx hy
      have hab : b.shr (B - A) = a := by
        rw [← hb, Pos.shr_shr, ← ha]; congr 1; omega
      obtain ⟨g2, h2⟩ := node_anc (t := s.tree) (L := A) (j := B - A) (p := b)
        (by rw [show A + (B - A) = B by omega, hy]; simp) (by omega)
      rw [hab, hx] at h2; simp at h2
    rcases Nat.lt_trichotomy L L' with hlt | heq | hgt
    · exact (key L L' p p' g g' hlt hL' hs hs' hl hl').elim
    · subst heq
      have hpp : p' = p := by rw [← hs', ← hs]
      subst hpp
      rw [hl] at hl'; simp at hl'
      rw [hl']
    · exact (key L' L p' p g' g hgt hL hs' hs hl' hl).elim

example : ∃ s, Reach exMesh s ∧ (4, ⟨0, 3, 0⟩, -1) ∈ meshBlocks exMesh s.tree := by
  obtain ⟨s, hs, hr⟩ := exReach
  refine ⟨s, hr, ?_⟩
  have h : (exState.map (fun s => decide ((4, ⟨0, 3, 0⟩, -1) ∈ meshBlocks exMesh s.tree))) = some true := by
    decide +kernel
  rw [hs] at h
  simpa using h

/-! ## C01 balance -/

/-- **C01** On a reachable mesh without poles, any two blocks that touch (face, edge, corner,
through periodic boundaries) differ by at most one level. -/
theorem touching_blocks_balanced {m : Mesh} (hm : m.Valid) (hnp : NoPolar m) {s : St}
    (h : Reach m s) {L K : Nat} {p q : Pos} {g g' : Int}
    (hA : (L, p, g) ∈ meshBlocks m s.tree) (hB : (K, q, g') ∈ meshBlocks m s.tree)
    (ht : Touch m L p K q) : L ≤ K + 1 ∧ K ≤ L + 1 := by
  have hi := h.inv hm hnp
  obtain ⟨hp, h1⟩ := (mem_meshBlocks hm hi.wf).1 hA
  obtain ⟨hq, h2⟩ := (mem_meshBlocks hm hi.wf).1 hB
  have hdp := hi.wf.dom hm hp (by rw [h1]; simp)
  have hdq := hi.wf.dom hm hq (by rw [h2]; simp)
  rcases Nat.lt_trichotomy L K with hlt | heq | hgt
  · obtain ⟨d, rfl⟩ : ∃ d, K = L + d + 1 := ⟨K - L - 1, by omega⟩
    have := balance_aux hm hnp hi hdp hdq h1 h2 ht
    omega
  · omega
  · obtain ⟨d, rfl⟩ : ∃ d, L = K + d + 1 := ⟨L - K - 1, by omega⟩
    have := balance_aux hm hnp hi hdq hdp h2 h1 ht.symm
    omega

/-- Blocks of different levels that touch through the periodic boundary exist in the example. -/
example : Touch exMesh 4 ⟨0, 2, 0⟩ 3 ⟨5, 1, 0⟩ := by
  refine ⟨⟨-1, .inr ⟨by decide, .inr rfl⟩, by decide, by decide⟩,
    fun _ => ⟨0, .inl rfl, by decide, by decide⟩, fun h => by simp [exMesh] at h⟩

/-! ## C03 refinement requests -/

/-- **C03** A request for a location inside the mesh is honoured: the call does not fail, a node at
exactly that location exists afterwards, refined nodes stay refined, existing nodes stay, and every
block finer than the requested level was there before. -/
theorem add_block_honoured {m : Mesh} (hm : m.Valid) {s : St} (h : Reach m s) {L : Nat} {p : Pos}
    (hd : Dom m L p) : ∃ s', addMeshBlock m L p s = some s' ∧ s'.tree.get L p ≠ .null ∧
      (∀ K q g k, InRange K q → s.tree.get K q = .node g k → ∃ g' k', s'.tree.get K q = .node g' k') ∧
      (∀ K q, InRange K q → s.tree.get K q ≠ .null → s'.tree.get K q ≠ .null) ∧
      (∀ K q g, (K, q, g) ∈ meshBlocks m s'.tree → L < K → ∃ g', (K, q, g') ∈ meshBlocks m s.tree) := by
  have hw := h.wf hm
  obtain ⟨s', e, w, _, gr, hx, _⟩ := add_spec hm L p s _ hw (okTrue m _) hd
  refine ⟨s', e, by rwa [Ne, ← at_null_iff], ?_, ?_, ?_⟩
  · intro K q g k hq hk
    obtain ⟨g', h'⟩ := (gr.le K q hq).1 ⟨g, at_node_iff.2 ⟨k, hk⟩⟩
    obtain ⟨k', h'⟩ := at_node_iff.1 h'
    exact ⟨g', k', h'⟩
  · intro K q hq hk
    have := (gr.le K q hq).2 (by rwa [Ne, at_null_iff])
    rwa [Ne, at_null_iff] at this
  · intro K q g hb hK
    obtain ⟨hr, hl⟩ := (mem_meshBlocks hm w).1 hb
    obtain ⟨K, rfl⟩ : ∃ J, K = J + 1 := ⟨K - 1, by omega⟩
    obtain ⟨g2, h2⟩ := parent_node (t := s'.tree) (L := K) (p := q) (by rw [hl]; simp)
    rcases gr.new K q.half hr.half ⟨g2, h2⟩ with ⟨g3, h3⟩ | h3
    · have hdq := w.dom hm hr (by rw [hl]; simp)
      have hex := hw.exists_child hdq h3
      rcases kind_cases (s.tree.at (K + 1) q) with h4 | ⟨g4, h4⟩ | ⟨g4, h4⟩
      · exact absurd h4 hex
      · exact ⟨g4, (mem_meshBlocks hm hw).2 ⟨hr, h4⟩⟩
      · obtain ⟨g5, h5⟩ := (gr.le _ _ hr).1 ⟨g4, h4⟩
        rw [hl] at h5; simp at h5
    · omega

/-- **C03** The refined mesh is the coarsest possible one: every reachable mesh in which all blocks
of `s` are present or further refined and the requested location exists is at least as refined. -/
theorem add_block_minimal {m : Mesh} (hm : m.Valid) (hnp : NoPolar m) {s s' : St} (h : Reach m s)
    {L : Nat} {p : Pos} (hd : Dom m L p) (he : addMeshBlock m L p s = some s') {T : St}
    (hT : Reach m T)
    (hle : ∀ K q g k, InRange K q → s.tree.get K q = .node g k → ∃ g' k', T.tree.get K q = .node g' k')
    (hp : T.tree.get L p ≠ .null) :
    ∀ K q g k, InRange K q → s'.tree.get K q = .node g k → ∃ g' k', T.tree.get K q = .node g' k' := by
  have hi := h.inv hm hnp
  have hiT := hT.inv hm hnp
  obtain ⟨s2, e, _, _, _, _, ml⟩ := add_spec hm L p s _ hi.wf hi.ok hd
  rw [he] at e; simp at e; subst e
  have hle' : Le s.tree T.tree := by
    intro K q hq
    have h1 : ∀ K q, InRange K q → (∃ g, s.tree.at K q = .node g) → ∃ g, T.tree.at K q = .node g := by
      rintro K q hq ⟨g, hg⟩
      obtain ⟨k, hk⟩ := at_node_iff.1 hg
      obtain ⟨g', k', h'⟩ := hle K q g k hq hk
      exact ⟨g', at_node_iff.2 ⟨k', h'⟩⟩
    refine ⟨h1 K q hq, ?_⟩
    intro hex
    rcases K with _ | K
    · rw [Ne, at_null_iff]; simpa using hiT.wf.root
    · obtain ⟨g, hg⟩ := parent_node hex
      obtain ⟨g', hg'⟩ := h1 K q.half hq.half ⟨g, hg⟩
      exact hiT.wf.exists_child (hi.wf.dom hm hq hex) hg'
  have := ml T.tree hiT.wf hiT.ok hle' (by simpa [at_null_iff] using hp)
  intro K q g k hq hk
  obtain ⟨g', h'⟩ := (this K q hq).1 ⟨g, at_node_iff.2 ⟨k, hk⟩⟩
  obtain ⟨k', h'⟩ := at_node_iff.1 h'
  exact ⟨g', k', h'⟩

/-- **C03** The same for `Refine` of an existing node: it does not fail and the node is refined. -/
theorem refine_honoured {m : Mesh} (hm : m.Valid) {s : St} (h : Reach m s) {L : Nat} {p : Pos}
    (hd : Dom m L p) (hex : s.tree.get L p ≠ .null) :
    ∃ s', refine m L p s = some s' ∧ (∃ g k, s'.tree.get L p = .node g k) ∧
      (∀ K q g k, InRange K q → s.tree.get K q = .node g k → ∃ g' k', s'.tree.get K q = .node g' k') := by
  obtain ⟨s', e, _, _, gr, ⟨g, hg⟩, _⟩ :=
    refine_spec hm (h.wf hm) (okTrue m _) hd (by rwa [Ne, at_null_iff])
  obtain ⟨k, hk⟩ := at_node_iff.1 hg
  refine ⟨s', e, ⟨g, k, hk⟩, ?_⟩
  intro K q g k hq hk
  obtain ⟨g', h'⟩ := (gr.le K q hq).1 ⟨g, at_node_iff.2 ⟨k, hk⟩⟩
  obtain ⟨k', h'⟩ := at_node_iff.1 h'
  exact ⟨g', k', h'⟩

example : Reach exMesh ⟨rootGrid exMesh, 0⟩ ∧ Dom exMesh 4 ⟨0, 3, 0⟩ ∧
    Dom exMesh 2 ⟨2, 1, 0⟩ ∧ (rootGrid exMesh).get 2 ⟨2, 1, 0⟩ ≠ .null := by
  refine ⟨.start 0, exDom, by constructor <;> unfold DomDim <;> decide, ?_⟩
  have : (rootGrid exMesh).get 2 ⟨2, 1, 0⟩ = .leaf (-1) := rfl
  rw [this]; simp

/-! ## C04 numbering -/

/-- **C04** After `GetMeshBlockList` the gids along the list are 0..N-1 with N the result of
`CountMeshBlock`; the list holds the same locations as before; it is strictly Z-ordered, hence
without duplicates; and looking up the location of the block with gid `g` finds a leaf with gid
`g`. -/
theorem numbering_bijective {m : Mesh} (hm : m.Valid) {s : St} (h : Reach m s) :
    let t' := (s.tree.number m 0).1
    (meshBlocks m t').map (fun b => b.2.2) = (List.range (s.tree.count m)).map Int.ofNat ∧
    (meshBlocks m t').map (fun b => (b.1, b.2.1)) = (meshBlocks m s.tree).map (fun b => (b.1, b.2.1)) ∧
    (meshBlocks m t').Pairwise (fun a b => ZBefore a.1 a.2.1 b.1 b.2.1) ∧
    ((meshBlocks m t').map (fun b => (b.1, b.2.1))).Nodup ∧
    (∀ L p g, (L, p, g) ∈ meshBlocks m t' → t'.get L p = .leaf g) := by
  intro t'
  have hw := h.wf hm
  have hw' : WF m t' := hw.shape (number_shape _ _)
  have e : meshBlocks m t' = renum 0 (meshBlocks m s.tree) :=
    (number_spec (m := m) s.tree 0 0 ⟨0, 0, 0⟩).2
  have hs : (meshBlocks m t').Pairwise (fun a b => ZBefore a.1 a.2.1 b.1 b.2.1) := blocks_sorted _ _ _
  refine ⟨?_, ?_, hs, ?_, ?_⟩
  · rw [e, count_eq_length (m := m) s.tree 0 ⟨0, 0, 0⟩]
    simp only [renum, List.map_map]
    have : (List.range (meshBlocks m s.tree).length) =
        ((meshBlocks m s.tree).zipIdx 0).map Prod.snd := by
      rw [List.zipIdx_map_snd]; simp [List.range_eq_range']
    show _ = (List.range (meshBlocks m s.tree).length).map Int.ofNat
    rw [this, List.map_map]
    rfl
  · rw [e]
    simp only [renum, List.map_map]
    conv_rhs => rw [← List.zipIdx_map_fst 0 (meshBlocks m s.tree), List.map_map]
    rfl
  · rw [List.Nodup, List.pairwise_map]
    refine hs.imp ?_
    rintro ⟨L, p, g⟩ ⟨K, q, g'⟩ hz heq
    simp only [Prod.mk.injEq] at heq
    obtain ⟨rfl, rfl⟩ := heq
    exact zBefore_irrefl hz
  · intro L p g hb
    exact at_leaf_iff.1 ((mem_meshBlocks hm hw').1 hb).2

example : ∃ s, Reach exMesh s ∧ (meshBlocks exMesh (s.tree.number exMesh 0).1).length = 21 := by
  obtain ⟨s, hs, hr⟩ := exReach
  refine ⟨s, hr, ?_⟩
  have h : (exState.map (fun s => (meshBlocks exMesh (s.tree.number exMesh 0).1).length)) = some 21 := by
    decide +kernel
  rw [hs] at h
  simpa using h

/-! ## C05 old-to-new map -/

/-- **C05** During the refinements and then derefinements of one adaptation step (any mesh), the
gid recorded for each new block is the gid of an old block that contains it (the same block or a
coarser one), or of the old block at its lower corner that it replaces. -/
theorem old_gid_map {m : Mesh} (hm : m.Valid) {s s1 s2 : St} (h : Reach m s)
    (h1 : RefineStar m s s1) (h2 : DerefineStar m s1 s2) {K : Nat} {q : Pos} {g : Int}
    (hb : (K, q, g) ∈ meshBlocks m s2.tree) :
    ∃ L p, (L, p, g) ∈ meshBlocks m s.tree ∧
      (Covers L p K q ∨
        (K < L ∧ p = ⟨q.x1 * 2 ^ (L - K), q.x2 * 2 ^ (L - K), q.x3 * 2 ^ (L - K)⟩)) := by
  have hw := h.wf hm
  obtain ⟨w1, i1⟩ := h1.grow hm hw
  have g1 : GidOk s.tree s1.tree := fun K q g hq hl => .inl (i1 K q g hq hl)
  obtain ⟨w2, g2⟩ := h2.gid hm w1 g1
  obtain ⟨hr, hl⟩ := (mem_meshBlocks hm w2).1 hb
  rcases g2 K q g hr hl with ⟨j, hj, h3⟩ | ⟨j, hj, h3⟩
  · refine ⟨K - j, q.shr j, (mem_meshBlocks hm hw).2 ⟨?_, h3⟩, .inl (covers_iff.2 ⟨by omega, ?_⟩)⟩
    · exact InRange.shr (by rw [Nat.sub_add_cancel hj]; exact hr)
    · rw [show K - (K - j) = j by omega]
  · refine ⟨K + j, _, (mem_meshBlocks hm hw).2 ⟨?_, h3⟩, .inr ⟨by omega, ?_⟩⟩
    · have hp : 0 < 2 ^ j := Nat.pow_pos (by omega)
      refine ⟨?_, ?_, ?_⟩ <;> simp only [Nat.pow_add]
      · exact Nat.mul_lt_mul_of_pos_right hr.1 hp
      · exact Nat.mul_lt_mul_of_pos_right hr.2.1 hp
      · exact Nat.mul_lt_mul_of_pos_right hr.2.2 hp
    · rw [show K + j - K = j by omega]

/-- Refining a root block and derefining it again is a sequence of the required form. -/
example : ∃ s1 s2 : St, RefineStar exMesh ⟨rootGrid exMesh, 0⟩ s1 ∧ DerefineStar exMesh s1 s2 ∧
    (meshBlocks exMesh s1.tree).length = 9 ∧ (meshBlocks exMesh s2.tree).length = 6 := by
  have h : (((refine exMesh 2 ⟨1, 0, 0⟩ ⟨rootGrid exMesh, 0⟩).bind (fun s =>
      (derefine exMesh 2 ⟨1, 0, 0⟩ s).map (fun s2 =>
        ((match s.tree.get 2 ⟨1, 0, 0⟩ with | .node _ _ => true | _ => false),
        (meshBlocks exMesh s.tree).length, (meshBlocks exMesh s2.tree).length)))))
      = some (true, 9, 6) := by decide +kernel
  rcases e1 : refine exMesh 2 ⟨1, 0, 0⟩ ⟨rootGrid exMesh, 0⟩ with _ | s1
  · rw [e1] at h; simp at h
  · rw [e1] at h
    simp only [Option.bind_some] at h
    rcases e2 : derefine exMesh 2 ⟨1, 0, 0⟩ s1 with _ | s2
    · rw [e2] at h; simp at h
    · rw [e2] at h
      simp only [Option.map_some, Option.some.injEq, Prod.mk.injEq] at h
      have hd : Dom exMesh 2 ⟨1, 0, 0⟩ := by constructor <;> unfold DomDim <;> decide
      obtain ⟨h1, h2, h3⟩ := h
      rcases hg : s1.tree.get 2 ⟨1, 0, 0⟩ with _ | g | ⟨g, k⟩
      · rw [hg] at h1; simp at h1
      · rw [hg] at h1; simp at h1
      · exact ⟨s1, s2, .step (.refl _) hd (by
            have : (rootGrid exMesh).get 2 ⟨1, 0, 0⟩ = .leaf (-1) := rfl
            rw [this]; simp) e1, .step (.refl _) hd (by decide) hg e2, h2, h3⟩

/-! ## C06 counters -/

/-- **C06** The counter of created blocks grows by exactly the number of new blocks. -/
theorem created_counter_exact {m : Mesh} (hm : m.Valid) {s s' : St} (h : Reach m s) {L : Nat}
    {p : Pos} (hd : Dom m L p)
    (he : addMeshBlock m L p s = some s' ∨ (s.tree.get L p ≠ .null ∧ refine m L p s = some s')) :
    ((meshBlocks m s'.tree).length : Int) = (meshBlocks m s.tree).length + (s'.cnt - s.cnt) := by
  have hw := h.wf hm
  have key : Grow m s s' (L + 1) := by
    rcases he with he | ⟨hex, he⟩
    · obtain ⟨s2, e, _, _, g, _⟩ := add_spec hm L p s _ hw (okTrue m _) hd
      rw [he] at e; simp at e; subst e; exact g.mono (by omega)
    · obtain ⟨s2, e, _, _, g, _⟩ := refine_spec hm hw (okTrue m _) hd (by rwa [Ne, at_null_iff])
      rw [he] at e; simp at e; subst e; exact g
  have := key.cnt
  rw [count_eq_length (m := m) _ 0 ⟨0, 0, 0⟩, count_eq_length (m := m) s.tree 0 ⟨0, 0, 0⟩] at this
  unfold meshBlocks
  omega

/-- **C06** The counter of deleted blocks grows by exactly the number of blocks that vanish. -/
theorem deleted_counter_exact {m : Mesh} (hm : m.Valid) {s s' : St} (h : Reach m s) {L : Nat}
    {p : Pos} (hd : Dom m L p) (hL : m.rootLevel ≤ L) {g : Int} {k : Fin 8 → Tree}
    (hn : s.tree.get L p = .node g k) (he : derefine m L p s = some s') :
    ((meshBlocks m s'.tree).length : Int) = (meshBlocks m s.tree).length - (s'.cnt - s.cnt) := by
  have hn' := at_node_iff.2 ⟨_, hn⟩
  rcases derefine_cases hm (h.wf hm) hL hd hn' he with h1 | ⟨hk, g', _, h1⟩
  · subst h1; omega
  · subst h1
    have := count_collapse hm hd hn' hk g'
    rw [count_eq_length (m := m) _ 0 ⟨0, 0, 0⟩, count_eq_length (m := m) s.tree 0 ⟨0, 0, 0⟩] at this
    unfold meshBlocks
    simp only
    omega

end Verif.Tree
