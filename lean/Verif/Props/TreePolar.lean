import Verif.Props.TreeNeighbor
import Verif.Lemmas.TreePolar

/-!
# Polar boundaries (C11)

The claim "refinement keeps the mesh balanced on meshes with polar boundaries" is false of the code:
in `MeshBlockTree::Refine` the shift of `nloc.lx3` made for the neighbours across the inner pole is
not undone before the next value of `oy` (meshblock_tree.cpp:207-230), so the neighbours of a block
at the inner pole at the same latitude are looked up at the opposite longitude.  Across the outer
pole, where the shift is made in the last iteration, `Refine` is right, but `Derefine` looks at the
wrong children of the neighbour across the pole (meshblock_tree.cpp:277-279: `ljs=lje=0`, the side
away from the pole).
-/
namespace Verif.Tree

/-- Three dimensions, 2 x 2 x 4 root blocks, pole at the inner x2 boundary, periodic in x3. -/
def polMesh : Mesh :=
  ⟨2, 2, 4, 2, true, true, .outflow, .outflow, .polar, .outflow, .periodic, .periodic⟩

theorem polMesh_valid : polMesh.Valid := by constructor <;> decide

/-- Refine the root block (0,0,0), then its child (1,0,0). -/
def polState : Option St :=
  (refine polMesh 2 ⟨0, 0, 0⟩ ⟨rootGrid polMesh, 0⟩).bind (refine polMesh 3 ⟨1, 0, 0⟩)

theorem polReach : ∃ s, polState = some s ∧ Reach polMesh s := by
  unfold polState
  have d2 : Dom polMesh 2 ⟨0, 0, 0⟩ := by constructor <;> unfold DomDim <;> decide
  have d3 : Dom polMesh 3 ⟨1, 0, 0⟩ := by constructor <;> unfold DomDim <;> decide
  obtain ⟨s1, e1, ⟨g, k, hn⟩, _⟩ := refine_honoured polMesh_valid (.start 0) d2 (by
    have : (rootGrid polMesh).get 2 ⟨0, 0, 0⟩ = .leaf (-1) := rfl
    rw [this]; simp)
  have h1 : Reach polMesh s1 := .refine (.start 0) d2 (by
    have : (rootGrid polMesh).get 2 ⟨0, 0, 0⟩ = .leaf (-1) := rfl
    rw [this]; simp) e1
  have hex : s1.tree.get 3 ⟨1, 0, 0⟩ ≠ .null := by
    have := (h1.wf polMesh_valid).exists_child (L := 2) (p := ⟨1, 0, 0⟩) d3 (at_node_iff.2 ⟨k, hn⟩)
    rwa [Ne, at_null_iff] at this
  obtain ⟨s2, e2, _⟩ := refine_honoured polMesh_valid h1 d3 hex
  exact ⟨s2, by rw [e1]; exact e2, .refine h1 d3 hex e2⟩

/-- **C11 (negation)** With a pole at the inner x2 boundary two `Refine` calls lead to a mesh in
which a block of level 2 shares a face with a block of level 4, and in which the neighbour search of
that block ends in the fatal error. -/
theorem polar_refine_unbalanced : ∃ (m : Mesh) (s : St) (p q : Pos) (g g' : Int),
    m.Valid ∧ Reach m s ∧ (4, p, g) ∈ meshBlocks m s.tree ∧ (2, q, g') ∈ meshBlocks m s.tree ∧
    Touch m 4 p 2 q ∧ findNeighbor m s.tree 4 p 1 0 0 false = .fatal := by
  obtain ⟨s, hs, hr⟩ := polReach
  have h : polState.map (fun s => (decide ((4, ⟨3, 0, 0⟩, -1) ∈ meshBlocks polMesh s.tree),
      decide ((2, ⟨1, 0, 0⟩, -1) ∈ meshBlocks polMesh s.tree),
      findNeighbor polMesh s.tree 4 ⟨3, 0, 0⟩ 1 0 0 false)) = some (true, true, .fatal) := by
    decide +kernel
  rw [hs] at h
  simp only [Option.map_some, Option.some.injEq, Prod.mk.injEq, decide_eq_true_eq] at h
  refine ⟨polMesh, s, ⟨3, 0, 0⟩, ⟨1, 0, 0⟩, -1, -1, polMesh_valid, hr, h.1, h.2.1, ?_, h.2.2⟩
  exact ⟨⟨0, .inl rfl, by decide, by decide⟩, fun _ => ⟨0, .inl rfl, by decide, by decide⟩,
    fun _ => ⟨0, .inl rfl, by decide, by decide⟩⟩

/-- The same mesh with the pole at the outer x2 boundary. -/
def polMesh2 : Mesh :=
  ⟨2, 2, 4, 2, true, true, .outflow, .outflow, .outflow, .polar, .periodic, .periodic⟩

theorem polMesh2_valid : polMesh2.Valid := by constructor <;> decide

/-- Request a block of level 4 at the outer pole. -/
def polState2 : Option St := addMeshBlock polMesh2 4 ⟨0, 7, 8⟩ ⟨rootGrid polMesh2, 0⟩

theorem polDom2 : Dom polMesh2 4 ⟨0, 7, 8⟩ := by constructor <;> unfold DomDim <;> decide

/-- **C11 (negation, derefinement)** With a pole at the outer x2 boundary, the `Derefine` call on the
node opposite of a block of level 4 is carried out although it leaves a block of level 2 opposite of
that block. -/
theorem polar_derefine_unbalanced : ∃ (m : Mesh) (s s' : St) (p q : Pos) (g g' : Int),
    m.Valid ∧ Reach m s ∧ derefine m 2 q s = some s' ∧ Reach m s' ∧
    (4, p, g) ∈ meshBlocks m s'.tree ∧ (2, q, g') ∈ meshBlocks m s'.tree ∧ PoleTouch m 4 p 2 q := by
  obtain ⟨s, hs, _⟩ := add_block_honoured polMesh2_valid (.start 0) polDom2
  have hs' : polState2 = some s := hs
  have hr : Reach polMesh2 s := .add (.start 0) polDom2 hs
  have h : polState2.map (fun s =>
      ((match s.tree.get 2 ⟨0, 1, 0⟩ with | .node _ _ => true | _ => false),
      (derefine polMesh2 2 ⟨0, 1, 0⟩ s).map (fun s' =>
      (decide ((4, ⟨0, 7, 8⟩, -1) ∈ meshBlocks polMesh2 s'.tree),
      decide ((2, ⟨0, 1, 0⟩, -1) ∈ meshBlocks polMesh2 s'.tree))))) = some (true, some (true, true)) := by
    decide +kernel
  rw [hs'] at h
  simp only [Option.map_some, Option.some.injEq, Prod.mk.injEq] at h
  obtain ⟨h1, h2⟩ := h
  rcases e : derefine polMesh2 2 ⟨0, 1, 0⟩ s with _ | s'
  · rw [e] at h2; simp at h2
  rw [e] at h2
  simp only [Option.map_some, Option.some.injEq, Prod.mk.injEq, decide_eq_true_eq] at h2
  rcases hg : s.tree.get 2 ⟨0, 1, 0⟩ with _ | g | ⟨g, k⟩
  · rw [hg] at h1; simp at h1
  · rw [hg] at h1; simp at h1
  refine ⟨polMesh2, s, s', ⟨0, 7, 8⟩, ⟨0, 1, 0⟩, -1, -1, polMesh2_valid, hr, e, ?_, h2.1, h2.2, ?_⟩
  · exact .derefine hr (by unfold NoShear; decide) (by constructor <;> unfold DomDim <;> decide)
      (by decide) hg e
  · exact ⟨rfl, ⟨0, .inl rfl, by decide, by decide⟩, rfl, rfl, ⟨1, .inl rfl, by decide, by decide⟩⟩

/-- **C11 (partial)** If only the outer x2 boundary is a pole, every mesh built by refinement
requests without derefinement is balanced: blocks that touch, also across the pole, differ by at
most one level.  Missing, because false: meshes with an inner pole, and derefinement. -/
theorem outer_pole_balanced_partial {m : Mesh} (hm : m.Valid) (hin : m.ix2 ≠ .polar)
    (hout : m.ox2 = .polar) (hper : m.ix3 = .periodic) {s : St} (h : ReachR m s) {L K : Nat}
    {p q : Pos} {g g' : Int} (hA : (L, p, g) ∈ meshBlocks m s.tree)
    (hB : (K, q, g') ∈ meshBlocks m s.tree)
    (ht : Touch m L p K q ∨ PoleTouch m L p K q) : L ≤ K + 1 ∧ K ≤ L + 1 := by
  have hi := h.inv hm
  obtain ⟨hdp, h1⟩ := (block_iff hm hi.wf).1 hA
  obtain ⟨hdq, h2⟩ := (block_iff hm hi.wf).1 hB
  rcases Nat.lt_trichotomy L K with hlt | heq | hgt
  · obtain ⟨d, rfl⟩ : ∃ d, K = L + d + 1 := ⟨K - L - 1, by omega⟩
    have : d = 0 := by
      rcases ht with ht | ht
      · exact balance_shift hm (fun _ => hin) hi hdp hdq h1 h2 ht
      · exact balance_pole hm hin hout hper hi hdp hdq h1 h2 ht
    omega
  · omega
  · obtain ⟨d, rfl⟩ : ∃ d, L = K + d + 1 := ⟨L - K - 1, by omega⟩
    have : d = 0 := by
      rcases ht with ht | ht
      · exact balance_shift hm (fun _ => hin) hi hdq hdp h2 h1 ht.symm
      · exact balance_pole hm hin hout hper hi hdq hdp h2 h1 ht.symm
    omega

/-- In the example a block of level 4 and one of level 3 touch across the pole. -/
example : (∃ s, ReachR polMesh2 s ∧ (4, ⟨0, 7, 8⟩, -1) ∈ meshBlocks polMesh2 s.tree ∧
    (3, ⟨0, 3, 0⟩, -1) ∈ meshBlocks polMesh2 s.tree) ∧ PoleTouch polMesh2 4 ⟨0, 7, 8⟩ 3 ⟨0, 3, 0⟩ := by
  obtain ⟨s, hs, _⟩ := add_block_honoured polMesh2_valid (.start 0) polDom2
  have hs' : polState2 = some s := hs
  have h : polState2.map (fun s => (decide ((4, ⟨0, 7, 8⟩, -1) ∈ meshBlocks polMesh2 s.tree),
      decide ((3, ⟨0, 3, 0⟩, -1) ∈ meshBlocks polMesh2 s.tree))) = some (true, true) := by
    decide +kernel
  rw [hs'] at h
  simp only [Option.map_some, Option.some.injEq, Prod.mk.injEq, decide_eq_true_eq] at h
  refine ⟨⟨s, .add (.start 0) polDom2 hs, h.1, h.2⟩, ?_⟩
  exact ⟨rfl, ⟨0, .inl rfl, by decide, by decide⟩, rfl, rfl, ⟨1, .inl rfl, by decide, by decide⟩⟩

end Verif.Tree
