import Verif.Lemmas.TreeRestart

/-! # Invariants of reachable trees -/
namespace Verif.Tree

theorem foldlM_true {α : Type} {T : α → Option Bool} (l : List α)
    (h : l.foldlM (fun b a => if b then T a else some false) true = some true) :
    ∀ a ∈ l, T a = some true := by
  have hf : ∀ l : List α, l.foldlM (fun b a => if b then T a else some false) false = some false := by
    intro l
    induction l with
    | nil => rfl
    | cons a l ih => rw [List.foldlM_cons]; simp only [Bool.false_eq_true, if_false]; exact ih
  induction l with
  | nil => simp
  | cons a l ih =>
    rw [List.foldlM_cons] at h
    simp only [if_true] at h
    rcases ha : T a with _ | b
    · rw [ha] at h; simp at h
    · rw [ha] at h
      simp only [Option.bind_eq_bind, Option.bind_some] at h
      cases b
      · rw [hf] at h; simp at h
      · intro x hx
        rcases List.mem_cons.1 hx with rfl | hx
        · exact ha
        · exact ih h x hx

/-- Outcome of `Derefine` on any mesh. -/
theorem derefine_cases {m : Mesh} (hm : m.Valid) {s s' : St} (hw : WF m s.tree) {L : Nat}
    (hL : m.rootLevel ≤ L) {p : Pos} (hp : Dom m L p) {g : Int} (h : s.tree.at L p = .node g)
    (hd : derefine m L p s = some s') :
    s' = s ∨ ((∀ n : Fin 8, n.val < m.nleaf → ∃ g', s.tree.at (L + 1) (p.child n) = .leaf g') ∧
      ∃ g', s.tree.at (L + 1) (p.child 0) = .leaf g' ∧
        s' = ⟨s.tree.put L p (.leaf g'), s.cnt + (m.nleaf - 1 : Int)⟩) := by
  unfold derefine at hd
  simp only at hd
  split at hd
  · simp at hd
  · left; simpa using hd.symm
  · rename_i hall
    right
    have h0 := foldlM_true _ hall (0, 0, 0) (by
      simp only [List.mem_flatMap, List.mem_map]
      refine ⟨0, ?_, 0, ?_, 0, ?_, rfl⟩
      · cases m.f3 <;> simp [offs]
      · cases m.f2 <;> simp [offs]
      · simp [offs])
    have hk := derefineTest_self hm hw hL hp h h0
    refine ⟨hk, ?_⟩
    obtain ⟨g', hg⟩ := hk 0 (nleaf_pos m)
    refine ⟨g', hg, ?_⟩
    obtain ⟨k, e⟩ := at_node_iff.1 h
    rw [at_kid e] at hg
    rw [e] at hd
    simp only at hd
    rcases hk0 : k 0 with _ | g2 | ⟨g2, k2⟩
    · rw [hk0] at hg; simp [Tree.kind] at hg
    · rw [hk0] at hg hd; simp [Tree.kind] at hg; subst hg; simpa using hd.symm
    · rw [hk0] at hg; simp [Tree.kind] at hg

theorem sum_one {l : List (Fin 8)} {f : Fin 8 → Nat} (h : ∀ n ∈ l, f n = 1) : (l.map f).sum = l.length := by
  induction l with
  | nil => rfl
  | cons a l ih =>
    simp only [List.map_cons, List.sum_cons, List.length_cons, h a (by simp),
      ih (fun n hn => h n (by simp [hn]))]
    omega

theorem count_collapse {m : Mesh} (hm : m.Valid) {t : Tree} {L : Nat} {p : Pos} (hp : Dom m L p)
    {g : Int} (h : t.at L p = .node g)
    (hk : ∀ n : Fin 8, n.val < m.nleaf → ∃ g', t.at (L + 1) (p.child n) = .leaf g') (g' : Int) :
    (t.put L p (.leaf g')).count m + m.nleaf = t.count m + 1 := by
  obtain ⟨k, e⟩ := at_node_iff.1 h
  have := count_put (m := m) t L p (.leaf g') (hp.bits hm) (by rw [e]; simp)
  rw [e] at this
  have hc : (Tree.node g k).count m = m.nleaf := by
    simp only [Tree.count]
    rw [sum_one, kids_length]
    intro n hn
    obtain ⟨g2, h2⟩ := hk n (mem_kids.1 hn)
    rw [at_kid e] at h2
    cases hkn : k n <;> rw [hkn] at h2 <;> simp [Tree.kind] at h2
    rfl
  rw [hc] at this
  simpa [Tree.count] using this

theorem okTrue (m : Mesh) (t : Tree) : OkX m t (fun _ _ => True) := fun _ _ _ _ _ h => absurd trivial h

theorem WF.shape {m : Mesh} {t t' : Tree} (h : ∀ K q, (t'.at K q).shape = (t.at K q).shape)
    (hw : WF m t) : WF m t' := by
  refine ⟨?_, ?_, ?_⟩
  · intro h0
    have := (shape_null (h 0 ⟨0, 0, 0⟩)).1 (by rw [h0]; rfl)
    rw [at_null_iff] at this
    exact hw.root (by simpa using this)
  · intro L p g hd hn n
    rw [← hw.kids L p g hd ((shape_node (h L p) g).1 hn) n, Ne, Ne, shape_null (h _ _)]
  · intro L p g hd hl
    obtain ⟨g', h'⟩ := (shape_leaf (h L p)).1 ⟨g, hl⟩
    exact hw.leaf L p g' hd h'

/-- Reachable trees are well formed, on every mesh. -/
theorem Reach.wf {m : Mesh} (hm : m.Valid) {s : St} (h : Reach m s) : WF m s.tree := by
  induction h with
  | start c => exact rootGrid_wf hm
  | add _ hd he ih =>
    obtain ⟨s2, e2, w2, _⟩ := add_spec hm _ _ _ _ ih (okTrue m _) hd
    rw [he] at e2; simp at e2; rw [e2]; exact w2
  | refine _ hd hex he ih =>
    obtain ⟨s2, e2, w2, _⟩ := refine_spec hm ih (okTrue m _) hd (by rwa [Ne, at_null_iff])
    rw [he] at e2; simp at e2; rw [e2]; exact w2
  | derefine _ _ hd hL hn he ih =>
    have hn' := at_node_iff.2 ⟨_, hn⟩
    rcases derefine_cases hm ih hL hd hn' he with h | ⟨_, g', _, h⟩
    · rw [h]; exact ih
    · rw [h]; exact collapse_wf hm ih hL hd (by rw [hn']; simp) g'
  | number c _ ih => exact ih.shape (number_shape _ _)
  | recount c _ ih => exact ih

/-- On meshes without poles the full invariant holds. -/
theorem Reach.inv {m : Mesh} (hm : m.Valid) (hnp : NoPolar m) {s : St} (h : Reach m s) :
    Inv m s.tree := by
  induction h with
  | start c => exact ⟨rootGrid_wf hm, rootGrid_ok hm _⟩
  | add _ hd he ih =>
    obtain ⟨s2, e2, w2, o2, _⟩ := add_spec hm _ _ _ _ ih.wf ih.ok hd
    rw [he] at e2; simp at e2; rw [e2]; exact ⟨w2, o2⟩
  | refine _ hd hex he ih =>
    obtain ⟨s2, e2, w2, o2, _⟩ := refine_spec hm ih.wf ih.ok hd (by rwa [Ne, at_null_iff])
    rw [he] at e2; simp at e2; rw [e2]; exact ⟨w2, o2⟩
  | derefine _ hns hd hL hn he ih =>
    have hn' := at_node_iff.2 ⟨_, hn⟩
    rcases derefine_eq hm hnp hns ih hL hd hn' with ⟨_, h⟩ | ⟨hc, g', _, h⟩
    · rw [he] at h; simp at h; rw [h]; exact ih
    · rw [he] at h; simp at h; rw [h]; exact collapse_inv hm hnp ih hL hd hn' hc g'
  | number c _ ih => exact ih.shape (number_shape _ _)
  | recount c _ ih => exact ih

theorem RefineStar.grow {m : Mesh} (hm : m.Valid) {s s' : St} (hw : WF m s.tree)
    (h : RefineStar m s s') : WF m s'.tree ∧ Inh s.tree s'.tree := by
  induction h with
  | refl => exact ⟨hw, Inh.refl _⟩
  | step _ hd hex he ih =>
    obtain ⟨s2, e2, w2, _, g2, _⟩ := refine_spec hm ih.1 (okTrue m _) hd (by rwa [Ne, at_null_iff])
    rw [he] at e2; simp at e2; rw [e2]
    exact ⟨w2, ih.2.trans g2.inh⟩

/-- First descendant of a location, `j` levels down. -/
theorem child_zero (p : Pos) : p.child 0 = ⟨2 * p.x1, 2 * p.x2, 2 * p.x3⟩ := by
  simp [Pos.child]

/-- The recorded gids during a sequence of derefinements: every leaf carries the gid of an old leaf
above it, of itself, or of the first of its old descendants. -/
def GidOk (t t' : Tree) : Prop := ∀ K q g, InRange K q → t'.at K q = .leaf g →
  (∃ j, j ≤ K ∧ t.at (K - j) (q.shr j) = .leaf g) ∨
  (∃ j, 0 < j ∧ t.at (K + j) ⟨q.x1 * 2 ^ j, q.x2 * 2 ^ j, q.x3 * 2 ^ j⟩ = .leaf g)

theorem DerefineStar.gid {m : Mesh} (hm : m.Valid) {t0 : Tree} {s s' : St} (hw : WF m s.tree)
    (h0 : GidOk t0 s.tree) (h : DerefineStar m s s') : WF m s'.tree ∧ GidOk t0 s'.tree := by
  induction h with
  | refl => exact ⟨hw, h0⟩
  | @step s1 s' L p g0 k0 _ hd hL hn he ih =>
    have hn' := at_node_iff.2 ⟨_, hn⟩
    rcases derefine_cases hm ih.1 hL hd hn' he with h | ⟨_, g', hg', h⟩
    · rw [h]; exact ih
    · rw [h]
      refine ⟨collapse_wf hm ih.1 hL hd (by rw [hn']; simp) g', ?_⟩
      intro K q g hq hl
      simp only at hl
      rw [at_collapse (hd.inRange hm) (by rw [hn']; simp) g' hq] at hl
      split at hl
      · rename_i hc
        split at hl
        · rename_i hK
          subst hK
          simp at hl; subst hl
          have hqp : q = p := by have := hc.2; simpa using this
          subst hqp
          rcases ih.2 (K + 1) (q.child 0) g' (hq.child 0) hg' with ⟨j, hj, h1⟩ | ⟨j, hj, h1⟩
          · rcases j with _ | j
            · right
              refine ⟨1, by omega, ?_⟩
              simp only [Nat.sub_zero, Pos.shr_zero] at h1
              rw [child_zero] at h1
              simpa [Nat.mul_comm] using h1
            · left
              refine ⟨j, by omega, ?_⟩
              rw [Pos.shr_succ, Pos.half_child] at h1
              rwa [show K + 1 - (j + 1) = K - j by omega] at h1
          · right
            refine ⟨j + 1, by omega, ?_⟩
            rw [child_zero] at h1
            simp only at h1
            rw [show K + (j + 1) = K + 1 + j by omega, Nat.pow_succ']
            simp only [← Nat.mul_assoc]
            rw [Nat.mul_comm q.x1 2, Nat.mul_comm q.x2 2, Nat.mul_comm q.x3 2]
            exact h1
        · simp at hl
      · exact ih.2 K q g hq hl

end Verif.Tree
