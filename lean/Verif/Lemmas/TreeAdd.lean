import Verif.Lemmas.TreeGrow

/-! # Specification of `AddMeshBlock` and `Refine` -/
namespace Verif.Tree

/-- All internal nodes outside the exception set `S` (the nodes being refined, further up on the
call stack) have gid `-1` and their same-level neighbours exist. -/
def OkX (m : Mesh) (t : Tree) (S : Nat → Pos → Prop) : Prop :=
  ∀ L p g, Dom m L p → t.at L p = .node g → ¬ S L p →
    g = -1 ∧ (m.rootLevel ≤ L → ∀ q ∈ refineNbrs m L p, t.at L q ≠ .null)

/-- Effect of refinement operations below level `K` on tree and counter. -/
structure Grow (m : Mesh) (s s' : St) (K : Nat) : Prop where
  le : Le s.tree s'.tree
  new : ∀ L p, InRange L p → (∃ g, s'.tree.at L p = .node g) →
    (∃ g, s.tree.at L p = .node g) ∨ L < K
  inh : Inh s.tree s'.tree
  cnt : (s'.tree.count m : Int) + s.cnt = s.tree.count m + s'.cnt

theorem Grow.refl (m : Mesh) (s : St) (K : Nat) : Grow m s s K :=
  ⟨Le.refl _, fun _ _ _ h => .inl h, Inh.refl _, rfl⟩

theorem Grow.trans {m : Mesh} {s s' s'' : St} {K : Nat} (h : Grow m s s' K) (h' : Grow m s' s'' K) :
    Grow m s s'' K := by
  refine ⟨h.le.trans h'.le, ?_, h.inh.trans h'.inh, ?_⟩
  · intro L p hp hn
    rcases h'.new L p hp hn with h1 | h1
    · exact h.new L p hp h1
    · exact .inr h1
  · have := h.cnt; have := h'.cnt; omega

theorem Grow.mono {m : Mesh} {s s' : St} {K K' : Nat} (h : Grow m s s' K) (hK : K ≤ K') :
    Grow m s s' K' :=
  ⟨h.le, fun L p hp hn => (h.new L p hp hn).imp id (fun h1 => by omega), h.inh, h.cnt⟩

/-- `t'` is below every completed tree above `t` that satisfies `P`. -/
def Least (m : Mesh) (t t' : Tree) (P : Tree → Prop) : Prop :=
  ∀ T, WF m T → OkX m T (fun _ _ => False) → Le t T → P T → Le t' T

def AddSpec (m : Mesh) (L : Nat) : Prop :=
  ∀ (p : Pos) (s : St) (S : Nat → Pos → Prop), WF m s.tree → OkX m s.tree S → Dom m L p →
    ∃ s', addMeshBlock m L p s = some s' ∧ WF m s'.tree ∧ OkX m s'.tree S ∧ Grow m s s' L ∧
      s'.tree.at L p ≠ .null ∧ Least m s.tree s'.tree (fun T => T.at L p ≠ .null)

/-! ## The locations visited by `Refine` are inside the mesh -/

theorem wrapDim_lt {i o : BFlag} {n : Nat} (hn : 0 < n) {x : Int} {y : Nat}
    (h : wrapDim i o n x = some y) : y < n := by
  unfold wrapDim at h
  split at h
  · split at h
    · simp at h; omega
    · simp at h
  · split at h
    · split at h
      · simp at h; omega
      · simp at h
    · simp at h; omega

theorem wrapDim2_lt {i o : BFlag} {n : Nat} (hn : 0 < n) {x : Int} {y : Nat} {b : Bool}
    (h : wrapDim2 i o n x = some (y, b)) : y < n := by
  unfold wrapDim2 at h
  split at h
  · split at h
    · simp at h; omega
    · split at h
      · simp at h; omega
      · simp at h
  · split at h
    · split at h
      · simp at h; omega
      · split at h
        · simp at h; omega
        · simp at h
    · simp at h; omega

theorem refineCols_dom {m : Mesh} (hm : m.Valid) {L : Nat} (hL : m.rootLevel ≤ L) {p : Pos}
    {oz : Int} (l : List Int) (z : Nat) (hz : z < m.nmax3 L) :
    ∀ q ∈ refineCols m L p oz l z, Dom m L q := by
  obtain ⟨n1, n2, n3⟩ := nmax_pos hm L
  induction l generalizing z with
  | nil => intro q hq; simp [refineCols] at hq
  | cons oy l ih =>
    intro q hq
    unfold refineCols at hq
    split at hq
    · exact ih z hz q hq
    · rename_i y polar hy
      have hz' : (if polar = true then (z + m.nmax3 L / 2) % m.nmax3 L else z) < m.nmax3 L := by
        split
        · exact Nat.mod_lt _ n3
        · exact hz
      simp only [List.mem_append] at hq
      rcases hq with hq | hq
      · simp only [refineRow, List.mem_filterMap] at hq
        obtain ⟨ox, _, hox⟩ := hq
        split at hox
        · simp at hox
        · simp only [Option.map_eq_some_iff] at hox
          obtain ⟨x, hx, rfl⟩ := hox
          rw [dom_iff_ge hL]
          exact ⟨wrapDim_lt n1 hx, wrapDim2_lt n2 hy, hz'⟩
      · exact ih _ hz' q hq

theorem refineNbrs_dom {m : Mesh} (hm : m.Valid) {L : Nat} (hL : m.rootLevel ≤ L) {p : Pos} :
    ∀ q ∈ refineNbrs m L p, Dom m L q := by
  intro q hq
  unfold refineNbrs at hq
  simp only [List.mem_flatMap] at hq
  obtain ⟨oz, _, hq⟩ := hq
  split at hq
  · simp at hq
  · rename_i z hz
    exact refineCols_dom hm hL _ _ (wrapDim_lt (nmax_pos hm L).2.2 hz) q hq

/-! ## Refine -/

theorem foldl_add_spec {m : Mesh} (hm : m.Valid) {L : Nat} (ih : AddSpec m L) (l : List Pos) :
    ∀ (s : St) (S : Nat → Pos → Prop), WF m s.tree → OkX m s.tree S → (∀ q ∈ l, Dom m L q) →
    ∃ s', l.foldlM (fun s q => addMeshBlock m L q s) s = some s' ∧ WF m s'.tree ∧
      OkX m s'.tree S ∧ Grow m s s' L ∧ (∀ q ∈ l, s'.tree.at L q ≠ .null) ∧
      Least m s.tree s'.tree (fun T => ∀ q ∈ l, T.at L q ≠ .null) := by
  induction l with
  | nil =>
    intro s S hw ho _
    exact ⟨s, rfl, hw, ho, Grow.refl _ _ _, by simp, fun T _ _ h _ => h⟩
  | cons q l ihl =>
    intro s S hw ho hd
    obtain ⟨s1, e1, w1, o1, g1, x1, m1⟩ := ih q s S hw ho (hd q (by simp))
    obtain ⟨s2, e2, w2, o2, g2, x2, m2⟩ := ihl s1 S w1 o1 (fun q' h' => hd q' (by simp [h']))
    refine ⟨s2, by simp [List.foldlM_cons, e1, e2], w2, o2, g1.trans g2, ?_, ?_⟩
    · intro q' hq'
      rcases List.mem_cons.1 hq' with rfl | h'
      · exact (g2.le L _ ((hd _ (by simp)).inRange hm)).2 x1
      · exact x2 q' h'
    · intro T hT hO hle hP
      exact m2 T hT hO (m1 T hT hO hle (hP q (by simp))) (fun q' h' => hP q' (by simp [h']))

theorem refineWith_spec {m : Mesh} (hm : m.Valid) {L : Nat} (ih : AddSpec m L) {p : Pos} {s : St}
    {S : Nat → Pos → Prop} (hw : WF m s.tree) (ho : OkX m s.tree S) (hd : Dom m L p)
    (hex : s.tree.at L p ≠ .null) :
    ∃ s', refineWith m (addMeshBlock m L) L p s = some s' ∧ WF m s'.tree ∧ OkX m s'.tree S ∧
      Grow m s s' (L + 1) ∧ (∃ g, s'.tree.at L p = .node g) ∧
      Least m s.tree s'.tree (fun T => ∃ g, T.at L p = .node g) := by
  have hr := hd.inRange hm
  rcases kind_cases (s.tree.at L p) with h0 | ⟨g, h0⟩ | ⟨g, h0⟩
  · exact absurd h0 hex
  · -- a leaf
    have hroot := hw.leaf L p g hd h0
    have hget := at_leaf_iff.1 h0
    -- the tree with fresh children
    have A := fun {K : Nat} {q : Pos} (hq : InRange K q) =>
      at_expand (m := m) (t := s.tree) hr h0 (K := K) (q := q) hq
    let s1 : St := ⟨s.tree.put L p (fresh m g), s.cnt⟩
    have le1 : Le s.tree s1.tree := by
      intro K q hq
      show ((∃ g, s.tree.at K q = .node g) → ∃ g', (s.tree.put L p (fresh m g)).at K q = .node g') ∧
        (s.tree.at K q ≠ .null → (s.tree.put L p (fresh m g)).at K q ≠ .null)
      rw [A hq]
      split
      · simp
      · split
        · rename_i h2
          have : s.tree.at K q = .null := by
            rw [h2.1, at_null_iff, get_succ, h2.2, hget]; rfl
          rw [this]; simp
        · exact ⟨id, id⟩
    have new1 : ∀ K q, InRange K q → (∃ g', s1.tree.at K q = .node g') →
        (∃ g', s.tree.at K q = .node g') ∨ (K = L ∧ q = p) := by
      intro K q hq
      show (∃ g', (s.tree.put L p (fresh m g)).at K q = .node g') → _
      rw [A hq]
      split
      · rename_i h1; intro _; exact .inr h1
      · split
        · split <;> simp
        · exact .inl
    have inh1 : Inh s.tree s1.tree := by
      intro K q g' hq
      show (s.tree.put L p (fresh m g)).at K q = .leaf g' → _
      rw [A hq]
      split
      · simp
      · split
        · rename_i h1 h2
          split
          · intro h3
            simp at h3
            subst h3
            exact ⟨1, by omega, by rw [Pos.shr_one, h2.2, h2.1]; simpa using h0⟩
          · simp
        · intro h3; exact ⟨0, by omega, by simpa using h3⟩
    have wf1 : WF m s1.tree := by
      have hkid : ∀ n, (s.tree.put L p (fresh m g)).at (L + 1) (p.child n) =
          if n.val < m.nleaf then .leaf g else .null := by
        intro n
        rw [A (hr.child n), if_neg (by omega), if_pos ⟨rfl, by simp⟩]; simp
      refine ⟨?_, ?_, ?_⟩
      · intro h
        have hq : InRange 0 (⟨0, 0, 0⟩ : Pos) := by simp [InRange]
        have := (le1 0 ⟨0, 0, 0⟩ hq).2 (by simpa [Tree.at] using hw.root)
        exact this (by simp [Tree.at, h, Tree.kind])
      · intro K q g' hq hn n
        by_cases h1 : K = L ∧ q = p
        · obtain ⟨rfl, rfl⟩ := h1
          show (s.tree.put _ _ (fresh m g)).at _ _ ≠ .null ↔ _
          rw [hkid]
          constructor
          · intro h2
            split at h2
            · rename_i h3; exact Dom.child hm hroot hd h3
            · exact absurd rfl h2
          · intro h2
            rw [if_pos (child_lt_nleaf hm h2)]; simp
        · have hn' := hn
          have hqr := hq.inRange hm
          rcases new1 K q hqr ⟨g', hn⟩ with ⟨g2, h2⟩ | h2
          · rw [← hw.kids K q g2 hq h2 n]
            show (s.tree.put L p (fresh m g)).at _ _ ≠ .null ↔ _
            rw [A (hqr.child n)]
            by_cases h3 : K + 1 = L ∧ q.child n = p
            · rw [if_pos h3]
              have : s.tree.at (K + 1) (q.child n) = .leaf g := by rw [h3.1, h3.2]; exact h0
              simp [this]
            · rw [if_neg h3]
              by_cases h4 : K + 1 = L + 1 ∧ (q.child n).half = p
              · rw [Pos.half_child] at h4
                exact absurd ⟨by omega, h4.2⟩ h1
              · rw [if_neg h4]
          · exact absurd h2 h1
      · intro K q g' hq
        show (s.tree.put L p (fresh m g)).at K q = .leaf g' → _
        rw [A (hq.inRange hm)]
        split
        · simp
        · split
          · rename_i h2; intro _; omega
          · intro h3; exact hw.leaf K q g' hq h3
    have ok1 : OkX m s1.tree (fun K q => S K q ∨ (K = L ∧ q = p)) := by
      intro K q g' hq hn hS
      have hqr := hq.inRange hm
      have hn0 : s.tree.at K q = .node g' := by
        have hn1 : (s.tree.put L p (fresh m g)).at K q = .node g' := hn
        rw [A hqr, if_neg (fun h => hS (.inr h))] at hn1
        split at hn1
        · split at hn1 <;> simp at hn1
        · exact hn1
      have h1 := ho K q g' hq hn0 (fun h => hS (.inl h))
      refine ⟨h1.1, fun hK q' hq' => ?_⟩
      exact (le1 K q' ((refineNbrs_dom hm hK q' hq').inRange hm)).2 (h1.2 hK q' hq')
    obtain ⟨s2, e2, w2, o2, g2, x2, m2⟩ := foldl_add_spec hm ih (refineNbrs m L p) s1 _ wf1 ok1
      (refineNbrs_dom hm hroot)
    have hp1 : s1.tree.at L p = .node g := by
      show (s.tree.put L p (fresh m g)).at L p = _
      rw [A hr]; simp
    obtain ⟨gp, hp2⟩ := (g2.le L p hr).1 ⟨g, hp1⟩
    have B := fun {K : Nat} {q : Pos} (hq : InRange K q) =>
      at_setGid (t := s2.tree) (g' := -1) hr hp2 (K := K) (q := q) hq
    have nodeB : ∀ K q, InRange K q → ((∃ g', (s2.tree.setGid L p (-1)).at K q = .node g') ↔
        ∃ g', s2.tree.at K q = .node g') := by
      intro K q hq
      rw [B hq]
      split
      · rename_i h; rw [h.1, h.2, hp2]; simp
      · rfl
    have nullB : ∀ K q, InRange K q → ((s2.tree.setGid L p (-1)).at K q ≠ .null ↔
        s2.tree.at K q ≠ .null) := by
      intro K q hq
      rw [B hq]
      split
      · rename_i h; rw [h.1, h.2, hp2]; simp
      · rfl
    have leafB : ∀ K q g', InRange K q → (s2.tree.setGid L p (-1)).at K q = .leaf g' →
        s2.tree.at K q = .leaf g' := by
      intro K q g' hq
      rw [B hq]
      split
      · simp
      · exact id
    refine ⟨⟨s2.tree.setGid L p (-1), s2.cnt + (m.nleaf - 1 : Int)⟩, ?_, ?_, ?_, ?_, ?_, ?_⟩
    · unfold refineWith
      rw [hget]
      have e2' : (refineNbrs m L p).foldlM (fun s q => addMeshBlock m L q s)
        ⟨s.tree.put L p (.node g (fun n => if n.val < m.nleaf then .leaf g else .null)),
          s.cnt⟩ = some s2 := e2
      simp only [e2']
    · -- WF
      refine ⟨?_, ?_, ?_⟩
      · intro h
        have hq : InRange 0 (⟨0, 0, 0⟩ : Pos) := by simp [InRange]
        have h1 := (nullB 0 ⟨0, 0, 0⟩ hq).2 (by simpa [Tree.at] using w2.root)
        exact h1 (by
          have h' : s2.tree.setGid L p (-1) = .null := h
          simp [Tree.at, h', Tree.kind])
      · intro K q g' hq hn n
        obtain ⟨g3, h3⟩ := (nodeB K q (hq.inRange hm)).1 ⟨g', hn⟩
        rw [← w2.kids K q g3 hq h3 n]
        exact nullB _ _ ((hq.inRange hm).child n)
      · intro K q g' hq hn
        exact w2.leaf K q g' hq (leafB K q g' (hq.inRange hm) hn)
    · -- OkX
      intro K q g' hq hn hS
      by_cases h1 : K = L ∧ q = p
      · have hn' : (s2.tree.setGid L p (-1)).at K q = .node g' := hn
        rw [B (hq.inRange hm), if_pos h1] at hn'
        obtain ⟨rfl, rfl⟩ := h1
        refine ⟨by simp at hn'; omega, fun hK q' hq' => ?_⟩
        exact (nullB _ _ ((refineNbrs_dom hm hK q' hq').inRange hm)).2 (x2 q' hq')
      · have hn' : (s2.tree.setGid L p (-1)).at K q = .node g' := hn
        rw [B (hq.inRange hm), if_neg h1] at hn'
        have h2 := o2 K q g' hq hn' (by rintro (h | h); exact hS h; exact h1 h)
        refine ⟨h2.1, fun hK q' hq' => ?_⟩
        exact (nullB _ _ ((refineNbrs_dom hm hK q' hq').inRange hm)).2 (h2.2 hK q' hq')
    · -- Grow
      refine ⟨?_, ?_, ?_, ?_⟩
      · apply (le1.trans g2.le).trans
        intro K q hq
        exact ⟨(nodeB K q hq).2, (nullB K q hq).2⟩
      · intro K q hq hn
        rcases g2.new K q hq ((nodeB K q hq).1 hn) with h1 | h1
        · rcases new1 K q hq h1 with h2 | h2
          · exact .inl h2
          · right; omega
        · right; omega
      · apply (inh1.trans g2.inh).trans
        intro K q g' hq hl
        exact ⟨0, by omega, by simpa using leafB K q g' hq hl⟩
      · have c1 : (s.tree.put L p (fresh m g)).count m + 1 = s.tree.count m + m.nleaf := by
          have := count_put (m := m) s.tree L p (fresh m g) (hd.bits hm) (by rw [hget]; simp)
          rw [hget, count_fresh] at this
          exact this
        have c2 := g2.cnt
        have c3 := count_setGid hm (g' := -1) hd hp2
        have c1' : s1.tree.count m + 1 = s.tree.count m + m.nleaf := c1
        have c4 : s1.cnt = s.cnt := rfl
        show ((s2.tree.setGid L p (-1)).count m : Int) + s.cnt =
          s.tree.count m + (s2.cnt + (m.nleaf - 1 : Int))
        omega
    · exact (nodeB L p hr).2 ⟨gp, hp2⟩
    · intro T hT hO hle hTp
      obtain ⟨gT, hTp⟩ := hTp
      have le1T : Le s1.tree T := by
        intro K q hq
        show ((∃ g', (s.tree.put L p (fresh m g)).at K q = .node g') → _) ∧
          ((s.tree.put L p (fresh m g)).at K q ≠ .null → _)
        rw [A hq]
        split
        · rename_i h1; rw [h1.1, h1.2, hTp]; simp
        · split
          · rename_i h2
            split
            · rename_i h3
              refine ⟨by simp, fun _ => ?_⟩
              obtain ⟨rfl, h4⟩ := h2
              have hdq : Dom m (L + 1) q := by
                rw [← Pos.child_half q, h4]; exact Dom.child hm hroot hd h3
              exact hT.exists_child hdq (by rw [h4]; exact hTp)
            · simp
          · exact hle K q hq
      have := m2 T hT hO le1T (fun q hq => (hO L p gT hd hTp (by simp)).2 hroot q hq)
      intro K q hq
      exact ⟨fun h => (this K q hq).1 ((nodeB K q hq).1 h),
        fun h => (this K q hq).2 ((nullB K q hq).1 h)⟩
  · -- already refined
    obtain ⟨k, hk⟩ := at_node_iff.1 h0
    refine ⟨s, ?_, hw, ho, Grow.refl _ _ _, ⟨g, h0⟩, fun T _ _ h _ => h⟩
    unfold refineWith; rw [hk]

/-- `AddMeshBlock` called for any location inside the mesh. -/
theorem add_spec {m : Mesh} (hm : m.Valid) (L : Nat) : AddSpec m L := by
  induction L with
  | zero =>
    intro p s S hw ho hd
    refine ⟨s, rfl, hw, ho, Grow.refl _ _ _, ?_, fun T _ _ h _ => h⟩
    simpa [Tree.at] using hw.root
  | succ L ih =>
    intro p s S hw ho hd
    obtain ⟨s1, e1, w1, o1, g1, x1, m1⟩ := ih p.half s S hw ho hd.half
    obtain ⟨s2, e2, w2, o2, g2, x2, m2⟩ := refineWith_spec hm ih w1 o1 hd.half x1
    obtain ⟨g, hg⟩ := x2
    have hx := w2.exists_child hd hg
    refine ⟨s2, ?_, w2, o2, (g1.mono (by omega)).trans g2, hx, ?_⟩
    · unfold addMeshBlock
      rw [e1]
      simp only [e2]
      split
      · rename_i h; exact absurd (at_null_iff.2 h) hx
      · rfl
    · intro T hT hO hle hP
      have hnode := parent_node hP
      exact m2 T hT hO (m1 T hT hO hle (by obtain ⟨g', h'⟩ := hnode; rw [h']; simp)) hnode

theorem refine_spec {m : Mesh} (hm : m.Valid) {L : Nat} {p : Pos} {s : St}
    {S : Nat → Pos → Prop} (hw : WF m s.tree) (ho : OkX m s.tree S) (hd : Dom m L p)
    (hex : s.tree.at L p ≠ .null) :
    ∃ s', refine m L p s = some s' ∧ WF m s'.tree ∧ OkX m s'.tree S ∧
      Grow m s s' (L + 1) ∧ (∃ g, s'.tree.at L p = .node g) ∧
      Least m s.tree s'.tree (fun T => ∃ g, T.at L p = .node g) :=
  refineWith_spec hm (add_spec hm L) hw ho hd hex

end Verif.Tree
