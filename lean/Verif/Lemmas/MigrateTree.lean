import Verif.Lemmas.MigrateIdx

/-! # An adaptation step keeps, splits and merges blocks -/
namespace Verif.Tree

/-- Old and new subtree of one location. -/
inductive Rel (m : Mesh) : Tree → Tree → Prop
  | null : Rel m .null .null
  | keep (g : Int) : Rel m (.leaf g) (.leaf g)
  | split (g g' : Int) (k' : Fin 8 → Tree) (h : ∀ n ∈ m.kids, k' n = .leaf g) : Rel m (.leaf g) (.node g' k')
  | merge (g g0 : Int) (k : Fin 8 → Tree) (h : ∀ n ∈ m.kids, ∃ g, k n = .leaf g) (h0 : k 0 = .leaf g0) :
      Rel m (.node g k) (.leaf g0)
  | node (g g' : Int) (k k' : Fin 8 → Tree) (h : ∀ n ∈ m.kids, Rel m (k n) (k' n)) :
      Rel m (.node g k) (.node g' k')

/-- The segments are consistent with the block lists of the two subtrees. -/
structure SegsOk (m : Mesh) (l l' : List (Nat × Pos × Int)) (S : List Seg) : Prop where
  old : l.map (fun b => (b.1, b.2.1)) = S.flatMap (Seg.old m)
  new : l'.map (fun b => (b.1, b.2.1)) = S.flatMap (Seg.new m)
  gid : ∀ a : Nat, l.map (fun b => b.2.2) = (List.range' a l.length).map Int.ofNat →
    l'.map (fun b => b.2.2) = (segN2o m S a).map Int.ofNat

theorem SegsOk.append {m : Mesh} {l1 l1' l2 l2' : List (Nat × Pos × Int)} {S1 S2 : List Seg}
    (h1 : SegsOk m l1 l1' S1) (h2 : SegsOk m l2 l2' S2) : SegsOk m (l1 ++ l2) (l1' ++ l2') (S1 ++ S2) := by
  refine ⟨by simp [h1.old, h2.old], by simp [h1.new, h2.new], fun a ha => ?_⟩
  rw [List.length_append, ← List.range'_append_1, List.map_append, List.map_append] at ha
  obtain ⟨e1, e2⟩ := List.append_inj ha (by simp)
  rw [List.map_append, segN2o_append, List.map_append, h1.gid a e1]
  have hl : l1.length = (S1.map (Seg.olen m)).sum := by
    rw [← len_flatMap_old, ← h1.old]; simp
  rw [hl] at e2
  rw [h2.gid _ e2]

theorem SegsOk.flatMap {m : Mesh} {f f' : Fin 8 → List (Nat × Pos × Int)} (ks : List (Fin 8))
    (h : ∀ n ∈ ks, ∃ S, SegsOk m (f n) (f' n) S) : ∃ S, SegsOk m (ks.flatMap f) (ks.flatMap f') S := by
  induction ks with
  | nil => exact ⟨[], rfl, rfl, fun a _ => rfl⟩
  | cons n ks ih =>
    obtain ⟨S1, h1⟩ := h n (by simp)
    obtain ⟨S2, h2⟩ := ih (fun n hn => h n (by simp [hn]))
    exact ⟨S1 ++ S2, by simpa using h1.append h2⟩

theorem flatMap_leaves {m : Mesh} (L : Nat) (p : Pos) (k : Fin 8 → Tree) (G : Fin 8 → Int) (ks : List (Fin 8))
    (h : ∀ n ∈ ks, k n = .leaf (G n)) :
    ks.flatMap (fun n => (k n).blocks m (L + 1) (p.child n)) = ks.map (fun n => (L + 1, p.child n, G n)) := by
  induction ks with
  | nil => rfl
  | cons n ks ih =>
    rw [List.flatMap_cons, ih (fun n hn => h n (by simp [hn])), h n (by simp)]
    simp [Tree.blocks]

theorem Rel.segs {m : Mesh} {t t' : Tree} (h : Rel m t t') (L : Nat) (p : Pos) :
    ∃ S, SegsOk m (t.blocks m L p) (t'.blocks m L p) S := by
  induction h generalizing L p with
  | null => exact ⟨[], rfl, rfl, fun a _ => rfl⟩
  | keep g =>
    refine ⟨[.keep (L, p)], rfl, rfl, fun a ha => ?_⟩
    simp only [Tree.blocks, segN2o, Seg.nlen, Seg.new] at ha ⊢
    simpa using ha
  | split g g' k' h =>
    refine ⟨[.split (L, p)], rfl, ?_, fun a ha => ?_⟩
    · simp only [Tree.blocks]
      rw [flatMap_leaves L p k' (fun _ => g) _ h]
      simp [Seg.new]
    · simp only [Tree.blocks] at ha ⊢
      rw [flatMap_leaves L p k' (fun _ => g) _ h]
      simp at ha
      simp only [segN2o, Seg.nlen, Seg.new, List.length_map, List.append_nil, List.map_map, ha]
      rw [List.map_replicate, List.eq_replicate_iff]
      simp
  | merge g g0 k h h0 =>
    refine ⟨[.merge (L, p)], ?_, rfl, fun a ha => ?_⟩
    · simp only [Tree.blocks]
      choose! G hG using h
      rw [flatMap_leaves L p k G _ hG]
      simp [Seg.old]
    · simp only [Tree.blocks] at ha ⊢
      choose! G hG using h
      rw [flatMap_leaves L p k G _ hG] at ha
      have h0' := hG 0 (mem_kids.2 (nleaf_pos m))
      rw [h0] at h0'
      simp only [Tree.leaf.injEq] at h0'
      have hk := kids_head m
      rcases hks : m.kids with _ | ⟨n, ks⟩
      · have := kids_length m
        rw [hks] at this
        have := nleaf_pos m; simp at *; omega
      · rw [hks] at hk ha
        have := hk n (by simp)
        subst this
        simp only [List.map_cons, List.length_cons, List.range'_succ, List.cons.injEq] at ha
        simp [segN2o, Seg.nlen, Seg.new, h0', ha.1]
  | node g g' k k' h ih =>
    exact SegsOk.flatMap m.kids (fun n hn => ih n hn (L + 1) (p.child n))

/-- Pointwise description of an adaptation step. -/
structure OneStep (m : Mesh) (t t' : Tree) : Prop where
  wf : WF m t
  wf' : WF m t'
  once : ∀ K q g, InRange K q → t'.at K q = .node g → t.at K q ≠ .null
  node : ∀ K q g, InRange K q → t.at K q = .node g → (∃ g', t'.at K q = .node g') ∨
    ((∃ g', t'.at K q = .leaf g') ∧ ∀ n : Fin 8, n.val < m.nleaf → ∃ g, t.at (K + 1) (q.child n) = .leaf g)
  gid : GidOk t t'

theorem leaf_no_below {t : Tree} {K j : Nat} {q : Pos} {g : Int} (h : t.at K (q.shr j) = .leaf g) (hj : 0 < j) :
    t.at (K + j) q = .null := by
  by_contra hc
  obtain ⟨g', h'⟩ := node_anc hc hj
  rw [h] at h'; simp at h'

theorem shr_mul (q : Pos) (j : Nat) : Pos.shr ⟨q.x1 * 2 ^ j, q.x2 * 2 ^ j, q.x3 * 2 ^ j⟩ j = q := by
  unfold Pos.shr
  have h : 0 < 2 ^ j := Nat.pow_pos (by omega)
  simp [Nat.mul_div_cancel _ h]

theorem OneStep.rel {m : Mesh} (hm : m.Valid) {t t' : Tree} (h : OneStep m t t') (u u' : Tree) (L : Nat) (p : Pos)
    (hp : Dom m L p) (hu : t.get L p = u) (hu' : t'.get L p = u') (hne : u ≠ .null) (hne' : u' ≠ .null) : Rel m u u' := by
  have hpr := hp.inRange hm
  induction u generalizing u' L p with
  | null => exact absurd rfl hne
  | leaf g =>
    have hl := at_leaf_iff.2 hu
    cases u' with
    | null => exact absurd rfl hne'
    | leaf g' =>
      have hl' := at_leaf_iff.2 hu'
      have : g' = g := by
        rcases h.gid L p g' hpr hl' with ⟨j, hj, h1⟩ | ⟨j, hj, h1⟩
        · rcases j with _ | j
          · simp at h1; rw [hl] at h1; simpa using h1.symm
          · have := leaf_no_below h1 (by omega)
            rw [Nat.sub_add_cancel hj, hl] at this; simp at this
        · have := leaf_no_below (t := t) (K := L) (j := j) (q := ⟨p.x1 * 2 ^ j, p.x2 * 2 ^ j, p.x3 * 2 ^ j⟩) (g := g)
            (by rw [shr_mul]; exact hl) hj
          rw [this] at h1; simp at h1
      subst this
      exact .keep _
    | node g' k' =>
      have hn' := at_node_iff.2 ⟨k', hu'⟩
      refine .split _ _ _ (fun n hn => ?_)
      rw [mem_kids] at hn
      have hL := h.wf.leaf L p g hp hl
      have hd := hp.child hm hL hn
      have hex : t'.at (L + 1) (p.child n) ≠ .null :=
        h.wf'.exists_child hd (by rw [Pos.half_child]; exact hn')
      have hnull : t.at (L + 1) (p.child n) = .null :=
        leaf_no_below (j := 1) (g := g) (by rw [Pos.shr_one, Pos.half_child]; exact hl) (by omega)
      rcases kind_cases (t'.at (L + 1) (p.child n)) with h3 | ⟨g3, h3⟩ | ⟨g3, h3⟩
      · exact absurd h3 hex
      · have : g3 = g := by
          rcases h.gid _ _ g3 (hd.inRange hm) h3 with ⟨j, hj, h1⟩ | ⟨j, hj, h1⟩
          · rcases j with _ | j
            · simp at h1; rw [hnull] at h1; simp at h1
            · rw [Pos.shr_succ, Pos.half_child, show L + 1 - (j + 1) = L - j by omega] at h1
              rcases j with _ | j
              · simp at h1; rw [hl] at h1; simpa using h1.symm
              · have := leaf_no_below h1 (by omega)
                rw [Nat.sub_add_cancel (by omega), hl] at this; simp at this
          · have : t.at (L + 1 + j) ⟨(p.child n).x1 * 2 ^ j, (p.child n).x2 * 2 ^ j, (p.child n).x3 * 2 ^ j⟩ ≠ .null := by
              rw [h1]; simp
            have := exists_anc this
            rw [shr_mul] at this
            exact absurd hnull this
        subst this
        have h4 := at_leaf_iff.1 h3
        rw [get_succ, Pos.half_child, hu', Pos.bitIdx_child, kid_node] at h4
        exact h4
      · exact absurd hnull (h.once _ _ g3 (hd.inRange hm) h3)
  | node g k ih =>
    have hn := at_node_iff.2 ⟨k, hu⟩
    have hkid : ∀ n, t.get (L + 1) (p.child n) = k n := by
      intro n; rw [get_succ, Pos.half_child, hu, Pos.bitIdx_child, kid_node]
    cases u' with
    | null => exact absurd rfl hne'
    | leaf g' =>
      have hl' := at_leaf_iff.2 hu'
      rcases h.node L p g hpr hn with ⟨g2, h2⟩ | ⟨-, hk⟩
      · rw [hl'] at h2; simp at h2
      · refine .merge _ _ _ (fun n hn => ?_) ?_
        · obtain ⟨g1, h1⟩ := hk n (mem_kids.1 hn)
          exact ⟨g1, by rw [← hkid]; exact at_leaf_iff.1 h1⟩
        · obtain ⟨g1, h1⟩ := hk 0 (nleaf_pos m)
          have : g' = g1 := by
            rcases h.gid L p g' hpr hl' with ⟨j, hj, h3⟩ | ⟨j, hj, h3⟩
            · rcases j with _ | j
              · simp at h3; rw [hn] at h3; simp at h3
              · have := leaf_no_below h3 (by omega)
                rw [Nat.sub_add_cancel hj, hn] at this; simp at this
            · obtain ⟨j, rfl⟩ : ∃ i, j = i + 1 := ⟨j - 1, by omega⟩
              have e : (⟨p.x1 * 2 ^ (j + 1), p.x2 * 2 ^ (j + 1), p.x3 * 2 ^ (j + 1)⟩ : Pos) =
                  ⟨(p.child 0).x1 * 2 ^ j, (p.child 0).x2 * 2 ^ j, (p.child 0).x3 * 2 ^ j⟩ := by
                rw [child_zero, Nat.pow_succ']
                simp only [Nat.mul_assoc, Nat.mul_left_comm]
              rw [e, show L + (j + 1) = L + 1 + j by omega] at h3
              rcases j with _ | j
              · simp at h3
                rw [h1] at h3; simpa using h3.symm
              · have := leaf_no_below (t := t) (K := L + 1) (j := j + 1)
                  (q := ⟨(p.child 0).x1 * 2 ^ (j + 1), (p.child 0).x2 * 2 ^ (j + 1), (p.child 0).x3 * 2 ^ (j + 1)⟩)
                  (g := g1) (by rw [shr_mul]; exact h1) (by omega)
                rw [this] at h3; simp at h3
          subst this
          rw [← hkid]; exact at_leaf_iff.1 h1
    | node g' k' =>
      have hn' := at_node_iff.2 ⟨k', hu'⟩
      have hkid' : ∀ n, t'.get (L + 1) (p.child n) = k' n := by
        intro n; rw [get_succ, Pos.half_child, hu', Pos.bitIdx_child, kid_node]
      refine .node _ _ _ _ (fun n _ => ?_)
      have e1 := h.wf.kids L p g hp hn n
      have e2 := h.wf'.kids L p g' hp hn' n
      rw [Ne, at_null_iff, hkid] at e1
      rw [Ne, at_null_iff, hkid'] at e2
      by_cases hd : Dom m (L + 1) (p.child n)
      · exact ih n (k' n) (L + 1) (p.child n) hd (hkid n) (hkid' n) (e1.2 hd) (e2.2 hd) (hd.inRange hm)
      · rw [Classical.not_not.1 (fun hc => hd (e1.1 hc)), Classical.not_not.1 (fun hc => hd (e2.1 hc))]
        exact .null

theorem RefineStar.of_fold {m : Mesh} (hm : m.Valid) (l : List (Nat × Pos)) {s s' : St} (hw : WF m s.tree)
    (hl : ∀ b ∈ l, Dom m b.1 b.2 ∧ s.tree.at b.1 b.2 ≠ .null)
    (he : l.foldlM (fun s b => refine m b.1 b.2 s) s = some s') : Inh s.tree s'.tree := by
  induction l generalizing s with
  | nil => simp at he; subst he; exact Inh.refl _
  | cons b l ih =>
    obtain ⟨hd, hex⟩ := hl b (by simp)
    obtain ⟨s1, e1, w1, _, gr, hn, hle⟩ := refine_spec hm hw (okTrue m _) hd hex
    simp only [List.foldlM_cons, e1, Option.bind_eq_bind, Option.bind_some] at he
    exact gr.inh.trans (ih w1 (fun b' hb' => ⟨(hl b' (by simp [hb'])).1,
      (gr.le _ _ ((hl b' (by simp [hb'])).1.inRange hm)).2 (hl b' (by simp [hb'])).2⟩) he)

theorem DerefineStar.trans {m : Mesh} {s s1 s' : St} (h : DerefineStar m s s1) (h' : DerefineStar m s1 s') :
    DerefineStar m s s' := by
  induction h' with
  | refl => exact h
  | step _ hd hL hn he ih => exact .step ih hd hL hn he

theorem DerefineStar.of_fold {m : Mesh} (hm : m.Valid) (hns : NoShear m) {t0 : Tree} (hw0 : WF m t0)
    (cl : List (Nat × Pos)) (hg : ∀ b ∈ cl, Grp m t0 b) (hnd : cl.Nodup) {s s' : St} (hr : Reach m s)
    (hnode : ∀ b ∈ cl, ∃ g, s.tree.at b.1 b.2 = .node g)
    (he : cl.foldlM (fun s b => derefine m b.1 b.2 s) s = some s') : DerefineStar m s s' := by
  induction cl generalizing s with
  | nil => simp at he; subst he; exact .refl _
  | cons b cl ih =>
    obtain ⟨L, p⟩ := b
    have hb := hg (L, p) (by simp)
    obtain ⟨g, hn0⟩ := hnode (L, p) (by simp)
    simp only at hn0
    obtain ⟨hnd1, hnd2⟩ := List.nodup_cons.1 hnd
    simp only [List.foldlM_cons] at he
    rcases h1 : derefine m L p s with _ | s1
    · simp [h1] at he
    · simp only [h1, Option.bind_eq_bind, Option.bind_some] at he
      obtain ⟨k, hk⟩ := at_node_iff.1 hn0
      obtain ⟨a1, -, a3⟩ := derefs_spec hm hns hw0 [(L, p)] (by simpa using hb) (by simp) hr
        (by simpa using ⟨g, hn0⟩) (s' := s1) (by simp [h1])
      have hn1 : ∀ b' ∈ cl, ∃ g, s1.tree.at b'.1 b'.2 = .node g := by
        intro b' hb'
        rcases a3 b'.1 b'.2 ((hg b' (by simp [hb'])).dom.inRange hm) with h | ⟨b5, hb5, h6, h7, h8⟩
        · rw [h]; exact hnode b' (by simp [hb'])
        · simp at hb5
          subst hb5
          exact absurd ⟨h6, h7⟩ (hb.disjoint hm hw0 (hg b' (by simp [hb'])) (by rintro rfl; exact hnd1 hb'))
      exact DerefineStar.trans (.step (.refl _) hb.dom hb.root hk h1)
        (ih (fun b hb => hg b (by simp [hb])) hnd2 a1 hn1 he)

theorem oneStep_of_folds {m : Mesh} (hm : m.Valid) (hnp : NoPolar m) (hns : NoShear m) {t : Tree} {c : Int}
    (hr : Reach m ⟨t, c⟩) {parts : List (List FBlock)} (hf : Flags m t parts) {cl : List (Nat × Pos)}
    (hcl : ∀ b ∈ cl, b ∈ groups m (gathered (-1) parts)) (hnd : cl.Nodup) {s1 s2 : St}
    (h1 : (gathered 1 parts).foldlM (fun s b => refine m b.1 b.2 s) (⟨t, 0⟩ : St) = some s1)
    (h2 : cl.foldlM (fun s b => derefine m b.1 b.2 s) (⟨s1.tree, 0⟩ : St) = some s2) :
    OneStep m t s2.tree := by
  have hw : WF m t := hr.wf hm
  have hr0 : Reach m ⟨t, 0⟩ := .recount 0 hr
  have hl : ∀ b ∈ gathered 1 parts, Dom m b.1 b.2 ∧ t.at b.1 b.2 ≠ .null := by
    intro b hb
    obtain ⟨g, hb⟩ := hf.block (mem_gathered.1 hb)
    have := (block_iff hm hw).1 hb
    exact ⟨this.1, by rw [this.2]; simp⟩
  obtain ⟨s1', e1, r1, le1, c1, n1, l1⟩ := refines_spec hm (gathered 1 parts) hr0 hl
  rw [h1] at e1; simp at e1; subst e1
  have hg : ∀ b ∈ cl, Grp m t b := fun b hb => hf.grp hm hw (hcl b hb)
  have hnode : ∀ b ∈ cl, ∃ g, s1.tree.at b.1 b.2 = .node g := fun b hb =>
    (le1 _ _ ((hg b hb).dom.inRange hm)).1 (hg b hb).node
  obtain ⟨r2, c2, d2⟩ := derefs_spec hm hns hw cl hg hnd (.recount 0 r1) hnode h2
  refine ⟨hw, r2.wf hm, ?_, ?_, ?_⟩
  · intro K q g hq hk'
    refine refined_once hm hnp (hr.inv hm hnp) (l := gathered 1 parts) (fun b hb => (hl b hb).2) l1 (g := g) hq ?_
    rcases d2 K q hq with h | ⟨b, hb, h3, h4, g5, h5⟩
    · simp only at h; rw [← h]; exact hk'
    · exfalso
      rcases Nat.lt_or_ge b.1 K with h6 | h6
      · obtain ⟨j, rfl⟩ : ∃ j, K = b.1 + j := ⟨K - b.1, by omega⟩
        rw [show b.1 + j - b.1 = j by omega] at h4
        have := leaf_no_below (t := s2.tree) (K := b.1) (j := j) (q := q) (g := g5) (by rw [h4]; exact h5) (by omega)
        rw [this] at hk'; simp at hk'
      · have : K = b.1 := by omega
        subst this
        simp at h4
        rw [h4, h5] at hk'; simp at hk'
  · intro K q g hq hn
    obtain ⟨g1, hn1⟩ := (le1 K q hq).1 ⟨g, hn⟩
    rcases d2 K q hq with h | ⟨b, hb, h3, h4, g5, h5⟩
    · exact .inl ⟨g1, by rw [h]; exact hn1⟩
    · rcases (hg b hb).under hm hw hq (by rw [hn]; simp) h3 h4 with ⟨h6, h7⟩ | ⟨h6, n, hn2, h7⟩
      · right
        subst h6; subst h7
        exact ⟨⟨g5, h5⟩, (hg b hb).kids⟩
      · obtain ⟨g6, h8⟩ := (hg b hb).kids n hn2
        rw [← h6, ← h7, hn] at h8; simp at h8
  · have i1 := RefineStar.of_fold hm (gathered 1 parts) (s := ⟨t, 0⟩) hw hl h1
    have g1 : GidOk t s1.tree := fun K q g hq hl => .inl (i1 K q g hq hl)
    have hds := DerefineStar.of_fold hm hns hw cl hg hnd (.recount 0 r1) hnode h2
    exact (DerefineStar.gid hm (t0 := t) (s := ⟨s1.tree, 0⟩) (r1.wf hm) g1 hds).2

theorem adapt_oneStep {m : Mesh} (hm : m.Valid) (hnp : NoPolar m) (hns : NoShear m) {t : Tree} {c : Int}
    (hr : Reach m ⟨t, c⟩) {parts : List (List FBlock)} (hf : Flags m t parts)
    {sort : List (Nat × Pos) → List (Nat × Pos)} (hs : StdSort sort) {t' : Tree} {nnew ndel : Int}
    (he : updateTree m sort parts t = some (t', nnew, ndel)) : OneStep m t t' := by
  have hnd := (groups_exact hm hf).2.1
  unfold updateTree at he
  simp only at he
  split at he
  · rename_i h0
    simp at he
    obtain ⟨rfl, rfl, rfl⟩ := he
    have e0 : gathered 1 parts = [] := List.length_eq_zero_iff.1 h0.1
    exact oneStep_of_folds hm hnp hns hr hf (cl := []) (by simp) (by simp) (s1 := ⟨t, 0⟩) (s2 := ⟨t, 0⟩)
      (by rw [e0]; rfl) rfl
  · split at he
    · simp at he
    · rename_i s1 h1
      split at he
      · simp at he
      · rename_i s2 h2
        simp at he
        obtain ⟨rfl, rfl, rfl⟩ := he
        refine oneStep_of_folds hm hnp hns hr hf ?_ ?_ h1 h2
        · intro b hb
          split at hb
          · exact (hs.perm _).subset hb
          · simp at hb
        · split
          · exact (hs.perm _).nodup_iff.2 hnd
          · simp

/-- The block lists before and after an adaptation step, and the gids recorded in the new tree. -/
theorem adapt_segs {m : Mesh} (hm : m.Valid) (hnp : NoPolar m) (hns : NoShear m) {t : Tree} {c : Int}
    (hr : Reach m ⟨t, c⟩) {parts : List (List FBlock)} (hf : Flags m t parts)
    {sort : List (Nat × Pos) → List (Nat × Pos)} (hs : StdSort sort) {t' : Tree} {nnew ndel : Int}
    (he : updateTree m sort parts t = some (t', nnew, ndel)) :
    ∃ S, SegsOk m (meshBlocks m t) (meshBlocks m t') S := by
  have h := adapt_oneStep hm hnp hns hr hf hs he
  exact (h.rel hm t t' 0 ⟨0, 0, 0⟩ (Dom.zero hm) (by simp) (by simp) h.wf.root h.wf'.root).segs 0 ⟨0, 0, 0⟩

end Verif.Tree
