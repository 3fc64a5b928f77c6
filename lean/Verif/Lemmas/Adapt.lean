import Verif.Model.Adapt
import Verif.Props.TreeNeighbor

/-! # Sibling groups and the adaptation step -/
namespace Verif.Tree

theorem mem_gathered {flag : Int} {parts : List (List FBlock)} {L : Nat} {p : Pos} :
    (L, p) ∈ gathered flag parts ↔ (L, p, flag) ∈ parts.flatten := by
  unfold gathered
  simp only [List.mem_flatten, List.mem_map]
  constructor
  · rintro ⟨l, ⟨q, hq, rfl⟩, h⟩
    obtain ⟨b, hb, he⟩ := List.mem_map.1 h
    obtain ⟨hb1, hb2⟩ := List.mem_filter.1 hb
    obtain ⟨b1, b2, b3⟩ := b
    simp at he hb2
    obtain ⟨rfl, rfl⟩ := he
    subst hb2
    exact ⟨q, hq, hb1⟩
  · rintro ⟨q, hq, hb⟩
    exact ⟨_, ⟨q, hq, rfl⟩, List.mem_map.2 ⟨(L, p, flag), List.mem_filter.2 ⟨hb, by simp⟩, rfl⟩⟩

/-- The gathered list does not depend on how the blocks are distributed. -/
theorem gathered_eq (flag : Int) (parts : List (List FBlock)) :
    gathered flag parts = (parts.flatten.filter (fun b => b.2.2 = flag)).map (fun b => (b.1, b.2.1)) := by
  unfold gathered
  induction parts with
  | nil => rfl
  | cons a l ih => simp [ih]

theorem matchCount_le (L : Nat) (p : Pos) (ns : List (Fin 8)) (l : List (Nat × Pos)) :
    matchCount L p ns l ≤ ns.length := by
  induction ns generalizing l with
  | nil => simp [matchCount]
  | cons n ns ih =>
    rcases l with _ | ⟨x, xs⟩
    · simp [matchCount]
    · have := ih xs
      simp only [matchCount, List.length_cons]
      split <;> omega

/-- A full match: the list begins with the children. -/
theorem matchCount_full {L : Nat} {p : Pos} {ns : List (Fin 8)} {l : List (Nat × Pos)} :
    matchCount L p ns l = ns.length ↔
      ∃ rest, l = ns.map (fun n => (L, (⟨p.x1 + n.val % 2, p.x2 + n.val / 2 % 2, p.x3 + n.val / 4 % 2⟩ : Pos))) ++ rest := by
  induction ns generalizing l with
  | nil => simp [matchCount]
  | cons n ns ih =>
    rcases l with _ | ⟨x, xs⟩
    · simp [matchCount]
    · simp only [matchCount, List.length_cons, List.map_cons, List.cons_append, List.cons.injEq]
      have hle := matchCount_le L p ns xs
      constructor
      · intro h
        split at h
        · rename_i hx
          obtain ⟨rest, hr⟩ := ih.1 (show matchCount L p ns xs = ns.length by omega)
          exact ⟨rest, hx, hr⟩
        · omega
      · rintro ⟨rest, hx, hr⟩
        rw [if_pos hx, ih.2 ⟨rest, hr⟩]; omega

theorem even_child {p : Pos} (h1 : p.x1 % 2 = 0) (h2 : p.x2 % 2 = 0) (h3 : p.x3 % 2 = 0) (n : Fin 8) :
    (⟨p.x1 + n.val % 2, p.x2 + n.val / 2 % 2, p.x3 + n.val / 4 % 2⟩ : Pos) = p.half.child n := by
  apply Pos.ext' <;> simp only [Pos.child, Pos.half] <;> omega

/-- Members of `clderef`: all children are in the list. -/
theorem groups_sound {m : Mesh} {l : List (Nat × Pos)} (hL : ∀ b ∈ l, 0 < b.1) {L : Nat} {p : Pos}
    (h : (L, p) ∈ groups m l) : ∀ n : Fin 8, n.val < m.nleaf → (L + 1, p.child n) ∈ l := by
  induction l with
  | nil => simp [groups] at h
  | cons b rest ih =>
    have ih := ih (fun b hb => hL b (by simp [hb]))
    unfold groups at h
    split at h
    · rename_i hc
      obtain ⟨h1, h2, h3, h4⟩ := hc
      rcases List.mem_cons.1 h with h | h
      · intro n hn
        rw [← kids_length] at h4
        obtain ⟨r, hr⟩ := matchCount_full.1 h4
        have : (b.1, (⟨b.2.x1 + n.val % 2, b.2.x2 + n.val / 2 % 2, b.2.x3 + n.val / 4 % 2⟩ : Pos)) ∈ b :: rest := by
          rw [hr]
          exact List.mem_append_left _ (List.mem_map.2 ⟨n, mem_kids.2 hn, rfl⟩)
        rw [even_child h1 h2 h3] at this
        simp only [Prod.mk.injEq] at h
        obtain ⟨rfl, rfl⟩ := h
        have := hL b (by simp)
        rwa [show b.1 - 1 + 1 = b.1 by omega]
      · intro n hn; exact List.mem_cons_of_mem _ (ih h n hn)
    · intro n hn; exact List.mem_cons_of_mem _ (ih h n hn)

/-- The kids are consecutive numbers from 0. -/
theorem kids_range (m : Mesh) : m.kids.map (·.val) = List.range m.nleaf := by
  unfold Mesh.kids Mesh.nleaf
  rcases m.f2 <;> rcases m.f3 <;> decide

theorem zBefore_asymm {L K : Nat} {p q : Pos} (h1 : ZBefore L p K q) (h2 : ZBefore K q L p) : False := by
  unfold ZBefore at *
  rw [Nat.add_mul] at h1 h2
  have a1 : 0 < 8 ^ K := Nat.pow_pos (by omega)
  have a2 : 0 < 8 ^ L := Nat.pow_pos (by omega)
  omega

/-- Nothing lies between consecutive siblings in Z-order. -/
theorem z_between {L K : Nat} {p q : Pos} {n n' : Fin 8} (hn : n'.val = n.val + 1)
    (h1 : ZBefore (L + 1) (p.child n) K q) (h2 : ZBefore K q (L + 1) (p.child n')) : False := by
  unfold ZBefore at *
  rw [morton_child] at h1 h2
  rw [hn] at h2
  have a2 : 0 < 8 ^ (L + 1) := Nat.pow_pos (by omega)
  rw [Nat.add_mul (morton K q)] at h2
  have e : 8 * morton L p + (n.val + 1) = 8 * morton L p + n.val + 1 := by omega
  rw [e] at h2
  omega

theorem run_full {L : Nat} {p : Pos} (ns : List (Fin 8)) (hs : ns.IsChain (fun a b => b.val = a.val + 1))
    (l : List (Nat × Pos)) (hl : l.Pairwise (fun a b => ZBefore a.1 a.2 b.1 b.2))
    (hf : ∀ n ∈ ns.head?, (L + 1, p.child n) ∈ l.head?)
    (hm : ∀ n ∈ ns, (L + 1, p.child n) ∈ l) :
    ∃ rest, l = ns.map (fun n => (L + 1, p.child n)) ++ rest := by
  induction ns generalizing l with
  | nil => exact ⟨l, rfl⟩
  | cons n ns ih =>
    rcases l with _ | ⟨x, xs⟩
    · have := hm n (by simp); simp at this
    · have hx : x = (L + 1, p.child n) := by simpa using hf n (by simp)
      subst hx
      obtain ⟨hl1, hl2⟩ := List.pairwise_cons.1 hl
      have hne : ∀ n' ∈ ns, (L + 1, p.child n') ∈ xs := by
        intro n' hn'
        rcases List.mem_cons.1 (hm n' (by simp [hn'])) with h | h
        · exfalso
          have hlt : n.val < n'.val := by
            have hp : (n :: ns).Pairwise (fun a b => a.val < b.val) := by
              have : IsTrans (Fin 8) (fun a b => a.val < b.val) := ⟨fun _ _ _ h1 h2 => Nat.lt_trans h1 h2⟩
              exact (hs.imp (fun a b h => by omega)).pairwise
            exact (List.pairwise_cons.1 hp).1 n' hn'
          simp only [Prod.mk.injEq, true_and] at h
          have := congrArg (fun q => Pos.bitIdx q 0) h
          simp only [Pos.bitIdx_child] at this
          subst this; omega
        · exact h
      obtain ⟨rest, hr⟩ := ih hs.tail xs hl2 (by
        intro n' hn'
        rcases ns with _ | ⟨n2, ns⟩
        · simp at hn'
        · simp at hn'
          subst hn'
          rcases xs with _ | ⟨y, ys⟩
          · have := hne n2 (by simp); simp at this
          · have h1 := hne n2 (by simp)
            rcases List.mem_cons.1 h1 with h2 | h2
            · simp [h2]
            · exfalso
              have h3 := (List.pairwise_cons.1 hl2).1 _ h2
              have h4 := hl1 y (by simp)
              have h5 : n2.val = n.val + 1 := by
                have := hs
                simp only [List.isChain_cons_cons] at this
                exact this.1
              exact z_between h5 h4 h3) hne
      exact ⟨rest, by rw [hr]; rfl⟩

theorem kids_chain (m : Mesh) : m.kids.IsChain (fun a b => b.val = a.val + 1) := by
  unfold Mesh.kids Mesh.nleaf
  rcases m.f2 <;> rcases m.f3 <;> decide

theorem kids_head (m : Mesh) : ∀ n ∈ m.kids.head?, n = 0 := by
  unfold Mesh.kids Mesh.nleaf
  rcases m.f2 <;> rcases m.f3 <;> decide

/-- If the list is in Z-order, every complete group of siblings is found. -/
theorem groups_complete {m : Mesh} {l : List (Nat × Pos)}
    (hl : l.Pairwise (fun a b => ZBefore a.1 a.2 b.1 b.2)) {L : Nat} {p : Pos}
    (h : ∀ n : Fin 8, n.val < m.nleaf → (L + 1, p.child n) ∈ l) : (L, p) ∈ groups m l := by
  induction l with
  | nil => have := h 0 (nleaf_pos m); simp at this
  | cons b rest ih =>
    obtain ⟨hl1, hl2⟩ := List.pairwise_cons.1 hl
    by_cases hb : b = (L + 1, p.child 0)
    · subst hb
      unfold groups
      have he : (p.child 0).x1 % 2 = 0 ∧ (p.child 0).x2 % 2 = 0 ∧ (p.child 0).x3 % 2 = 0 := by
        simp [Pos.child]
      have hfull : matchCount (L + 1) (p.child 0) m.kids ((L + 1, p.child 0) :: rest) = m.nleaf := by
        rw [← kids_length]
        obtain ⟨r, hr⟩ := run_full m.kids (kids_chain m) _ hl (L := L) (p := p)
          (by intro n hn; rw [kids_head m n hn]; simp) (fun n hn => h n (mem_kids.1 hn))
        rw [matchCount_full]
        refine ⟨r, hr.trans ?_⟩
        congr 1
      rw [if_pos ⟨he.1, he.2.1, he.2.2, hfull⟩]
      simp
    · have key : ∀ n : Fin 8, n.val < m.nleaf → (L + 1, p.child n) ∈ rest := by
        intro n hn
        rcases List.mem_cons.1 (h n hn) with h1 | h1
        · -- b is child n with n > 0: then child 0 comes later, contradiction
          exfalso
          have h0 : (L + 1, p.child 0) ∈ rest := by
            rcases List.mem_cons.1 (h 0 (nleaf_pos m)) with h2 | h2
            · exact absurd h2.symm hb
            · exact h2
          have := hl1 _ h0
          rw [← h1] at this
          unfold ZBefore at this
          simp only [morton_child] at this
          have := Nat.le_of_mul_le_mul_right this (Nat.pow_pos (by omega))
          simp at this
          omega
        · exact h1
      unfold groups
      split
      · exact List.mem_cons_of_mem _ (ih hl2 key)
      · exact ih hl2 key

theorem mem_groups {m : Mesh} {l : List (Nat × Pos)} {L : Nat} {p : Pos} (h : (L, p) ∈ groups m l) :
    ∃ b ∈ l, (b.1 - 1, b.2.half) = (L, p) ∧ b.2 = b.2.half.child 0 := by
  induction l with
  | nil => simp [groups] at h
  | cons b rest ih =>
    unfold groups at h
    split at h
    · rename_i hc
      rcases List.mem_cons.1 h with h | h
      · refine ⟨b, by simp, h.symm, ?_⟩
        have := even_child hc.1 hc.2.1 hc.2.2.1 0
        simpa using this
      · obtain ⟨b', h1, h2⟩ := ih h
        exact ⟨b', by simp [h1], h2⟩
    · obtain ⟨b', h1, h2⟩ := ih h
      exact ⟨b', by simp [h1], h2⟩

theorem groups_nodup {m : Mesh} {l : List (Nat × Pos)} (hL : ∀ b ∈ l, 0 < b.1) (hl : l.Nodup) :
    (groups m l).Nodup := by
  induction l with
  | nil => simp [groups]
  | cons b rest ih =>
    obtain ⟨h1, h2⟩ := List.nodup_cons.1 hl
    have ih := ih (fun b hb => hL b (by simp [hb])) h2
    unfold groups
    split
    · rename_i hc
      refine List.nodup_cons.2 ⟨?_, ih⟩
      intro hmem
      obtain ⟨b', hb', he, hz⟩ := mem_groups hmem
      have hz0 : b.2 = b.2.half.child 0 := by
        have := even_child hc.1 hc.2.1 hc.2.2.1 0
        simpa using this
      simp only [Prod.mk.injEq] at he
      have e2 : b'.2 = b.2 := by rw [hz, he.2, ← hz0]
      have l1 := hL b (by simp)
      have l2 := hL b' (by simp [hb'])
      have : b' = b := Prod.ext (by omega) e2
      exact h1 (this ▸ hb')
    · exact ih

/-- `clderef` fits the allocated array (`tnderef/nleaf` entries), for any list. -/
theorem groups_length (m : Mesh) (l : List (Nat × Pos)) : (groups m l).length * m.nleaf ≤ l.length := by
  have key : ∀ N (l : List (Nat × Pos)), l.length ≤ N → (groups m l).length * m.nleaf ≤ l.length := by
    intro N
    induction N with
    | zero => intro l hl; have : l = [] := List.length_eq_zero_iff.1 (by omega); subst this; simp [groups]
    | succ N ih =>
      intro l hl
      rcases l with _ | ⟨b, rest⟩
      · simp [groups]
      · simp only [List.length_cons] at hl
        unfold groups
        split
        · rename_i hc
          obtain ⟨h1, h2, h3, h4⟩ := hc
          rw [← kids_length] at h4
          obtain ⟨r, hr⟩ := matchCount_full.1 h4
          -- the entries after `b` up to the end of the group do not start groups
          have hskip : ∀ (ns : List (Fin 8)) (r : List (Nat × Pos)), (∀ n ∈ ns, n ≠ 0) →
              groups m (ns.map (fun n => (b.1, (⟨b.2.x1 + n.val % 2, b.2.x2 + n.val / 2 % 2, b.2.x3 + n.val / 4 % 2⟩ : Pos))) ++ r)
                = groups m r := by
            intro ns r hns
            induction ns with
            | nil => rfl
            | cons n ns ihn =>
              simp only [List.map_cons, List.cons_append]
              rw [groups, if_neg, ihn (fun n hn => hns n (by simp [hn]))]
              rintro ⟨a1, a2, a3, -⟩
              apply hns n (by simp)
              apply Fin.ext
              have := n.isLt
              simp only at a1 a2 a3
              show n.val = 0
              omega
          obtain ⟨ks, hks⟩ : ∃ ks, m.kids = 0 :: ks := by
            rcases hk : m.kids with _ | ⟨k0, ks⟩
            · have := kids_length m; rw [hk] at this; have := nleaf_pos m; simp at *; omega
            · have := kids_head m k0 (by rw [hk]; simp)
              subst this; exact ⟨ks, rfl⟩
          have hks0 : ∀ n ∈ ks, n ≠ 0 := by
            have := kids_nodup m
            rw [hks] at this
            have := (List.nodup_cons.1 this).1
            intro n hn h0; subst h0; exact this hn
          rw [hks] at hr
          simp only [List.map_cons, List.cons_append, List.cons.injEq] at hr
          rw [hr.2, hskip ks r hks0]
          have hlen : rest.length = ks.length + r.length := by rw [hr.2]; simp
          have hkl : ks.length + 1 = m.nleaf := by rw [← kids_length, hks]; simp
          have := ih r (by omega)
          simp only [List.length_cons, List.length_append, List.length_map]
          rw [Nat.add_mul]
          omega
        · have := ih rest (by omega)
          simp only [List.length_cons]; omega
  exact key _ l (Nat.le_refl _)

/-! ## Refinement -/

theorem refines_spec {m : Mesh} (hm : m.Valid) (l : List (Nat × Pos)) {s : St} (hr : Reach m s)
    (hl : ∀ b ∈ l, Dom m b.1 b.2 ∧ s.tree.at b.1 b.2 ≠ .null) :
    ∃ s', l.foldlM (fun s b => refine m b.1 b.2 s) s = some s' ∧ Reach m s' ∧ Le s.tree s'.tree ∧
      (s'.tree.count m : Int) + s.cnt = s.tree.count m + s'.cnt ∧
      (∀ b ∈ l, ∃ g, s'.tree.at b.1 b.2 = .node g) ∧
      Least m s.tree s'.tree (fun T => ∀ b ∈ l, ∃ g, T.at b.1 b.2 = .node g) := by
  induction l generalizing s with
  | nil => exact ⟨s, rfl, hr, Le.refl _, rfl, by simp, fun T _ _ h _ => h⟩
  | cons b l ih =>
    obtain ⟨hd, hex⟩ := hl b (by simp)
    obtain ⟨s1, e1, _, _, gr, hn, hle⟩ := refine_spec hm (hr.wf hm) (okTrue m _) hd hex
    have hr1 : Reach m s1 := .refine hr hd (by rwa [Ne, at_null_iff] at hex) e1
    obtain ⟨s2, e2, hr2, le2, c2, n2, l2⟩ := ih hr1 (fun b' hb' => ⟨(hl b' (by simp [hb'])).1,
      (gr.le _ _ ((hl b' (by simp [hb'])).1.inRange hm)).2 (hl b' (by simp [hb'])).2⟩)
    refine ⟨s2, by simp [e1, e2], hr2, gr.le.trans le2, ?_, ?_, ?_⟩
    · have := gr.cnt; omega
    · intro b' hb'
      rcases List.mem_cons.1 hb' with rfl | hb'
      · exact (le2 _ _ (hd.inRange hm)).1 hn
      · exact n2 b' hb'
    · intro T hT ho h hP
      exact l2 T hT ho (hle T hT ho h (hP b (by simp))) (fun b' hb' => hP b' (by simp [hb']))

/-! ## Derefinement -/

/-- A node whose children are leaves. -/
structure Grp (m : Mesh) (t : Tree) (b : Nat × Pos) : Prop where
  root : m.rootLevel ≤ b.1
  dom : Dom m b.1 b.2
  node : ∃ g, t.at b.1 b.2 = .node g
  kids : ∀ n : Fin 8, n.val < m.nleaf → ∃ g, t.at (b.1 + 1) (b.2.child n) = .leaf g

theorem Grp.under {m : Mesh} (hm : m.Valid) {t : Tree} (hw : WF m t) {b : Nat × Pos} (hb : Grp m t b)
    {K : Nat} {q : Pos} (hq : InRange K q) (hex : t.at K q ≠ .null) (hK : b.1 ≤ K)
    (hu : q.shr (K - b.1) = b.2) :
    (K = b.1 ∧ q = b.2) ∨ (K = b.1 + 1 ∧ ∃ n : Fin 8, n.val < m.nleaf ∧ q = b.2.child n) := by
  obtain ⟨L, p⟩ := b
  simp only at hK hu ⊢
  rcases Nat.lt_or_ge L K with h | h
  · right
    obtain ⟨j, rfl⟩ : ∃ j, K = L + 1 + j := ⟨K - (L + 1), by omega⟩
    have hex1 : t.at (L + 1) (q.shr j) ≠ .null := exists_anc hex
    have hd := hw.dom hm hq.shr hex1
    have hi := hd.idx_lt hm
    have hh : (q.shr j).half = p := by
      rw [Pos.shr_half, ← hu]; congr 1; omega
    have hc : p.child ((q.shr j).bitIdx 0) = q.shr j := by rw [← hh]; exact Pos.child_half _
    obtain ⟨g, hg⟩ := hb.kids _ hi
    simp only at hg
    rw [hc] at hg
    rcases j with _ | j
    · refine ⟨rfl, (q.shr 0).bitIdx 0, hi, ?_⟩
      simpa using hc.symm
    · obtain ⟨g', hg'⟩ := node_anc hex (by omega : 0 < j + 1)
      rw [hg] at hg'; simp at hg'
  · left
    have : K = L := by omega
    subst this
    simpa using hu

theorem Grp.disjoint {m : Mesh} (hm : m.Valid) {t : Tree} (hw : WF m t) {b b' : Nat × Pos}
    (hb : Grp m t b) (hb' : Grp m t b') (hne : b ≠ b') :
    ¬ (b.1 ≤ b'.1 ∧ b'.2.shr (b'.1 - b.1) = b.2) := by
  rintro ⟨h1, h2⟩
  obtain ⟨g, hg⟩ := hb'.node
  rcases hb.under hm hw (hb'.dom.inRange hm) (by rw [hg]; simp) h1 h2 with ⟨h3, h4⟩ | ⟨h3, n, hn, h4⟩
  · exact hne (Prod.ext h3.symm h4.symm)
  · obtain ⟨g', hg'⟩ := hb.kids n hn
    rw [← h3, ← h4, hg] at hg'
    simp at hg'

theorem derefs_spec {m : Mesh} (hm : m.Valid) (hns : NoShear m) {t0 : Tree} (hw0 : WF m t0)
    (cl : List (Nat × Pos)) (hg : ∀ b ∈ cl, Grp m t0 b) (hnd : cl.Nodup) {s s' : St} (hr : Reach m s)
    (hnode : ∀ b ∈ cl, ∃ g, s.tree.at b.1 b.2 = .node g)
    (he : cl.foldlM (fun s b => derefine m b.1 b.2 s) s = some s') :
    Reach m s' ∧ (s'.tree.count m : Int) + s'.cnt = s.tree.count m + s.cnt ∧
      ∀ K q, InRange K q → s'.tree.at K q = s.tree.at K q ∨
        ∃ b ∈ cl, b.1 ≤ K ∧ q.shr (K - b.1) = b.2 ∧ ∃ g, s'.tree.at b.1 b.2 = .leaf g := by
  induction cl generalizing s with
  | nil =>
    simp at he; subst he
    exact ⟨hr, rfl, fun _ _ _ => .inl rfl⟩
  | cons b cl ih =>
    obtain ⟨L, p⟩ := b
    have hb := hg (L, p) (by simp)
    obtain ⟨g, hn⟩ := hnode (L, p) (by simp)
    simp only at hn
    obtain ⟨hnd1, hnd2⟩ := List.nodup_cons.1 hnd
    simp only [List.foldlM_cons] at he
    rcases h1 : derefine m L p s with _ | s1
    · simp [h1] at he
    · simp only [h1, Option.bind_eq_bind, Option.bind_some] at he
      obtain ⟨k, hk⟩ := at_node_iff.1 hn
      have hr1 : Reach m s1 := .derefine hr hns hb.dom hb.root hk h1
      have hdis : ∀ b' ∈ cl, ¬ (L ≤ b'.1 ∧ b'.2.shr (b'.1 - L) = p) := fun b' hb' =>
        hb.disjoint hm hw0 (hg b' (by simp [hb'])) (by rintro rfl; exact hnd1 hb')
      rcases derefine_cases hm (hr.wf hm) hb.root hb.dom hn h1 with h2 | ⟨hall, g', _, h2⟩
      · subst h2
        obtain ⟨a1, a2, a3⟩ := ih (fun b hb => hg b (by simp [hb])) hnd2 hr
          (fun b hb => hnode b (by simp [hb])) he
        refine ⟨a1, a2, fun K q hq => ?_⟩
        rcases a3 K q hq with h | ⟨b, hb, h⟩
        · exact .inl h
        · exact .inr ⟨b, by simp [hb], h⟩
      · have hat : ∀ {K : Nat} {q : Pos}, InRange K q → s1.tree.at K q =
            if L ≤ K ∧ q.shr (K - L) = p then (if K = L then .leaf g' else .null) else s.tree.at K q :=
          fun {K q} hq => by
          rw [h2]; exact at_collapse (hb.dom.inRange hm) (by rw [hn]; simp) g' hq
        have hn1 : ∀ b' ∈ cl, ∃ g, s1.tree.at b'.1 b'.2 = .node g := by
          intro b' hb'
          rw [hat ((hg b' (by simp [hb'])).dom.inRange hm), if_neg (hdis b' hb')]
          exact hnode b' (by simp [hb'])
        obtain ⟨a1, a2, a3⟩ := ih (fun b hb => hg b (by simp [hb])) hnd2 hr1 hn1 he
        have hcc := count_collapse hm hb.dom hn hall g'
        refine ⟨a1, ?_, fun K q hq => ?_⟩
        · rw [a2, h2]; simp only at hcc ⊢; omega
        · rcases a3 K q hq with h | ⟨b, hb, h⟩
          · rw [hat hq] at h
            split at h
            · rename_i hc
              right
              refine ⟨(L, p), by simp, hc.1, hc.2, ?_⟩
              rcases a3 L p (hb.dom.inRange hm) with h5 | ⟨b5, hb5, h6, h7, h8⟩
              · rw [hat (hb.dom.inRange hm)] at h5
                simp at h5
                exact ⟨_, h5⟩
              · exact absurd ⟨h6, h7⟩ ((hg b5 (by simp [hb5])).disjoint hm hw0 hb
                  (by rintro rfl; exact hnd1 hb5))
            · exact .inl h
          · exact .inr ⟨b, by simp [hb], h⟩

theorem derefs_total {m : Mesh} (hm : m.Valid) (hnp : NoPolar m) (hns : NoShear m) {t0 : Tree} (hw0 : WF m t0)
    (cl : List (Nat × Pos)) (hg : ∀ b ∈ cl, Grp m t0 b) (hnd : cl.Nodup) {s : St} (hr : Reach m s)
    (hnode : ∀ b ∈ cl, ∃ g, s.tree.at b.1 b.2 = .node g) :
    ∃ s', cl.foldlM (fun s b => derefine m b.1 b.2 s) s = some s' := by
  induction cl generalizing s with
  | nil => exact ⟨s, rfl⟩
  | cons b cl ih =>
    obtain ⟨L, p⟩ := b
    have hb := hg (L, p) (by simp)
    obtain ⟨g, hn⟩ := hnode (L, p) (by simp)
    simp only at hn
    obtain ⟨hnd1, hnd2⟩ := List.nodup_cons.1 hnd
    have hstep : ∃ s1, derefine m L p s = some s1 := by
      rcases derefine_eq hm hnp hns (hr.inv hm hnp) hb.root hb.dom hn with ⟨_, h⟩ | ⟨_, g', _, h⟩
      · exact ⟨_, h⟩
      · exact ⟨_, h⟩
    obtain ⟨s1, h1⟩ := hstep
    obtain ⟨a1, a2, a3⟩ := derefs_spec hm hns hw0 [(L, p)] (by simpa using hb) (by simp) hr
      (by simpa using ⟨g, hn⟩) (s' := s1) (by simp [h1])
    obtain ⟨s', h2⟩ := ih (fun b hb => hg b (by simp [hb])) hnd2 a1 (by
      intro b' hb'
      rcases a3 b'.1 b'.2 ((hg b' (by simp [hb'])).dom.inRange hm) with h | ⟨b5, hb5, h6, h7, h8⟩
      · rw [h]; exact hnode b' (by simp [hb'])
      · simp at hb5
        subst hb5
        exact absurd ⟨h6, h7⟩ (hb.disjoint hm hw0 (hg b' (by simp [hb'])) (by rintro rfl; exact hnd1 hb')))
    exact ⟨s', by simp [h1, h2]⟩

/-- A node stays a node while other groups are derefined: collapse needs leaf children. -/
theorem derefs_keep {m : Mesh} (hm : m.Valid) (hns : NoShear m) {t0 : Tree} (hw0 : WF m t0)
    (cl : List (Nat × Pos)) (hg : ∀ b ∈ cl, Grp m t0 b) (hnd : cl.Nodup) {s s' : St} (hr : Reach m s)
    (hnode : ∀ b ∈ cl, ∃ g, s.tree.at b.1 b.2 = .node g)
    (he : cl.foldlM (fun s b => derefine m b.1 b.2 s) s = some s') {K : Nat} {q : Pos} (hq : InRange K q)
    (hn : ∃ g, s.tree.at K q = .node g) (hnm : (K, q) ∉ cl) : ∃ g, s'.tree.at K q = .node g := by
  induction cl generalizing s with
  | nil => simp at he; subst he; exact hn
  | cons b cl ih =>
    obtain ⟨L, p⟩ := b
    have hb := hg (L, p) (by simp)
    obtain ⟨g, hn0⟩ := hnode (L, p) (by simp)
    simp only at hn0
    obtain ⟨hnd1, hnd2⟩ := List.nodup_cons.1 hnd
    simp only [List.foldlM_cons] at he
    rcases h1 : derefine m L p s with _ | s1
    · simp [h1] at he
    · simp only [h1, Option.bind_eq_bind, Option.bind_some] at he
      have hg' : ∀ b ∈ cl, Grp m t0 b := fun b hb => hg b (by simp [hb])
      obtain ⟨a1, -, a3⟩ := derefs_spec hm hns hw0 [(L, p)] (by simpa using hb) (by simp) hr
        (by simpa using ⟨g, hn0⟩) (s' := s1) (by simp [h1])
      have hn1 : ∀ b' ∈ cl, ∃ g, s1.tree.at b'.1 b'.2 = .node g := by
        intro b' hb'
        rcases a3 b'.1 b'.2 ((hg b' (by simp [hb'])).dom.inRange hm) with h | ⟨b5, hb5, h6, h7, h8⟩
        · rw [h]; exact hnode b' (by simp [hb'])
        · simp at hb5
          subst hb5
          exact absurd ⟨h6, h7⟩ (hb.disjoint hm hw0 (hg b' (by simp [hb'])) (by rintro rfl; exact hnd1 hb'))
      refine ih hg' hnd2 a1 hn1 he ?_ (fun h => hnm (by simp [h]))
      rcases derefine_cases hm (hr.wf hm) hb.root hb.dom hn0 h1 with h2 | ⟨hall, g', _, h2⟩
      · rw [h2]; exact hn
      · obtain ⟨g2, hn⟩ := hn
        have hw := hr.wf hm
        have hgs : Grp m s.tree (L, p) := ⟨hb.root, hb.dom, ⟨g, hn0⟩, hall⟩
        rw [h2]
        simp only
        rw [at_collapse (hb.dom.inRange hm) (by rw [hn0]; simp) g' hq, if_neg]
        · exact ⟨g2, hn⟩
        · rintro ⟨h3, h4⟩
          rcases hgs.under hm hw hq (by rw [hn]; simp) h3 h4 with ⟨h5, h6⟩ | ⟨h5, n, hn', h6⟩
          · simp only at h5 h6; subst h5 h6; exact hnm (by simp)
          · obtain ⟨g3, h7⟩ := hall n hn'
            simp only at h5 h6
            subst h5; rw [← h6, hn] at h7; simp at h7

/-- Groups handled in an order in which no later group is finer: each is collapsed, unless it
touches a location of the next level which is still refined at the end. -/
theorem derefs_complete {m : Mesh} (hm : m.Valid) (hnp : NoPolar m) (hns : NoShear m) {t0 : Tree}
    (hw0 : WF m t0) (cl : List (Nat × Pos)) (hg : ∀ b ∈ cl, Grp m t0 b) (hnd : cl.Nodup) {s s' : St}
    (hr : Reach m s) (hnode : ∀ b ∈ cl, ∃ g, s.tree.at b.1 b.2 = .node g)
    (he : cl.foldlM (fun s b => derefine m b.1 b.2 s) s = some s') {L : Nat} {p : Pos}
    (pre post : List (Nat × Pos)) (hcl : cl = pre ++ (L, p) :: post) :
    (∃ g, s'.tree.at L p = .leaf g) ∨ ∃ r, InRange (L + 1) r ∧ Touch m L p (L + 1) r ∧
      ((∃ g, s'.tree.at (L + 1) r = .node g) ∨ (L + 1, r) ∈ post) := by
  subst hcl
  rw [List.foldlM_append] at he
  rcases h1 : pre.foldlM (fun s b => derefine m b.1 b.2 s) s with _ | s1
  · simp [h1] at he
  simp only [h1, Option.bind_eq_bind, Option.bind_some] at he
  obtain ⟨hp1, hp2, hp3⟩ := List.nodup_append.1 hnd
  have hpre : ∀ b ∈ pre, Grp m t0 b := fun b hb => hg b (by simp [hb])
  have hpost : ∀ b ∈ (L, p) :: post, Grp m t0 b := fun b hb => hg b (by simp at hb; simp [hb])
  obtain ⟨a1, -, a3⟩ := derefs_spec hm hns hw0 pre hpre hp1 hr (fun b hb => hnode b (by simp [hb])) h1
  have hn1 : ∀ b ∈ (L, p) :: post, ∃ g, s1.tree.at b.1 b.2 = .node g := by
    intro b hb
    rcases a3 b.1 b.2 ((hpost b hb).dom.inRange hm) with h | ⟨b5, hb5, h6, h7, h8⟩
    · rw [h]; exact hnode b (by simp at hb; simp [hb])
    · exact absurd ⟨h6, h7⟩ ((hpre b5 hb5).disjoint hm hw0 (hpost b hb) (hp3 b5 hb5 b hb))
  have hb := hpost (L, p) (by simp)
  obtain ⟨g, hn⟩ := hn1 (L, p) (by simp)
  simp only at hn
  obtain ⟨hnd1, hnd2⟩ := List.nodup_cons.1 hp2
  simp only [List.foldlM_cons] at he
  rcases h2 : derefine m L p s1 with _ | s2
  · simp [h2] at he
  simp only [h2, Option.bind_eq_bind, Option.bind_some] at he
  have hpost' : ∀ b ∈ post, Grp m t0 b := fun b hb => hpost b (by simp [hb])
  obtain ⟨b1, -, b3⟩ := derefs_spec hm hns hw0 [(L, p)] (by simpa using hb) (by simp) a1
    (by simpa using ⟨g, hn⟩) (s' := s2) (by simp [h2])
  have hn2 : ∀ b' ∈ post, ∃ g, s2.tree.at b'.1 b'.2 = .node g := by
    intro b' hb'
    rcases b3 b'.1 b'.2 ((hpost' b' hb').dom.inRange hm) with h | ⟨b5, hb5, h6, h7, h8⟩
    · rw [h]; exact hn1 b' (by simp [hb'])
    · simp at hb5
      subst hb5
      exact absurd ⟨h6, h7⟩ (hb.disjoint hm hw0 (hpost' b' hb') (by rintro rfl; exact hnd1 hb'))
  obtain ⟨c1, -, c3⟩ := derefs_spec hm hns hw0 post hpost' hnd2 b1 hn2 he
  rcases derefine_eq hm hnp hns (a1.inv hm hnp) hb.root hb.dom hn with ⟨hc, h⟩ | ⟨_, g', _, h⟩
  · right
    rw [h2] at h; simp at h; subst h
    rw [clear_iff hm (a1.wf hm) hb.root hb.dom] at hc
    simp only [not_forall, not_not] at hc
    obtain ⟨r, g2, h3, h4, h5⟩ := hc
    refine ⟨r, h3, h4, ?_⟩
    by_cases hin : (L + 1, r) ∈ post
    · exact .inr hin
    · exact .inl (derefs_keep hm hns hw0 post hpost' hnd2 b1 hn2 he h3 ⟨g2, h5⟩ hin)
  · left
    rw [h2] at h; simp at h; subst h
    rcases c3 L p (hb.dom.inRange hm) with h3 | ⟨b5, hb5, h6, h7, h8⟩
    · rw [h3]
      simp only
      rw [at_collapse (hb.dom.inRange hm) (by rw [hn]; simp) g' (hb.dom.inRange hm)]
      simp
    · exact absurd ⟨h6, h7⟩ ((hpost' b5 hb5).disjoint hm hw0 hb (by rintro rfl; exact hnd1 hb5))

end Verif.Tree
