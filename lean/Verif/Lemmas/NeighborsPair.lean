import Verif.Lemmas.Neighbors

/-! The neighbour list of a block, described through the tree. -/
namespace Verif.Tree

theorem face_iff_faceB {o1 o2 o3 : Int} (h1 : o1 = -1 ∨ o1 = 0 ∨ o1 = 1) (h2 : o2 = -1 ∨ o2 = 0 ∨ o2 = 1)
    (h3 : o3 = -1 ∨ o3 = 0 ∨ o3 = 1) (n : Fin 8) : faceB o1 o2 o3 n = true ↔ Face o1 o2 o3 n := by
  have key : ∀ o : Int, (o = -1 ∨ o = 0 ∨ o = 1) → ∀ b, b < 2 →
      (sideOk o b = true ↔ (o = -1 → b = 1) ∧ (o = 1 → b = 0)) := by
    intro o ho b hb
    obtain rfl | rfl : b = 0 ∨ b = 1 := by omega
    all_goals rcases ho with rfl | rfl | rfl <;> simp [sideOk]
  have e1 := key o1 h1 (n.val % 2) (by omega)
  have e2 := key o2 h2 (n.val / 2 % 2) (by omega)
  have e3 := key o3 h3 (n.val / 4 % 2) (by omega)
  unfold faceB
  rw [Bool.and_eq_true, Bool.and_eq_true, e1, e2, e3]
  exact ⟨fun ⟨⟨a, b⟩, c⟩ => ⟨a.1, a.2, b.1, b.2, c.1, c.2⟩, fun ⟨a, b, c, d, e, f⟩ => ⟨⟨⟨a, b⟩, c, d⟩, e, f⟩⟩

/-- Parities of a location relative to a direction: the location lies at that side of its parent. -/
structure Outer (o1 o2 o3 : Int) (p : Pos) : Prop where
  a1 : o1 = -1 → p.x1 % 2 = 0
  b1 : o1 = 1 → p.x1 % 2 = 1
  a2 : o2 = -1 → p.x2 % 2 = 0
  b2 : o2 = 1 → p.x2 % 2 = 1
  a3 : o3 = -1 → p.x3 % 2 = 0
  b3 : o3 = 1 → p.x3 % 2 = 1

def FaceDir (o1 o2 o3 : Int) : Prop := (o2 = 0 ∧ o3 = 0) ∨ (o1 = 0 ∧ o3 = 0) ∨ (o1 = 0 ∧ o2 = 0)

theorem okC_iff {o1 o2 o3 : Int} (h1 : o1 = -1 ∨ o1 = 0 ∨ o1 = 1) (h2 : o2 = -1 ∨ o2 = 0 ∨ o2 = 1)
    (h3 : o3 = -1 ∨ o3 = 0 ∨ o3 = 1) (p : Pos) :
    (isFaceB o1 o2 o3 || (parOk o1 (decide (p.x1 % 2 = 1)) && parOk o2 (decide (p.x2 % 2 = 1)) &&
      parOk o3 (decide (p.x3 % 2 = 1)))) = true ↔ FaceDir o1 o2 o3 ∨ Outer o1 o2 o3 p := by
  have key : ∀ o : Int, (o = -1 ∨ o = 0 ∨ o = 1) → ∀ x : Nat,
      (parOk o (decide (x % 2 = 1)) = true ↔ (o = -1 → x % 2 = 0) ∧ (o = 1 → x % 2 = 1)) := by
    intro o ho x
    rcases ho with rfl | rfl | rfl <;> simp [parOk]
  rw [Bool.or_eq_true, Bool.and_eq_true, Bool.and_eq_true, key o1 h1, key o2 h2, key o3 h3]
  have : isFaceB o1 o2 o3 = true ↔ FaceDir o1 o2 o3 := by simp [isFaceB, FaceDir, or_assoc]
  rw [this]
  exact or_congr Iff.rfl ⟨fun ⟨⟨a, b⟩, c⟩ => ⟨a.1, a.2, b.1, b.2, c.1, c.2⟩,
    fun ⟨a, b, c, d, e, f⟩ => ⟨⟨⟨a, b⟩, c, d⟩, e, f⟩⟩

/-- What the list of block `(L, p)` contains. -/
inductive Listed (m : Mesh) (ml : Bool) (t : Tree) (L : Nat) (p : Pos) : Entry → Prop
  | same {o1 o2 o3 : Int} {q : Pos} {g : Int} {i : Nat} (h0 : ¬ (o1 = 0 ∧ o2 = 0 ∧ o3 = 0))
      (hs : Shift m L p o1 o2 o3 q) (hl : t.at L q = .leaf g)
      (hi : findBufferID m.f2 m.f3 ml ⟨o1, o2, o3, 0, 0⟩ = i) (hlt : i < 56) :
      Listed m ml t L p ⟨L, g, ⟨o1, o2, o3, 0, 0⟩, i, findBufferID m.f2 m.f3 ml ⟨-o1, -o2, -o3, 0, 0⟩,
        false, false⟩
  | fine {o1 o2 o3 : Int} {q : Pos} {g : Int} {i : Nat} {n : Fin 8} (h0 : ¬ (o1 = 0 ∧ o2 = 0 ∧ o3 = 0))
      (hs : Shift m L p o1 o2 o3 q) (hn : n.val < m.nleaf) (hf : Face o1 o2 o3 n)
      (hl : t.at (L + 1) (q.child n) = .leaf g)
      (hi : findBufferID m.f2 m.f3 ml ⟨o1, o2, o3,
        (trans o1 o2 o3 (n.val % 2) (n.val / 2 % 2) (n.val / 4 % 2)).1,
        (trans o1 o2 o3 (n.val % 2) (n.val / 2 % 2) (n.val / 4 % 2)).2⟩ = i) (hlt : i < 56) :
      Listed m ml t L p ⟨L + 1, g, ⟨o1, o2, o3,
        (trans o1 o2 o3 (n.val % 2) (n.val / 2 % 2) (n.val / 4 % 2)).1,
        (trans o1 o2 o3 (n.val % 2) (n.val / 2 % 2) (n.val / 4 % 2)).2⟩, i,
        findBufferID m.f2 m.f3 ml ⟨-o1, -o2, -o3, 0, 0⟩, false, false⟩
  | coarse {o1 o2 o3 : Int} {K : Nat} {q : Pos} {g : Int} {i : Nat} (h0 : ¬ (o1 = 0 ∧ o2 = 0 ∧ o3 = 0))
      (hK : L = K + 1) (hs : Shift m L p o1 o2 o3 q) (hl : t.at K q.half = .leaf g)
      (hok : FaceDir o1 o2 o3 ∨ Outer o1 o2 o3 p)
      (hi : findBufferID m.f2 m.f3 ml ⟨o1, o2, o3, 0, 0⟩ = i) (hlt : i < 56) :
      Listed m ml t L p ⟨K, g, ⟨o1, o2, o3, 0, 0⟩, i, findBufferID m.f2 m.f3 ml ⟨-o1, -o2, -o3,
        (trans o1 o2 o3 (p.x1 % 2) (p.x2 % 2) (p.x3 % 2)).1,
        (trans o1 o2 o3 (p.x1 % 2) (p.x2 % 2) (p.x3 % 2)).2⟩, false, false⟩

theorem nleafB_eq (m : Mesh) : nleafB m.f2 m.f3 = m.nleaf := rfl

theorem toNat_par (x : Nat) : (decide (x % 2 = 1)).toNat = x % 2 := by
  rcases Nat.mod_two_eq_zero_or_one x with h | h <;> simp [h]

theorem mapM_zip {α β : Type} (f : α → Option β) (l : List α) (h : ∀ x ∈ l, ∃ y, f x = some y) :
    ∃ ys, l.mapM f = some ys ∧ (∀ y, y ∈ ys ↔ ∃ x ∈ l, f x = some y) ∧
      (∀ {R : β → β → Prop} {Q : α → α → Prop}, (∀ x x' y y', f x = some y → f x' = some y' → Q x x' → R y y') →
        l.Pairwise Q → ys.Pairwise R) := by
  induction l with
  | nil => exact ⟨[], rfl, by simp, by simp⟩
  | cons a l ih =>
    obtain ⟨y, hy⟩ := h a (by simp)
    obtain ⟨ys, h1, h2, h3⟩ := ih (fun x hx => h x (by simp [hx]))
    refine ⟨y :: ys, by simp [List.mapM_cons, hy, h1], ?_, ?_⟩
    · intro z
      simp only [List.mem_cons, h2]
      constructor
      · rintro (rfl | ⟨x, hx, e⟩)
        · exact ⟨a, .inl rfl, hy⟩
        · exact ⟨x, .inr hx, e⟩
      · rintro ⟨x, rfl | hx, e⟩
        · rw [hy] at e; exact .inl (by simpa using e.symm)
        · exact .inr ⟨x, hx, e⟩
    · intro R Q hRQ hp
      rw [List.pairwise_cons] at hp ⊢
      refine ⟨?_, h3 hRQ hp.2⟩
      intro z hz
      obtain ⟨x, hx, e⟩ := (h2 z).1 hz
      exact hRQ _ _ _ _ hy e (hp.1 x hx)

theorem zipIdx_pairwise {α : Type} (l : List α) (k : Nat) :
    (l.zipIdx k).Pairwise (fun a b => a.2 < b.2) := by
  induction l generalizing k with
  | nil => simp
  | cons a l ih =>
    rw [List.zipIdx_cons, List.pairwise_cons]
    refine ⟨?_, ih _⟩
    intro b hb
    have := List.le_snd_of_mem_zipIdx hb
    simp only; omega

section
variable {m : Mesh} (hm : m.Valid) (hnp : NoPolar m) (hns : NoShear m) {t : Tree} (hi : Inv m t)
  {ml : Bool} {L : Nat} {p : Pos} {g : Int}

include hm hnp hns hi in
theorem visit_run (hml : ml = true ∨ ∀ K q g, Dom m K q → t.at K q = .leaf g → K = m.rootLevel) (hp : Dom m L p) (hl : t.at L p = .leaf g)
    {v : Visit} {bid : Nat} (hv : VOk (scfg m ml L p) v bid) :
    ∃ es, v.run m t L p bid = some es ∧
      (∀ e, e ∈ es ↔ Listed m ml t L p e ∧ e.ni.ox1 = v.o1 ∧ e.ni.ox2 = v.o2 ∧ e.ni.ox3 = v.o3) ∧
      (es.map (·.bufid)).Pairwise (· < ·) ∧ ∀ e ∈ es, bid ≤ e.bufid ∧ e.bufid < bid + v.width := by
  have hL := hi.wf.leaf L p g hp hl
  have hc2 : (scfg m ml L p).f2 = m.f2 := rfl
  have hc3 : (scfg m ml L p).f3 = m.f3 := rfl
  have hcm : (scfg m ml L p).ml = ml := rfl
  have hfind : ∀ a b c d e, (scfg m ml L p).find a b c d e = findBufferID m.f2 m.f3 ml ⟨a, b, c, d, e⟩ :=
    fun _ _ _ _ _ => rfl
  obtain ⟨d1, ⟨d2, d2'⟩, ⟨d3, d3'⟩, nz, slot, fine, full, tF, tS, tC, ok, ⟨pF, pS, pC, sh⟩, ⟨wd, wd1⟩⟩ := hv
  rw [hc2, hc3, hcm] at slot
  have hslot := slot_find hm.dim slot
  have hd : Dir m v.o1 v.o2 v.o3 := ⟨mem_offs.2 ⟨by omega, by simp⟩, mem_offs.2 ⟨by omega, d2'⟩,
    mem_offs.2 ⟨by omega, d3'⟩⟩
  by_cases hex : ∃ q, Shift m L p v.o1 v.o2 v.o3 q
  · obtain ⟨q, hs⟩ := hex
    have hq := hs.dom hL
    have huniq : ∀ q', Shift m L p v.o1 v.o2 v.o3 q' → q' = q := fun q' h' => h'.unique hL hp hs
    have hfn : findNeighbor m t L p v.o1 v.o2 v.o3 false = fnAt t L q v.o1 v.o2 v.o3 false :=
      findNeighbor_shift hm hnp hns hL hp hs false
    rcases neighbour_cases hm hnp hi hp hl hs with ⟨g', h1⟩ | ⟨g', h1⟩ | ⟨K, g', hLK, hK, h1, _⟩
    · -- same level
      rw [fnAt_leaf hm hq h1] at hfn
      refine ⟨[⟨L, g', ⟨v.o1, v.o2, v.o3, 0, 0⟩, bid, v.tSame, v.polSame, v.shear⟩], ?_, ?_, by simp,
        by simp; omega⟩
      · simp only [Visit.run, hfn, at_leaf_iff.1 h1, if_true]
      · intro e
        simp only [List.mem_singleton]
        constructor
        · rintro rfl
          refine ⟨?_, rfl, rfl, rfl⟩
          rw [tS, pS, sh, hfind]
          exact .same nz hs h1 hslot.1 hslot.2
        · rintro ⟨hle, e1, e2, e3⟩
          cases hle with
          | @same o1 o2 o3 q' g2 i h0 hs' hl' hi' hlt =>
            simp only at e1 e2 e3
            subst e1 e2 e3
            obtain rfl := huniq _ hs'
            rw [h1] at hl'
            obtain rfl : g' = g2 := by simpa using hl'
            obtain rfl : bid = i := by have := hslot.1; omega
            rw [tS, pS, sh, hfind]
          | @fine o1 o2 o3 q' g2 i n h0 hs' hn hf hl' hi' hlt =>
            simp only at e1 e2 e3
            subst e1 e2 e3
            obtain rfl := huniq _ hs'
            obtain ⟨g3, h3⟩ := parent_node (t := t) (L := L) (p := q'.child n) (by rw [hl']; simp)
            rw [Pos.half_child, h1] at h3; simp at h3
          | @coarse o1 o2 o3 K q' g2 i h0 hK hs' hl' hok hi' hlt =>
            simp only at e1 e2 e3
            subst e1 e2 e3 hK
            obtain rfl := huniq _ hs'
            obtain ⟨g3, h3⟩ := parent_node (t := t) (L := K) (p := q') (by rw [h1]; simp)
            rw [h3] at hl'; simp at hl'
    · -- refined neighbour
      have hfl : ∀ n : Fin 8, n.val < m.nleaf → Face v.o1 v.o2 v.o3 n →
          ∃ g', t.at (L + 1) (q.child n) = .leaf g' :=
        fun n hn hf => facing_leaf hm hnp hi hp hl nz hs h1 hn hf
      have hmlt : ml = true := by
        rcases hml with h | h
        · exact h
        · obtain ⟨g2, h2⟩ := hfl _ (faceIdx_lt hs) faceIdx_face
          have := h (L + 1) _ g2 (hq.child hm hL (faceIdx_lt hs)) h2
          omega
      rw [fnAt_node hm hq h1 (.inl (hfl _ (faceIdx_lt hs) faceIdx_face))] at hfn
      obtain ⟨k, hk⟩ := at_node_iff.1 h1
      set F : ((Fin 8 × Nat × Nat) × Nat) → Option Entry := fun x =>
        ((k x.1.1).gid?).map fun g =>
          ⟨L + 1, g, ⟨v.o1, v.o2, v.o3, x.1.2.1, x.1.2.2⟩, bid + x.2, v.tFine, v.polFine, false⟩ with hF
      have hrun : v.run m t L p bid = v.fine.zipIdx.mapM F := by
        simp only [Visit.run, hfn, hk]; rfl
      have hfine : ∀ x ∈ v.fine.zipIdx, x.1.1.val < m.nleaf ∧ Face v.o1 v.o2 v.o3 x.1.1 ∧
          x.1.2 = trans v.o1 v.o2 v.o3 (x.1.1.val % 2) (x.1.1.val / 2 % 2) (x.1.1.val / 4 % 2) ∧
          findBufferID m.f2 m.f3 ml ⟨v.o1, v.o2, v.o3, x.1.2.1, x.1.2.2⟩ = (bid + x.2 : Nat) ∧
          bid + x.2 < 56 := by
        intro x hx
        obtain ⟨f1, f2, f3, f4⟩ := fine x hx
        have h5 := slot_find hm.dim f1
        exact ⟨f2, (face_iff_faceB d1 d2 d3 _).1 f3, f4, h5.1, h5.2⟩
      have hkl : ∀ n g', t.at (L + 1) (q.child n) = .leaf g' → k n = .leaf g' := by
        intro n g' h
        rw [at_kid hk] at h
        cases hkn : k n <;> simp [hkn, Tree.kind] at h
        rw [h]
      obtain ⟨es, hes, hmem, hpw⟩ := mapM_zip F v.fine.zipIdx (by
        intro x hx
        obtain ⟨f1, f2, f3, f4⟩ := hfine x hx
        obtain ⟨g2, h2⟩ := hfl _ f1 f2
        exact ⟨_, by simp only [hF, hkl _ _ h2, Tree.gid?, Option.map_some]; rfl⟩)
      have hFx : ∀ x y, F x = some y → y.bufid = bid + x.2 := by
        intro x y h
        simp only [hF, Option.map_eq_some_iff] at h
        obtain ⟨g2, _, rfl⟩ := h
        rfl
      refine ⟨es, by rw [hrun, hes], ?_, ?_, ?_⟩
      · intro e
        rw [hmem]
        constructor
        · rintro ⟨x, hx, hxe⟩
          obtain ⟨f1, f2, f3, f4, f5⟩ := hfine x hx
          obtain ⟨g2, h2⟩ := hfl _ f1 f2
          simp only [hF, hkl _ _ h2, Tree.gid?, Option.map_some, Option.some.injEq] at hxe
          subst hxe
          refine ⟨?_, rfl, rfl, rfl⟩
          rw [tF, pF, hfind]
          rw [f3] at f4 ⊢
          exact .fine nz hs f1 f2 h2 f4 f5
        · rintro ⟨hle, e1, e2, e3⟩
          cases hle with
          | @same o1 o2 o3 q' g2 i h0 hs' hl' hi' hlt =>
            simp only at e1 e2 e3
            subst e1 e2 e3
            obtain rfl := huniq _ hs'
            rw [h1] at hl'; simp at hl'
          | @fine o1 o2 o3 q' g2 i n h0 hs' hn hf hl' hi' hlt =>
            simp only at e1 e2 e3
            subst e1 e2 e3
            obtain rfl := huniq _ hs'
            obtain ⟨x, hx, hxn⟩ := full hmlt n hn ((face_iff_faceB d1 d2 d3 _).2 hf)
            obtain ⟨f1, f2, f3, f4, f5⟩ := hfine x hx
            refine ⟨x, hx, ?_⟩
            subst hxn
            rw [f3] at f4
            simp only [hF, hkl _ _ hl', Tree.gid?, Option.map_some]
            rw [tF, pF, hfind, f3]
            obtain rfl : bid + x.2 = i := by omega
            rfl
          | @coarse o1 o2 o3 K q' g2 i h0 hK hs' hl' hok hi' hlt =>
            simp only at e1 e2 e3
            subst e1 e2 e3 hK
            obtain rfl := huniq _ hs'
            obtain ⟨g3, h3⟩ := parent_node (t := t) (L := K) (p := q') (by rw [h1]; simp)
            rw [h3] at hl'; simp at hl'
      · rw [List.pairwise_map]
        refine hpw (Q := fun a b => a.2 < b.2) ?_ (zipIdx_pairwise _ _)
        intro x x' y y' h h' hlt
        rw [hFx _ _ h, hFx _ _ h']; omega
      · intro e he
        obtain ⟨x, hx, hxe⟩ := (hmem e).1 he
        rw [hFx _ _ hxe]
        have := List.snd_lt_of_mem_zipIdx hx
        omega
    · -- coarser neighbour
      subst hLK
      rw [fnAt_coarse h1] at hfn
      have hrun : v.run m t (K + 1) p bid = if v.okCoarse then
          some [⟨K, g', ⟨v.o1, v.o2, v.o3, 0, 0⟩, bid, v.tCoarse, v.polCoarse, false⟩] else some [] := by
        simp only [Visit.run, hfn, at_leaf_iff.1 h1]
        rw [if_neg (by omega)]
      have hno : ∀ e, Listed m ml t (K + 1) p e → e.ni.ox1 = v.o1 → e.ni.ox2 = v.o2 → e.ni.ox3 = v.o3 →
          e = ⟨K, g', ⟨v.o1, v.o2, v.o3, 0, 0⟩, bid, v.tCoarse, v.polCoarse, false⟩ ∧
          (FaceDir v.o1 v.o2 v.o3 ∨ Outer v.o1 v.o2 v.o3 p) := by
        intro e hle e1 e2 e3
        have hnn : t.at (K + 1) q = .null := by
          by_contra h
          obtain ⟨g3, h3⟩ := parent_node (t := t) (L := K) (p := q) h
          rw [h1] at h3; simp at h3
        cases hle with
        | @same o1 o2 o3 q' g2 i h0 hs' hl' hi' hlt =>
          simp only at e1 e2 e3
          subst e1 e2 e3
          obtain rfl := huniq _ hs'
          rw [hnn] at hl'; simp at hl'
        | @fine o1 o2 o3 q' g2 i n h0 hs' hn hf hl' hi' hlt =>
          simp only at e1 e2 e3
          subst e1 e2 e3
          obtain rfl := huniq _ hs'
          obtain ⟨g3, h3⟩ := parent_node (t := t) (L := K + 1) (p := q'.child n) (by rw [hl']; simp)
          rw [Pos.half_child, hnn] at h3; simp at h3
        | @coarse o1 o2 o3 K' q' g2 i h0 hK' hs' hl' hok hi' hlt =>
          simp only at e1 e2 e3
          subst e1 e2 e3
          obtain rfl : K = K' := by omega
          obtain rfl := huniq _ hs'
          rw [h1] at hl'
          obtain rfl : g' = g2 := by simpa using hl'
          obtain rfl : bid = i := by have := hslot.1; omega
          refine ⟨?_, hok⟩
          rw [tC, pC, hfind]
          simp only [scfg, toNat_par]
      rw [ok] at hrun
      have hokc := okC_iff d1 d2 d3 p
      by_cases hb : FaceDir v.o1 v.o2 v.o3 ∨ Outer v.o1 v.o2 v.o3 p
      · have hb' := hokc.2 hb
        refine ⟨[⟨K, g', ⟨v.o1, v.o2, v.o3, 0, 0⟩, bid, v.tCoarse, v.polCoarse, false⟩], ?_, ?_, by simp,
          by simp; omega⟩
        · rw [hrun]
          exact if_pos hb'
        · intro e
          simp only [List.mem_singleton]
          constructor
          · rintro rfl
            refine ⟨?_, rfl, rfl, rfl⟩
            rw [tC, pC, hfind]
            simp only [scfg, toNat_par]
            exact .coarse nz rfl hs h1 hb hslot.1 hslot.2
          · rintro ⟨hle, e1, e2, e3⟩
            exact (hno e hle e1 e2 e3).1
      · refine ⟨[], ?_, ?_, by simp, by simp⟩
        · rw [hrun]
          exact if_neg fun h => hb (hokc.1 h)
        · intro e
          simp only [List.not_mem_nil, false_iff]
          rintro ⟨hle, e1, e2, e3⟩
          exact hb (hno e hle e1 e2 e3).2
  · have hfn := findNeighbor_nothing (t := t) hm hnp hns hL hp hd false hex
    refine ⟨[], ?_, ?_, by simp, by simp⟩
    · simp only [Visit.run, hfn]
    · intro e
      simp only [List.not_mem_nil, false_iff]
      rintro ⟨hle, e1, e2, e3⟩
      apply hex
      cases hle with
      | same h0 hs' => simp only at e1 e2 e3; subst e1 e2 e3; exact ⟨_, hs'⟩
      | fine h0 hs' => simp only at e1 e2 e3; subst e1 e2 e3; exact ⟨_, hs'⟩
      | coarse h0 hK hs' => simp only at e1 e2 e3; subst e1 e2 e3; exact ⟨_, hs'⟩

include hm hnp hns hi in
theorem runAll_spec (hml : ml = true ∨ ∀ K q g, Dom m K q → t.at K q = .leaf g → K = m.rootLevel) (hp : Dom m L p) (hl : t.at L p = .leaf g)
    (vs : List Visit) (bid : Nat) (hv : allOk (scfg m ml L p) bid vs = true) :
    ∃ es, runAll m t L p bid vs = some es ∧
      (∀ e, e ∈ es ↔ Listed m ml t L p e ∧
        ∃ v ∈ vs, e.ni.ox1 = v.o1 ∧ e.ni.ox2 = v.o2 ∧ e.ni.ox3 = v.o3) ∧
      (es.map (·.bufid)).Pairwise (· < ·) ∧ ∀ e ∈ es, bid ≤ e.bufid := by
  induction vs generalizing bid with
  | nil => exact ⟨[], rfl, by simp, by simp, by simp⟩
  | cons v vs ih =>
    simp only [allOk, Bool.and_eq_true, decide_eq_true_eq] at hv
    obtain ⟨es, h1, h2, h3, h4⟩ := visit_run hm hnp hns hi hml hp hl hv.1
    obtain ⟨es', k1, k2, k3, k4⟩ := ih _ hv.2
    refine ⟨es ++ es', by simp only [runAll, h1, k1, Option.map_some], ?_, ?_, ?_⟩
    · intro e
      rw [List.mem_append, h2, k2]
      simp only [List.mem_cons, exists_eq_or_imp]
      exact and_or_left.symm
    · rw [List.map_append, List.pairwise_append]
      refine ⟨h3, k3, ?_⟩
      intro a ha b hb
      obtain ⟨x, hx, rfl⟩ := List.mem_map.1 ha
      obtain ⟨y, hy, rfl⟩ := List.mem_map.1 hb
      have := h4 x hx
      have := k4 y hy
      omega
    · intro e he
      rcases List.mem_append.1 he with he | he
      · exact (h4 e he).1
      · have := k4 e he; omega

theorem dirsB_mem {on : Bool} {o : Int} (h : o ∈ offs on) : o ∈ dirsB on := by
  obtain ⟨⟨a, b⟩, c⟩ := mem_offs.1 h
  cases on
  · simp [dirsB, c rfl]
  · simp only [dirsB, if_true, List.mem_cons, List.not_mem_nil, or_false]; omega

theorem Listed.visit {e : Entry} (h : Listed m ml t L p e) (hd : allDirs (scfg m ml L p) = true) :
    ∃ v ∈ (scfg m ml L p).visits, e.ni.ox1 = v.o1 ∧ e.ni.ox2 = v.o2 ∧ e.ni.ox3 = v.o3 := by
  have key : ∀ {o1 o2 o3 : Int} {q : Pos}, ¬ (o1 = 0 ∧ o2 = 0 ∧ o3 = 0) → Shift m L p o1 o2 o3 q →
      ∃ v ∈ (scfg m ml L p).visits, o1 = v.o1 ∧ o2 = v.o2 ∧ o3 = v.o3 := by
    intro o1 o2 o3 q h0 hs
    obtain ⟨k1, k2, k3⟩ := hs.dir
    simp only [allDirs, List.all_eq_true] at hd
    have := hd o1 (dirsB_mem k1) o2 (dirsB_mem k2) o3 (dirsB_mem k3)
    simp only [Bool.or_eq_true, Bool.and_eq_true, decide_eq_true_eq, List.any_eq_true] at this
    rcases this with h | ⟨v, hv, ⟨h1, h2⟩, h3⟩
    · exact absurd ⟨h.1.1, h.1.2, h.2⟩ h0
    · exact ⟨v, hv, h1.symm, h2.symm, h3.symm⟩
  cases h with
  | same h0 hs => exact key h0 hs
  | fine h0 hs => exact key h0 hs
  | coarse h0 hK hs => exact key h0 hs

include hm hnp hns hi in
/-- The list built by `SearchAndSetNeighbors`. -/
theorem search_spec (hml : ml = true ∨ ∀ K q g, Dom m K q → t.at K q = .leaf g → K = m.rootLevel) (hp : Dom m L p) (hl : t.at L p = .leaf g)  :
    ∃ es, runAll m t L p 0 (scfg m ml L p).visits = some es ∧
      (∀ e, e ∈ es ↔ Listed m ml t L p e) ∧ (es.map (·.bufid)).Pairwise (· < ·) := by
  have hL := hi.wf.leaf L p g hp hl
  obtain ⟨h1, h2⟩ := scfg_ok hm hnp hns ml hL hp
  obtain ⟨es, k1, k2, k3, _⟩ := runAll_spec hm hnp hns hi hml hp hl _ _ h1
  exact ⟨es, k1, fun e => (k2 e).trans ⟨(·.1), fun h => ⟨h, h.visit h2⟩⟩, k3⟩

end

theorem slot_exists_core : ∀ f2 f3 ml : Bool, (f3 = true → f2 = true) →
    ∀ a ∈ dirsB true, ∀ b ∈ dirsB f2, ∀ c ∈ dirsB f3, ¬ (a = 0 ∧ b = 0 ∧ c = 0) →
    ∀ n : Fin 8, n.val < nleafB f2 f3 → (ml = false → n = 0) →
      0 ≤ findBufferID f2 f3 ml ⟨a, b, c, (trans a b c (n.val % 2) (n.val / 2 % 2) (n.val / 4 % 2)).1,
        (trans a b c (n.val % 2) (n.val / 2 % 2) (n.val / 4 % 2)).2⟩ ∧
      findBufferID f2 f3 ml ⟨a, b, c, (trans a b c (n.val % 2) (n.val / 2 % 2) (n.val / 4 % 2)).1,
        (trans a b c (n.val % 2) (n.val / 2 % 2) (n.val / 4 % 2)).2⟩ < 56 := by
  decide +kernel

theorem slot_exists {m : Mesh} (hm : m.Valid) {ml : Bool} {o1 o2 o3 : Int} (hd : Dir m o1 o2 o3)
    (h0 : ¬ (o1 = 0 ∧ o2 = 0 ∧ o3 = 0)) {n : Fin 8} (hn : n.val < m.nleaf) (hml : ml = false → n = 0) :
    ∃ i : Nat, findBufferID m.f2 m.f3 ml ⟨o1, o2, o3,
        (trans o1 o2 o3 (n.val % 2) (n.val / 2 % 2) (n.val / 4 % 2)).1,
        (trans o1 o2 o3 (n.val % 2) (n.val / 2 % 2) (n.val / 4 % 2)).2⟩ = i ∧ i < 56 := by
  have := slot_exists_core m.f2 m.f3 ml hm.dim o1 (dirsB_mem hd.o1) o2 (dirsB_mem hd.o2) o3
    (dirsB_mem hd.o3) h0 n hn hml
  exact ⟨_, (Int.toNat_of_nonneg this.1).symm, by omega⟩

theorem trans_zero (o1 o2 o3 : Int) : trans o1 o2 o3 0 0 0 = (0, 0) := by
  unfold trans; repeat' split
  all_goals rfl

theorem nleaf_pos' (m : Mesh) : (0 : Fin 8).val < m.nleaf := by
  unfold Mesh.nleaf; repeat' split
  all_goals simp

theorem slot_exists_zero {m : Mesh} (hm : m.Valid) {ml : Bool} {o1 o2 o3 : Int} (hd : Dir m o1 o2 o3)
    (h0 : ¬ (o1 = 0 ∧ o2 = 0 ∧ o3 = 0)) :
    ∃ i : Nat, findBufferID m.f2 m.f3 ml ⟨o1, o2, o3, 0, 0⟩ = i ∧ i < 56 := by
  have := slot_exists hm (ml := ml) hd h0 (n := 0) (nleaf_pos' m) (fun _ => rfl)
  simpa [trans_zero] using this

theorem trans_neg (o1 o2 o3 : Int) (a b c : Nat) : trans (-o1) (-o2) (-o3) a b c = trans o1 o2 o3 a b c := by
  simp only [trans, ne_eq, neg_eq_zero]

theorem Step.half_outer {per : Prop} {n x y : Nat} {o : Int} (hx : x < 2 * n) (h : Step per (2 * n) x o y)
    (h1 : o = -1 → x % 2 = 0) (h2 : o = 1 → x % 2 = 1) : Step per n (x / 2) o (y / 2) := by
  obtain ⟨a1, a2, a3, a4⟩ := h
  refine ⟨by omega, a2, a3, ?_⟩
  obtain rfl | rfl | rfl : o = -1 ∨ o = 0 ∨ o = 1 := by omega
  · have := h1 rfl
    rcases a4 with h | ⟨hp, h | h⟩
    · left; omega
    · right; exact ⟨hp, by left; omega⟩
    · omega
  · rcases a4 with h | ⟨hp, h | h⟩
    · left; omega
    · omega
    · omega
  · have := h2 rfl
    rcases a4 with h | ⟨hp, h | h⟩
    · left; omega
    · omega
    · right; exact ⟨hp, by right; omega⟩

theorem Shift.half_outer {m : Mesh} {L : Nat} {p q : Pos} {o1 o2 o3 : Int} (hL : m.rootLevel ≤ L)
    (hp : Dom m (L + 1) p) (h : Shift m (L + 1) p o1 o2 o3 q) (ho : Outer o1 o2 o3 p) :
    Shift m L p.half o1 o2 o3 q.half := by
  obtain ⟨e1, e2, e3⟩ := nmax_succ hL
  have hpr := (dom_iff_ge (by omega)).1 hp
  have h1 := h.s1; rw [e1] at h1
  refine ⟨h.off2, h.off3, h1.half_outer (e1 ▸ hpr.1) ho.a1 ho.b1, ?_, ?_⟩
  · rcases hf : m.f2
    · have n1 : m.nmax2 (L + 1) = 1 := by simp [Mesh.nmax2, hf]
      have n2 : m.nmax2 L = 1 := by simp [Mesh.nmax2, hf]
      have a1 := h.s2.lt
      have a2 := hpr.2.1
      have := h.off2 hf
      refine ⟨by simp only [Pos.half]; omega, by omega, by omega, .inl ?_⟩
      simp only [Pos.half]; omega
    · have h2 := h.s2; rw [e2 hf] at h2
      exact h2.half_outer (e2 hf ▸ hpr.2.1) ho.a2 ho.b2
  · rcases hf : m.f3
    · have n1 : m.nmax3 (L + 1) = 1 := by simp [Mesh.nmax3, hf]
      have n2 : m.nmax3 L = 1 := by simp [Mesh.nmax3, hf]
      have a1 := h.s3.lt
      have a2 := hpr.2.2
      have := h.off3 hf
      refine ⟨by simp only [Pos.half]; omega, by omega, by omega, .inl ?_⟩
      simp only [Pos.half]; omega
    · have h3 := h.s3; rw [e3 hf] at h3
      exact h3.half_outer (e3 hf ▸ hpr.2.2) ho.a3 ho.b3

/-! ## Touching -/

theorem touchDim_same {per : Prop} {n root L x z : Nat} (hL : root ≤ L) :
    TouchDim per n root L x L z ↔
      ∃ s : Int, (s = 0 ∨ per ∧ (s = 1 ∨ s = -1)) ∧
        (x : Int) ≤ z + 1 + s * ((n * 2 ^ (L - root) : Nat) : Int) ∧
        z + s * ((n * 2 ^ (L - root) : Nat) : Int) ≤ x + 1 := by
  unfold TouchDim
  have hpL : (0 : Int) < 2 ^ L := by positivity
  have e1 : (n : Int) * 2 ^ (L + L - root) = ((n * 2 ^ (L - root) : Nat) : Int) * 2 ^ L := by
    rw [show L + L - root = (L - root) + L by omega, Int.pow_add]
    push_cast; ring
  simp only [e1]
  constructor
  · rintro ⟨s, hs, h1, h2⟩
    refine ⟨s, hs, ?_, ?_⟩
    · refine Int.le_of_mul_le_mul_right ?_ hpL
      linarith
    · refine Int.le_of_mul_le_mul_right ?_ hpL
      linarith
  · rintro ⟨s, hs, h1, h2⟩
    refine ⟨s, hs, ?_, ?_⟩
    · have := Int.mul_le_mul_of_nonneg_right h1 (Int.le_of_lt hpL)
      linarith
    · have := Int.mul_le_mul_of_nonneg_right h2 (Int.le_of_lt hpL)
      linarith

theorem touchDim_step_same {per : Prop} {n root L x z : Nat} (hL : root ≤ L)
    (hx : x < n * 2 ^ (L - root)) (hz : z < n * 2 ^ (L - root)) :
    TouchDim per n root L x L z ↔ ∃ o, Step per (n * 2 ^ (L - root)) x o z := by
  rw [touchDim_same hL]
  generalize n * 2 ^ (L - root) = N at *
  constructor
  · rintro ⟨s, hs, h1, h2⟩
    rcases hs with rfl | ⟨hp, rfl | rfl⟩
    · exact ⟨z - x, hz, by omega, by omega, .inl (by omega)⟩
    · exact ⟨z + N - x, hz, by omega, by omega, .inr ⟨hp, .inr (by omega)⟩⟩
    · exact ⟨z - N - x, hz, by omega, by omega, .inr ⟨hp, .inl (by omega)⟩⟩
  · rintro ⟨o, a1, a2, a3, a4⟩
    rcases a4 with h | ⟨hp, h | h⟩
    · exact ⟨0, .inl rfl, by omega, by omega⟩
    · exact ⟨-1, .inr ⟨hp, .inr rfl⟩, by omega, by omega⟩
    · exact ⟨1, .inr ⟨hp, .inl rfl⟩, by omega, by omega⟩

theorem touch_same_iff {m : Mesh} {L : Nat} (hL : m.rootLevel ≤ L) {p q : Pos} (hp : Dom m L p)
    (hq : Dom m L q) : Touch m L p L q ↔ ∃ o1 o2 o3, Shift m L p o1 o2 o3 q := by
  have hp' := (dom_iff_ge hL).1 hp
  have hq' := (dom_iff_ge hL).1 hq
  have k2 : m.f2 = true → m.nmax2 L = m.nrbx2 * 2 ^ (L - m.rootLevel) := by
    intro h; simp [Mesh.nmax2, h]
  have k3 : m.f3 = true → m.nmax3 L = m.nrbx3 * 2 ^ (L - m.rootLevel) := by
    intro h; simp [Mesh.nmax3, h]
  constructor
  · rintro ⟨t1, t2, t3⟩
    obtain ⟨o1, h1⟩ := (touchDim_step_same hL hp'.1 hq'.1).1 t1
    have d2 : ∃ o2, (m.f2 = false → o2 = 0) ∧ Step (m.ix2 = .periodic) (m.nmax2 L) p.x2 o2 q.x2 := by
      rcases hf : m.f2
      · have n2 : m.nmax2 L = 1 := by simp [Mesh.nmax2, hf]
        exact ⟨0, by simp, by omega, by omega, by omega, .inl (by omega)⟩
      · rw [k2 hf] at hp' hq' ⊢
        obtain ⟨o2, h2⟩ := (touchDim_step_same hL hp'.2.1 hq'.2.1).1 (t2 hf)
        exact ⟨o2, by simp, h2⟩
    have d3 : ∃ o3, (m.f3 = false → o3 = 0) ∧ Step (m.ix3 = .periodic) (m.nmax3 L) p.x3 o3 q.x3 := by
      rcases hf : m.f3
      · have n2 : m.nmax3 L = 1 := by simp [Mesh.nmax3, hf]
        exact ⟨0, by simp, by omega, by omega, by omega, .inl (by omega)⟩
      · rw [k3 hf] at hp' hq' ⊢
        obtain ⟨o3, h3⟩ := (touchDim_step_same hL hp'.2.2 hq'.2.2).1 (t3 hf)
        exact ⟨o3, by simp, h3⟩
    obtain ⟨o2, f2, h2⟩ := d2
    obtain ⟨o3, f3, h3⟩ := d3
    exact ⟨o1, o2, o3, f2, f3, h1, h2, h3⟩
  · rintro ⟨o1, o2, o3, hs⟩
    refine ⟨(touchDim_step_same hL hp'.1 hq'.1).2 ⟨_, hs.s1⟩, fun hf => ?_, fun hf => ?_⟩
    · have h2 := hs.s2
      rw [k2 hf] at hp' hq' h2
      exact (touchDim_step_same hL hp'.2.1 hq'.2.1).2 ⟨_, h2⟩
    · have h3 := hs.s3
      rw [k3 hf] at hp' hq' h3
      exact (touchDim_step_same hL hp'.2.2 hq'.2.2).2 ⟨_, h3⟩

section
variable {m : Mesh} (hm : m.Valid) (hnp : NoPolar m) {t : Tree} (hi : Inv m t)
  {ml : Bool} {L : Nat} {p : Pos} {g : Int}

include hm hnp hi in
theorem coarse_outer {K : Nat} {q : Pos} {g' : Int} {o1 o2 o3 : Int} (hp : Dom m (K + 1) p)
    (hl : t.at (K + 1) p = .leaf g) (hs : Shift m (K + 1) p o1 o2 o3 q)
    (hq : t.at K q.half = .leaf g') (hok : FaceDir o1 o2 o3 ∨ Outer o1 o2 o3 p) : Outer o1 o2 o3 p := by
  rcases hok with hf | h
  · have hnn : t.at (K + 1) q = .null := by
      by_contra h
      obtain ⟨g3, h3⟩ := parent_node (t := t) (L := K) (p := q) h
      rw [hq] at h3; simp at h3
    rcases neighbour_cases hm hnp hi hp hl hs with
      ⟨g', h1⟩ | ⟨g', h1⟩ | ⟨J, g2, hJ, _, h1, c1, c2, c3, hc0, hcs, hc1, hc2, hc3⟩
    · rw [hnn] at h1; simp at h1
    · rw [hnn] at h1; simp at h1
    · rcases hf with ⟨h2, h3⟩ | ⟨h2, h3⟩ | ⟨h2, h3⟩ <;> constructor <;> intro h <;>
        rcases hc1 with k1 | ⟨k1, k1', k1''⟩ <;> rcases hc2 with k2 | ⟨k2, k2', k2''⟩ <;>
        rcases hc3 with k3 | ⟨k3, k3', k3''⟩ <;> omega
  · exact h

/-- How the neighbour `(K, q)` behind entry `e` of block `(L, p)` lies, and the child indices in the
two entries. -/
def Geo (m : Mesh) (L : Nat) (p : Pos) (K : Nat) (q : Pos) (e e' : NI) : Prop :=
  (K = L ∧ Shift m L p e.ox1 e.ox2 e.ox3 q) ∨
  (K = L + 1 ∧ ∃ (r : Pos) (n : Fin 8), Shift m L p e.ox1 e.ox2 e.ox3 r ∧ q = r.child n ∧ n.val < m.nleaf ∧
    Face e.ox1 e.ox2 e.ox3 n ∧
    (e.fi1, e.fi2) = trans e.ox1 e.ox2 e.ox3 (n.val % 2) (n.val / 2 % 2) (n.val / 4 % 2)) ∨
  (L = K + 1 ∧ ∃ r : Pos, Shift m L p e.ox1 e.ox2 e.ox3 r ∧ q = r.half ∧ Outer e.ox1 e.ox2 e.ox3 p ∧
    (e'.fi1, e'.fi2) = trans e.ox1 e.ox2 e.ox3 (p.x1 % 2) (p.x2 % 2) (p.x3 % 2))

include hm hnp hi in
/-- The entry under which the neighbour lists this block. -/
theorem Listed.pair_geo (hml : ml = true ∨ ∀ K q g, Dom m K q → t.at K q = .leaf g → K = m.rootLevel)
    (hp : Dom m L p) (hl : t.at L p = .leaf g) {e : Entry} (h : Listed m ml t L p e) :
    ∃ q e', Dom m e.level q ∧ t.at e.level q = .leaf e.gid ∧ Listed m ml t e.level q e' ∧
      e'.gid = g ∧ e'.level = L ∧ (e'.bufid : Int) = e.targetid ∧ e'.targetid = e.bufid ∧
      e'.ni.ox1 = -e.ni.ox1 ∧ e'.ni.ox2 = -e.ni.ox2 ∧ e'.ni.ox3 = -e.ni.ox3 ∧
      Touch m L p e.level q ∧ Geo m L p e.level q e.ni e'.ni := by
  have hL := hi.wf.leaf L p g hp hl
  cases h with
  | @same o1 o2 o3 q g' i h0 hs hl' hi' hlt =>
    have hsy := hs.symm hL hp
    have h0' : ¬ (-o1 = 0 ∧ -o2 = 0 ∧ -o3 = 0) := by omega
    obtain ⟨j, hj, hjl⟩ := slot_exists_zero hm (ml := ml) hsy.dir h0'
    refine ⟨q, _, hs.dom hL, hl', .same h0' hsy hl hj hjl, rfl, rfl, hj.symm, ?_, rfl, rfl, rfl,
      (touch_same_iff hL hp (hs.dom hL)).2 ⟨_, _, _, hs⟩, .inl ⟨rfl, hs⟩⟩
    simp only [neg_neg]; exact hi'
  | @fine o1 o2 o3 q g' i n h0 hs hn hf hl' hi' hlt =>
    have h0' : ¬ (-o1 = 0 ∧ -o2 = 0 ∧ -o3 = 0) := by omega
    obtain ⟨n', hs'⟩ := hs.down hm hL hp hn hf
    obtain ⟨j, hj, hjl⟩ := slot_exists_zero hm (ml := ml) hs'.dir h0'
    have hout : Outer (-o1) (-o2) (-o3) (q.child n) := by
      obtain ⟨a1, b1, a2, b2, a3, b3⟩ := hf
      constructor <;> intro h <;> simp only [Pos.child] <;> omega
    refine ⟨q.child n, _, (hs.dom hL).child hm hL hn, hl', .coarse (g := g) h0' rfl hs'
      (by rw [Pos.half_child]; exact hl) (.inr hout) hj hjl, rfl, rfl, hj.symm, ?_, rfl, rfl, rfl,
      (touch_iff_facing hL hp ((hs.dom hL).child hm hL hn)).2
        ⟨_, _, _, by rw [Pos.half_child]; exact hs, by rw [Pos.bitIdx_child]; exact hf⟩,
      .inr (.inl ⟨rfl, q, n, hs, rfl, hn, hf, rfl⟩)⟩
    simp only [neg_neg, trans_neg]
    have e1 : (q.child n).x1 % 2 = n.val % 2 := by simp only [Pos.child]; omega
    have e2 : (q.child n).x2 % 2 = n.val / 2 % 2 := by simp only [Pos.child]; omega
    have e3 : (q.child n).x3 % 2 = n.val / 4 % 2 := by simp only [Pos.child]; omega
    rw [e1, e2, e3]; exact hi'
  | @coarse o1 o2 o3 K q g' i h0 hK hs hl' hok hi' hlt =>
    subst hK
    have hq : Dom m K q.half := (hs.dom hL).half
    have hKr := hi.wf.leaf K q.half g' hq hl'
    have hout := coarse_outer hm hnp hi hp hl hs hl' hok
    have h0' : ¬ (-o1 = 0 ∧ -o2 = 0 ∧ -o3 = 0) := by omega
    have hsh := (hs.half_outer hKr hp hout).symm hKr hp.half
    have hmlt : ml = true := by
      rcases hml with h | h
      · exact h
      · have := h (K + 1) p g hp hl; omega
    obtain ⟨j, hj, hjl⟩ := slot_exists hm (ml := ml) hsh.dir h0' (hp.idx_lt hm) (by simp [hmlt])
    have b1 : (p.bitIdx 0).val % 2 = p.x1 % 2 := by
      simp only [Pos.bitIdx, Nat.pow_zero, Nat.div_one]; omega
    have b2 : (p.bitIdx 0).val / 2 % 2 = p.x2 % 2 := by
      simp only [Pos.bitIdx, Nat.pow_zero, Nat.div_one]; omega
    have b3 : (p.bitIdx 0).val / 4 % 2 = p.x3 % 2 := by
      simp only [Pos.bitIdx, Nat.pow_zero, Nat.div_one]; omega
    have hf : Face (-o1) (-o2) (-o3) (p.bitIdx 0) := by
      obtain ⟨a1, c1, a2, c2, a3, c3⟩ := hout
      constructor <;> intro h
      · rw [b1]; omega
      · rw [b1]; omega
      · rw [b2]; omega
      · rw [b2]; omega
      · rw [b3]; omega
      · rw [b3]; omega
    refine ⟨q.half, _, hq, hl', .fine (g := g) h0' hsh (hp.idx_lt hm) hf
      (by rw [Pos.child_half]; exact hl) hj hjl, rfl, rfl, ?_, ?_, rfl, rfl, rfl,
      ((touch_iff_facing hKr hq hp).2 ⟨_, _, _, hsh, hf⟩).symm,
      .inr (.inr ⟨rfl, q, hs, rfl, hout, by simp only [trans_neg, b1, b2, b3]⟩)⟩
    · simp only
      rw [← hj, trans_neg, b1, b2, b3]
    · simp only [neg_neg]; exact hi'

include hm hnp hi in
theorem Listed.pair (hml : ml = true ∨ ∀ K q g, Dom m K q → t.at K q = .leaf g → K = m.rootLevel)
    (hp : Dom m L p) (hl : t.at L p = .leaf g) {e : Entry} (h : Listed m ml t L p e) :
    ∃ q e', Dom m e.level q ∧ t.at e.level q = .leaf e.gid ∧ Listed m ml t e.level q e' ∧
      e'.gid = g ∧ e'.level = L ∧ (e'.bufid : Int) = e.targetid ∧ e'.targetid = e.bufid ∧
      e'.ni.ox1 = -e.ni.ox1 ∧ e'.ni.ox2 = -e.ni.ox2 ∧ e'.ni.ox3 = -e.ni.ox3 ∧
      Touch m L p e.level q := by
  obtain ⟨q, e', h1, h2, h3, h4, h5, h6, h7, h8, h9, h10, h11, _⟩ := h.pair_geo hm hnp hi hml hp hl
  exact ⟨q, e', h1, h2, h3, h4, h5, h6, h7, h8, h9, h10, h11⟩

end

section
variable {m : Mesh} (hm : m.Valid) {t : Tree} (hi : Inv m t)
  {ml : Bool} {L : Nat} {p : Pos} {g : Int}

include hm hi in
/-- A touching block is listed. -/
theorem listed_of_touch (hp : Dom m L p) (hl : t.at L p = .leaf g) {K : Nat} {q : Pos} {g' : Int}
    (hml : ml = true ∨ ∀ K q g, Dom m K q → t.at K q = .leaf g → K = m.rootLevel)
    (hq : Dom m K q) (hl' : t.at K q = .leaf g') (hne : ¬ (K = L ∧ q = p)) (ht : Touch m L p K q)
    (hb : L ≤ K + 1 ∧ K ≤ L + 1) : ∃ e, Listed m ml t L p e ∧ e.level = K ∧ e.gid = g' := by
  have hL := hi.wf.leaf L p g hp hl
  have hK := hi.wf.leaf K q g' hq hl'
  obtain rfl | rfl | rfl : K = L ∨ K = L + 1 ∨ L = K + 1 := by omega
  · obtain ⟨o1, o2, o3, hs⟩ := (touch_same_iff hL hp hq).1 ht
    have h0 : ¬ (o1 = 0 ∧ o2 = 0 ∧ o3 = 0) := by
      rintro ⟨rfl, rfl, rfl⟩
      exact hne ⟨rfl, hs.unique hL hp (self_shift hL hp)⟩
    obtain ⟨i, hi1, hi2⟩ := slot_exists_zero hm (ml := ml) hs.dir h0
    exact ⟨_, .same h0 hs hl' hi1 hi2, rfl, rfl⟩
  · obtain ⟨o1, o2, o3, hs, hf⟩ := (touch_iff_facing hL hp hq).1 ht
    have h0 : ¬ (o1 = 0 ∧ o2 = 0 ∧ o3 = 0) := by
      rintro ⟨rfl, rfl, rfl⟩
      have := hs.unique hL hp (self_shift hL hp)
      obtain ⟨g3, h3⟩ := parent_node (t := t) (L := L) (p := q) (by rw [hl']; simp)
      rw [this, hl] at h3; simp at h3
    have hmlt : ml = true := by
      rcases hml with h | h
      · exact h
      · have := h (L + 1) q g' hq hl'; omega
    obtain ⟨i, hi1, hi2⟩ := slot_exists hm (ml := ml) hs.dir h0 (hq.idx_lt hm) (by simp [hmlt])
    exact ⟨_, .fine h0 hs (hq.idx_lt hm) hf (by rw [Pos.child_half]; exact hl') hi1 hi2, rfl, rfl⟩
  · obtain ⟨o1, o2, o3, hs, hf⟩ := (touch_iff_facing hK hq hp).1 ht.symm
    obtain ⟨n', hs'⟩ := hs.down hm hK hq (hp.idx_lt hm) hf
    rw [Pos.child_half] at hs'
    have h0 : ¬ (-o1 = 0 ∧ -o2 = 0 ∧ -o3 = 0) := by
      rintro ⟨h1, h2, h3⟩
      obtain rfl : o1 = 0 := by omega
      obtain rfl : o2 = 0 := by omega
      obtain rfl : o3 = 0 := by omega
      have := hs.unique hK hq (self_shift hK hq)
      obtain ⟨g3, h3⟩ := parent_node (t := t) (L := K) (p := p) (by rw [hl]; simp)
      rw [this, hl'] at h3; simp at h3
    have hout : Outer (-o1) (-o2) (-o3) p := by
      have b1 : (p.bitIdx 0).val % 2 = p.x1 % 2 := by
        simp only [Pos.bitIdx, Nat.pow_zero, Nat.div_one]; omega
      have b2 : (p.bitIdx 0).val / 2 % 2 = p.x2 % 2 := by
        simp only [Pos.bitIdx, Nat.pow_zero, Nat.div_one]; omega
      have b3 : (p.bitIdx 0).val / 4 % 2 = p.x3 % 2 := by
        simp only [Pos.bitIdx, Nat.pow_zero, Nat.div_one]; omega
      obtain ⟨a1, c1, a2, c2, a3, c3⟩ := hf
      rw [b1] at a1 c1; rw [b2] at a2 c2; rw [b3] at a3 c3
      constructor <;> intro h
      · exact c1 (by omega)
      · exact a1 (by omega)
      · exact c2 (by omega)
      · exact a2 (by omega)
      · exact c3 (by omega)
      · exact a3 (by omega)
    obtain ⟨i, hi1, hi2⟩ := slot_exists_zero hm (ml := ml) hs'.dir h0
    exact ⟨_, .coarse h0 rfl hs' (by rw [Pos.half_child]; exact hl') (.inr hout) hi1 hi2, rfl, rfl⟩

end

end Verif.Tree
