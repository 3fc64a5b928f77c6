import Verif.Lemmas.TreeList

/-! # Rebuilding the tree from the list of locations -/
namespace Verif.Tree

/-- `q` (level `K`) is an ancestor of `p` (level `L`) or `p` itself, expressed by bits. -/
def AncB (K : Nat) (q : Pos) (L : Nat) (p : Pos) : Prop :=
  K ≤ L ∧ ∀ sh, sh < K → q.bitIdx sh = p.bitIdx (L - K + sh)

theorem ancB_iff {K L : Nat} {p q : Pos} (hp : InRange L p) (hq : InRange K q) :
    AncB K q L p ↔ K ≤ L ∧ p.shr (L - K) = q := by
  unfold AncB
  constructor
  · rintro ⟨h1, h2⟩
    refine ⟨h1, ?_⟩
    refine (pos_eq_of_bits hq (InRange.shr (by rw [Nat.add_sub_cancel' h1]; exact hp)) ?_).symm
    intro sh hs
    rw [Pos.bitIdx_shr]; exact h2 sh hs
  · rintro ⟨h1, rfl⟩
    exact ⟨h1, fun sh _ => Pos.bitIdx_shr _ _ _⟩

/-- Every node carries gid -1. -/
def AllNeg (t : Tree) : Prop := ∀ K q g, (t.at K q = .leaf g ∨ t.at K q = .node g) → g = -1

/-- Lookup depends only on the bits of the location. -/
theorem get_congr (t : Tree) (J : Nat) {a b : Pos} (h : ∀ sh, sh < J → a.bitIdx sh = b.bitIdx sh) :
    t.get J a = t.get J b := by
  induction J generalizing t with
  | zero => simp
  | succ J ih =>
    rw [get_succ_top, get_succ_top, h J (by omega)]
    exact ih _ (fun sh hs => h sh (by omega))

theorem low_bit (a b K sh : Nat) (hs : sh < K) : (a % 2 ^ K + 2 ^ K * b) / 2 ^ sh % 2 = a / 2 ^ sh % 2 := by
  have e : 2 ^ K = 2 ^ sh * (2 * 2 ^ (K - sh - 1)) := by
    rw [← Nat.pow_succ', ← Nat.pow_add]; congr 1; omega
  have e2 : a / 2 ^ sh % 2 = a % 2 ^ K / 2 ^ sh % 2 := by
    conv_lhs => rw [← Nat.mod_add_div a (2 ^ K)]
    generalize a % 2 ^ K = u
    generalize a / 2 ^ K = v
    rw [e, Nat.mul_assoc, Nat.add_mul_div_left _ _ (Nat.pow_pos (by omega)), Nat.mul_assoc,
      Nat.add_mul_mod_self_left]
  rw [e2]
  generalize a % 2 ^ K = u
  rw [e, Nat.mul_assoc, Nat.add_mul_div_left _ _ (Nat.pow_pos (by omega)), Nat.mul_assoc,
      Nat.add_mul_mod_self_left]

/-- A location with top index `n` above a given location. -/
theorem lift_loc (n : Fin 8) (K : Nat) (q : Pos) :
    ∃ q' : Pos, q'.bitIdx K = n ∧ ∀ sh, sh < K → q'.bitIdx sh = q.bitIdx sh := by
  refine ⟨⟨q.x1 % 2 ^ K + 2 ^ K * (n.val % 2), q.x2 % 2 ^ K + 2 ^ K * (n.val / 2 % 2),
      q.x3 % 2 ^ K + 2 ^ K * (n.val / 4 % 2)⟩, ?_, ?_⟩
  · have hp : 0 < 2 ^ K := Nat.pow_pos (by omega)
    have top : ∀ a b, b < 2 → (a % 2 ^ K + 2 ^ K * b) / 2 ^ K % 2 = b := by
      intro a b hb
      rw [Nat.add_mul_div_left _ _ hp, Nat.div_eq_of_lt (Nat.mod_lt _ hp)]; omega
    apply Fin.ext
    simp only [Pos.bitIdx]
    rw [top _ _ (by omega), top _ _ (by omega), top _ _ (by omega)]; omega
  · intro sh hs
    apply Fin.ext
    simp only [Pos.bitIdx]
    rw [low_bit _ _ _ _ hs, low_bit _ _ _ _ hs, low_bit _ _ _ _ hs]

theorem at_lift {n : Fin 8} {K : Nat} {q q' : Pos} (h1 : q'.bitIdx K = n)
    (h2 : ∀ sh, sh < K → q'.bitIdx sh = q.bitIdx sh) (g : Int) (k : Fin 8 → Tree) :
    (Tree.node g k).at (K + 1) q' = (k n).at K q := by
  unfold Tree.at
  rw [get_succ_top, h1, kid_node, get_congr _ _ h2]

theorem AllNeg.kid {g : Int} {k : Fin 8 → Tree} (h : AllNeg (.node g k)) (n : Fin 8) : AllNeg (k n) := by
  intro K q g' hq
  obtain ⟨q', h1, h2⟩ := lift_loc n K q
  exact h (K + 1) q' g' (by rw [at_lift h1 h2]; exact hq)

open Classical in
/-- Contents after adding one location. -/
theorem addWithoutRefine_at {p : Pos} {L : Nat} {t : Tree} (ht : AllNeg t) (hn : t ≠ .null) (K : Nat)
    (q : Pos) : (addWithoutRefine p L t).at K q =
      if AncB K q L p then
        (if K < L then .node (-1) else if t.at K q = .null then .leaf (-1) else t.at K q)
      else t.at K q := by
  induction L generalizing t K with
  | zero =>
    have e : addWithoutRefine p 0 t = t := by cases t <;> rfl
    rw [e]
    split
    · rename_i h
      obtain rfl : K = 0 := by have := h.1; omega
      rw [if_neg (by omega), if_neg (by rw [at_null_iff]; simpa using hn)]
    · rfl
  | succ L ih =>
    -- the tree as a node, child on the path made non-null
    have core : ∀ (g : Int) (k : Fin 8 → Tree) (u : Tree), g = -1 → AllNeg u → u ≠ .null →
        (∀ K q, u.at K q = if K = 0 ∧ (k (p.bitIdx L)).at K q = .null then .leaf (-1)
            else (k (p.bitIdx L)).at K q) →
        (Tree.node g (fun n => if n = p.bitIdx L then addWithoutRefine p L u else k n)).at K q =
        if AncB K q (L + 1) p then
          (if K < L + 1 then .node (-1) else if (Tree.node g k).at K q = .null then .leaf (-1)
            else (Tree.node g k).at K q)
        else (Tree.node g k).at K q := by
      intro g k u hg hu hun hua
      subst hg
      rcases K with _ | K
      · rw [if_pos ⟨by omega, by omega⟩, if_pos (by omega)]; rfl
      · have e1 : ∀ (k' : Fin 8 → Tree), (Tree.node (-1) k').at (K + 1) q = (k' (q.bitIdx K)).at K q := by
          intro k'; unfold Tree.at; rw [get_succ_top]; rfl
        rw [e1, e1]
        by_cases hb : q.bitIdx K = p.bitIdx L
        · rw [if_pos hb, ih hu hun]
          have hanc : AncB (K + 1) q (L + 1) p ↔ AncB K q L p := by
            unfold AncB
            constructor
            · rintro ⟨a, b⟩
              refine ⟨by omega, fun sh hs => ?_⟩
              have := b sh (by omega)
              rwa [show L + 1 - (K + 1) + sh = L - K + sh by omega] at this
            · rintro ⟨a, b⟩
              refine ⟨by omega, fun sh hs => ?_⟩
              rw [show L + 1 - (K + 1) + sh = L - K + sh by omega]
              rcases Nat.lt_or_ge sh K with h | h
              · exact b sh h
              · obtain rfl : sh = K := by omega
                rw [show L - sh + sh = L by omega]; exact hb
          simp only [hanc]
          rw [hb]
          have := hua K q
          split
          · rename_i hA
            simp only [Nat.add_lt_add_iff_right]
            split
            · rfl
            · rw [this]
              split
              · rename_i hc; rw [if_pos hc.2]; simp
              · rfl
          · rename_i hA
            rw [this]
            split
            · rename_i hc
              exfalso; apply hA
              refine ⟨by omega, fun sh hs => by omega⟩
            · rfl
        · rw [if_neg hb, if_neg]
          rintro ⟨a, b⟩
          have := b K (by omega)
          rw [show L + 1 - (K + 1) + K = L by omega] at this
          exact hb this
    rcases t with _ | g | ⟨g, k⟩
    · exact absurd rfl hn
    · have hg : g = -1 := ht 0 q g (.inl rfl)
      have := core g (fun _ => .null) (.leaf g) hg (by
          subst hg
          intro K q g' h
          rcases K with _ | K
          · rcases h with h | h <;> simp [Tree.at, Tree.kind] at h
            exact h.symm
          · rcases h with h | h <;> simp [Tree.at, get_leaf_succ, Tree.kind] at h) (by simp) (by
          subst hg
          intro K q
          rcases K with _ | K
          · simp [Tree.at, Tree.kind]
          · simp [Tree.at, get_leaf_succ])
      have e : addWithoutRefine p (L + 1) (.leaf g) = Tree.node g (fun n =>
        if n = p.bitIdx L then addWithoutRefine p L (.leaf g) else .null) := rfl
      rw [e, this]
      -- a leaf and a node without children differ only at the root
      have hk : ∀ K, 0 < K → (Tree.node g (fun _ => .null)).at K q = .null := by
        intro K hK
        obtain ⟨K, rfl⟩ : ∃ J, K = J + 1 := ⟨K - 1, by omega⟩
        simp [Tree.at, get_succ_top, Tree.kind]
      have hk' : ∀ K, 0 < K → (Tree.leaf g).at K q = .null := by
        intro K hK
        obtain ⟨K, rfl⟩ : ∃ J, K = J + 1 := ⟨K - 1, by omega⟩
        simp [Tree.at, get_leaf_succ, Tree.kind]
      rcases Nat.eq_zero_or_pos K with h0 | h0
      · subst h0
        have hA : AncB 0 q (L + 1) p := ⟨by omega, by omega⟩
        rw [if_pos hA, if_pos hA]
        simp
      · rw [hk K h0, hk' K h0]
    · have hg : g = -1 := ht 0 q g (.inr rfl)
      have hkn := ht.kid (p.bitIdx L)
      rcases hkk : k (p.bitIdx L) with _ | g' | ⟨g', k'⟩
      · have := core g k (.leaf g) hg (by
          subst hg
          intro K q g' h
          rcases K with _ | K
          · rcases h with h | h <;> simp [Tree.at, Tree.kind] at h
            exact h.symm
          · rcases h with h | h <;> simp [Tree.at, get_leaf_succ, Tree.kind] at h) (by simp) (by
          subst hg
          rw [hkk]
          intro K q
          rcases K with _ | K
          · simp [Tree.at, Tree.kind]
          · simp [Tree.at, get_leaf_succ])
        rw [← this]
        congr 1
        simp only [addWithoutRefine]
        congr 1
        funext n
        split
        · rename_i h; subst h; rw [hkk]
        · rfl
      · have := core g k (.leaf g') hg (by rw [← hkk]; exact hkn) (by simp) (by
          rw [hkk]; intro K q
          rw [if_neg]
          rintro ⟨rfl, h⟩; simp [Tree.at, Tree.kind] at h)
        rw [← this]
        congr 1
        simp only [addWithoutRefine]
        congr 1
        funext n
        split
        · rename_i h; subst h; rw [hkk]
        · rfl
      · have := core g k (.node g' k') hg (by rw [← hkk]; exact hkn) (by simp) (by
          rw [hkk]; intro K q
          rw [if_neg]
          rintro ⟨rfl, h⟩; simp [Tree.at, Tree.kind] at h)
        rw [← this]
        congr 1
        simp only [addWithoutRefine]
        congr 1
        funext n
        split
        · rename_i h; subst h; rw [hkk]
        · rfl

theorem addWithoutRefine_neg {p : Pos} {L : Nat} {t : Tree} (ht : AllNeg t) (hn : t ≠ .null) :
    AllNeg (addWithoutRefine p L t) ∧ addWithoutRefine p L t ≠ .null := by
  classical
  constructor
  · intro K q g h
    rw [addWithoutRefine_at ht hn] at h
    split at h
    · split at h
      · rcases h with h | h <;> simp at h; exact h.symm
      · split at h
        · rcases h with h | h <;> simp at h; exact h.symm
        · exact ht K q g h
    · exact ht K q g h
  · intro h0
    have := addWithoutRefine_at (p := p) (L := L) ht hn 0 ⟨0, 0, 0⟩
    rw [h0, if_pos ⟨by omega, by omega⟩] at this
    simp only [Tree.at, get_null, Tree.kind] at this
    split at this
    · simp at this
    · cases t <;> simp_all

open Classical in
/-- Contents of the rebuilt tree. -/
theorem foldl_add_at (l : List (Nat × Pos)) {t : Tree} (ht : AllNeg t) (hn : t ≠ .null) (K : Nat)
    (q : Pos) :
    (l.foldl (fun t l => addWithoutRefine l.2 l.1 t) t).at K q =
      if (∃ b ∈ l, K < b.1 ∧ AncB K q b.1 b.2) then .node (-1)
      else if t.at K q = .null ∧ ∃ b ∈ l, AncB K q b.1 b.2 then .leaf (-1)
      else t.at K q := by
  induction l generalizing t with
  | nil => simp
  | cons b l ih =>
    obtain ⟨h1, h2⟩ := addWithoutRefine_neg (p := b.2) (L := b.1) ht hn
    rw [List.foldl_cons, ih h1 h2, addWithoutRefine_at ht hn]
    by_cases c1 : ∃ b' ∈ l, K < b'.1 ∧ AncB K q b'.1 b'.2
    · rw [if_pos c1, if_pos]
      obtain ⟨b', hb', h⟩ := c1
      exact ⟨b', by simp [hb'], h⟩
    · rw [if_neg c1]
      by_cases c2 : AncB K q b.1 b.2
      · by_cases c3 : K < b.1
        · rw [if_pos c2, if_pos c3, if_neg (by simp), if_pos ⟨b, by simp, c3, c2⟩]
        · rw [if_pos c2, if_neg c3]
          have hK : K = b.1 := by have := c2.1; omega
          rw [if_neg (c := ∃ b' ∈ b :: l, K < b'.1 ∧ AncB K q b'.1 b'.2) (by
            rintro ⟨b', hb', h⟩
            rcases List.mem_cons.1 hb' with rfl | hb'
            · omega
            · exact c1 ⟨b', hb', h⟩)]
          by_cases c4 : t.at K q = .null
          · rw [if_pos c4, if_neg (by simp), if_pos ⟨c4, b, by simp, c2⟩]
          · rw [if_neg c4, if_neg (by simp [c4]), if_neg (by simp [c4])]
      · rw [if_neg c2]
        have e1 : (∃ b' ∈ b :: l, K < b'.1 ∧ AncB K q b'.1 b'.2) ↔ False := by
          simp only [iff_false]
          rintro ⟨b', hb', h⟩
          rcases List.mem_cons.1 hb' with rfl | hb'
          · exact c2 h.2
          · exact c1 ⟨b', hb', h⟩
        have e2 : (∃ b' ∈ b :: l, AncB K q b'.1 b'.2) ↔ ∃ b' ∈ l, AncB K q b'.1 b'.2 := by
          constructor
          · rintro ⟨b', hb', h⟩
            rcases List.mem_cons.1 hb' with rfl | hb'
            · exact absurd h c2
            · exact ⟨b', hb', h⟩
          · rintro ⟨b', hb', h⟩; exact ⟨b', by simp [hb'], h⟩
        simp only [e1, e2, if_false]

/-- Every existing location has a leaf at or below it. -/
theorem exists_leaf_below {m : Mesh} (hm : m.Valid) {t : Tree} (hw : WF m t) {K : Nat} {q : Pos}
    (hq : InRange K q) (hex : t.at K q ≠ .null) :
    ∃ j p g, InRange (K + j) p ∧ p.shr j = q ∧ t.at (K + j) p = .leaf g := by
  have main : ∀ (u : Tree) (K : Nat) (q : Pos), t.get K q = u → InRange K q → u ≠ .null →
      ∃ j p g, InRange (K + j) p ∧ p.shr j = q ∧ t.at (K + j) p = .leaf g := by
    intro u
    induction u with
    | null => intro K q _ _ h; exact absurd rfl h
    | leaf g => intro K q h hr _; exact ⟨0, q, g, hr, by simp, at_leaf_iff.2 h⟩
    | node g k ih =>
      intro K q h hr _
      have hn : t.at K q = .node g := at_node_iff.2 ⟨k, h⟩
      have hd := hw.dom hm hr (by rw [hn]; simp)
      -- child 0 is inside
      have hd0 : Dom m (K + 1) (q.child 0) := by
        have e : q.child 0 = ⟨2 * q.x1, 2 * q.x2, 2 * q.x3⟩ := by simp [Pos.child]
        rw [e]
        have aux : ∀ on n x, DomDim on n m.rootLevel K x → DomDim on n m.rootLevel (K + 1) (2 * x) := by
          intro on n x hx
          unfold DomDim at *
          split
          · rw [if_pos ‹_›] at hx
            rw [Nat.pow_succ, Nat.mul_assoc, ← Nat.mul_assoc n]; omega
          · rw [if_neg ‹_›] at hx; omega
        exact ⟨aux _ _ _ hd.d1, aux _ _ _ hd.d2, aux _ _ _ hd.d3⟩
      have hc := (hw.kids K q g hd hn 0).2 hd0
      rw [at_kid h] at hc
      have hgk : t.get (K + 1) (q.child 0) = k 0 := by rw [get_succ]; simp [h]
      obtain ⟨j, p, g', h1, h2, h3⟩ := ih 0 (K + 1) (q.child 0) hgk (hr.child 0) (by simpa using hc)
      refine ⟨j + 1, p, g', by rw [show K + (j + 1) = K + 1 + j by omega]; exact h1, ?_,
        by rw [show K + (j + 1) = K + 1 + j by omega]; exact h3⟩
      rw [← Pos.shr_half, h2]; simp
  exact main _ K q rfl hq (by rwa [Ne, at_null_iff] at hex)

theorem rootGrid_neg {m : Mesh} (hm : m.Valid) :
    ∀ K q g, InRange K q → ((rootGrid m).at K q = .leaf g ∨ (rootGrid m).at K q = .node g) → g = -1 := by
  intro K q g hq h
  by_cases hd : Dom m K q
  · rw [(rootGrid_at hm hq).1 hd] at h
    split at h
    · rcases h with h | h <;> simp at h; exact h.symm
    · split at h <;> rcases h with h | h <;> simp at h; exact h.symm
  · rw [(rootGrid_at hm hq).2 hd] at h
    rcases h with h | h <;> simp at h

theorem at_mod (t : Tree) (K : Nat) (q : Pos) :
    t.at K q = t.at K ⟨q.x1 % 2 ^ K, q.x2 % 2 ^ K, q.x3 % 2 ^ K⟩ := by
  unfold Tree.at; congr 1
  apply get_congr
  intro sh hs
  apply Fin.ext
  simp only [Pos.bitIdx]
  have := fun a => low_bit a 0 K sh hs
  simp only [Nat.mul_zero, Nat.add_zero] at this
  rw [this, this, this]

theorem rootGrid_allNeg {m : Mesh} (hm : m.Valid) : AllNeg (rootGrid m) := by
  intro K q g h
  rw [at_mod] at h
  have hp : 0 < 2 ^ K := Nat.pow_pos (by omega)
  exact rootGrid_neg hm K _ g ⟨Nat.mod_lt _ hp, Nat.mod_lt _ hp, Nat.mod_lt _ hp⟩ h

/-- The rebuilt tree has the contents of the original tree, with all leaf gids -1. -/
theorem rebuild_at {m : Mesh} (hm : m.Valid) {t : Tree} (hw : WF m t)
    (hneg : ∀ L p g, InRange L p → t.at L p = .node g → g = -1) {K : Nat} {q : Pos}
    (hq : InRange K q) :
    (rebuild m ((meshBlocks m t).map (fun b => (b.1, b.2.1)))).at K q =
      match t.at K q with
      | .leaf _ => .leaf (-1)
      | k => k := by
  classical
  unfold rebuild
  rw [foldl_add_at _ (rootGrid_allNeg hm) (rootGrid_wf hm).root]
  -- membership
  have hmem : ∀ b : Nat × Pos, b ∈ (meshBlocks m t).map (fun b => (b.1, b.2.1)) ↔
      InRange b.1 b.2 ∧ ∃ g, t.at b.1 b.2 = .leaf g := by
    rintro ⟨K, q⟩
    simp only [List.mem_map, Prod.exists, Prod.mk.injEq]
    constructor
    · rintro ⟨K', q', g, h, rfl, rfl⟩
      obtain ⟨a, b⟩ := (mem_meshBlocks hm hw).1 h
      exact ⟨a, g, b⟩
    · rintro ⟨a, g, b⟩
      exact ⟨K, q, g, (mem_meshBlocks hm hw).2 ⟨a, b⟩, rfl, rfl⟩
  have hanc : ∀ b : Nat × Pos, InRange b.1 b.2 → (∃ g, t.at b.1 b.2 = .leaf g) → AncB K q b.1 b.2 →
      K ≤ b.1 ∧ b.2.shr (b.1 - K) = q ∧ t.at K q ≠ .null ∧ (K < b.1 → ∃ g, t.at K q = .node g) := by
    rintro ⟨M, r⟩ hr ⟨g, hg⟩ hA
    obtain ⟨h1, h2⟩ := (ancB_iff hr hq).1 hA
    simp only at h1 h2 hr hg ⊢
    obtain ⟨j, rfl⟩ : ∃ j, M = K + j := ⟨M - K, by omega⟩
    rw [show K + j - K = j by omega] at h2
    have hne : t.at (K + j) r ≠ .null := by rw [hg]; simp
    refine ⟨h1, by rw [show K + j - K = j by omega]; exact h2, ?_, ?_⟩
    · rw [← h2]; exact exists_anc hne
    · intro hlt
      rw [← h2]; exact node_anc hne (by omega)
  by_cases c1 : ∃ b ∈ (meshBlocks m t).map (fun b => (b.1, b.2.1)), K < b.1 ∧ AncB K q b.1 b.2
  · rw [if_pos c1]
    obtain ⟨b, hb, h1, h2⟩ := c1
    obtain ⟨hr, hg⟩ := (hmem b).1 hb
    obtain ⟨g, hg⟩ := (hanc b hr hg h2).2.2.2 h1
    have := hneg K q g hq hg
    rw [hg, this]
  · rw [if_neg c1]
    rcases kind_cases (t.at K q) with h0 | ⟨g, h0⟩ | ⟨g, h0⟩
    · -- null
      rw [h0]
      rw [if_neg]
      · -- not in the root grid either
        by_cases hd : Dom m K q
        · rw [(rootGrid_at hm hq).1 hd]
          have hK : m.rootLevel < K := by
            rcases Nat.lt_or_ge m.rootLevel K with h | h
            · exact h
            · exact absurd h0 (hw.low hd h)
          rw [if_neg (by omega), if_neg (by omega)]
        · rw [(rootGrid_at hm hq).2 hd]
      · rintro ⟨_, b, hb, hA⟩
        obtain ⟨hr, hg⟩ := (hmem b).1 hb
        exact (hanc b hr hg hA).2.2.1 h0
    · -- leaf
      rw [h0]
      have hd := hw.dom hm hq (by rw [h0]; simp)
      have hK := hw.leaf K q g hd h0
      by_cases c2 : (rootGrid m).at K q = .null
      · rw [if_pos ⟨c2, (K, q), (hmem _).2 ⟨hq, g, h0⟩, (ancB_iff hq hq).2 ⟨Nat.le_refl _, by simp⟩⟩]
      · rw [if_neg (by simp [c2])]
        rw [(rootGrid_at hm hq).1 hd] at c2 ⊢
        rw [if_neg (by omega)] at c2 ⊢
        split at c2
        · rw [if_pos ‹_›]
        · simp at c2
    · -- node: impossible
      exfalso
      obtain ⟨j, p, g', h1, h2, h3⟩ := exists_leaf_below hm hw hq (by rw [h0]; simp)
      apply c1
      have hj : 0 < j := by
        rcases Nat.eq_zero_or_pos j with hj | hj
        · subst hj; simp at h2 h3; rw [h2, h0] at h3; simp at h3
        · exact hj
      refine ⟨(K + j, p), (hmem _).2 ⟨h1, g', h3⟩, by simp; omega, (ancB_iff h1 hq).2 ⟨by simp, ?_⟩⟩
      simp only [show K + j - K = j by omega]; exact h2

/-- Children beyond `nleaf_` do not exist. -/
def Slim (m : Mesh) (t : Tree) : Prop :=
  ∀ K q, t.at K q ≠ .null → ∀ sh, sh < K → (q.bitIdx sh).val < m.nleaf

theorem WF.slim {m : Mesh} (hm : m.Valid) {t : Tree} (hw : WF m t) : Slim m t := by
  intro K q h sh hs
  rw [at_mod] at h
  have hp : 0 < 2 ^ K := Nat.pow_pos (by omega)
  have := (hw.dom hm ⟨Nat.mod_lt _ hp, Nat.mod_lt _ hp, Nat.mod_lt _ hp⟩ h).bits hm sh hs
  have e := fun a => low_bit a 0 K sh hs
  simp only [Nat.mul_zero, Nat.add_zero] at e
  simp only [Pos.bitIdx] at this ⊢
  rwa [e, e, e] at this

theorem Slim.kid {m : Mesh} {g : Int} {k : Fin 8 → Tree} (h : Slim m (.node g k)) (n : Fin 8) :
    Slim m (k n) ∧ (k n ≠ .null → n.val < m.nleaf) := by
  constructor
  · intro K q hq sh hs
    obtain ⟨q', h1, h2⟩ := lift_loc n K q
    rw [← h2 sh hs]
    exact h (K + 1) q' (by rw [at_lift h1 h2]; exact hq) sh (by omega)
  · intro hn
    obtain ⟨q', h1, h2⟩ := lift_loc n 0 ⟨0, 0, 0⟩
    rw [← h1]
    refine h 1 q' ?_ 0 (by omega)
    rw [at_lift h1 h2, Ne, at_null_iff]; simpa using hn

/-- Numbering ignores the previous leaf gids. -/
theorem number_congr {m : Mesh} {t t' : Tree} (h : ∀ K q, (t.at K q).shape = (t'.at K q).shape)
    (hs : Slim m t) (c : Nat) :
    t.number m c = t'.number m c := by
  induction t generalizing t' c with
  | null =>
    have := (shape_null (h 0 ⟨0, 0, 0⟩)).1 rfl
    rw [at_null_iff] at this; simp at this; rw [this]
  | leaf g =>
    obtain ⟨g', h'⟩ := (shape_leaf (h 0 ⟨0, 0, 0⟩)).1 ⟨g, rfl⟩
    rw [at_leaf_iff] at h'; simp at h'; rw [h']; rfl
  | node g k ih =>
    have h0 := (shape_node (h 0 ⟨0, 0, 0⟩) g).1 rfl
    obtain ⟨k', hk'⟩ := at_node_iff.1 h0
    simp at hk'; subst hk'
    have hsh : ∀ n K q, ((k n).at K q).shape = ((k' n).at K q).shape := by
      intro n K q
      obtain ⟨q', h1, h2⟩ := lift_loc n K q
      have := h (K + 1) q'
      rwa [at_lift h1 h2, at_lift h1 h2] at this
    have hk : ∀ n c, (k n).number m c = (k' n).number m c := fun n c =>
      ih n (hsh n) (hs.kid n).1 c
    simp only [Tree.number]
    have hfold : ∀ (l : List (Fin 8)) (f f' : Fin 8 → Tree) (c : Nat),
        (∀ n, n ∉ l → f n = f' n) →
        l.foldl (fun (a : (Fin 8 → Tree) × Nat) n =>
          (fun i => if i = n then ((k n).number m a.2).1 else a.1 i, ((k n).number m a.2).2)) (f, c) =
        l.foldl (fun (a : (Fin 8 → Tree) × Nat) n =>
          (fun i => if i = n then ((k' n).number m a.2).1 else a.1 i, ((k' n).number m a.2).2)) (f', c) := by
      intro l
      induction l with
      | nil =>
        intro f f' c hf
        simp only [List.foldl_nil, Prod.mk.injEq, and_true]
        funext n; exact hf n (by simp)
      | cons a l ihl =>
        intro f f' c hf
        rw [List.foldl_cons, List.foldl_cons, hk a c]
        apply ihl
        intro n hn
        simp only
        split
        · rfl
        · exact hf n (by simp; exact ⟨‹_›, hn⟩)
    rw [hfold m.kids k k' c]
    intro n hn
    rw [mem_kids] at hn
    have e : k n = .null := by
      rcases hkn : k n with _ | _ | _
      · rfl
      · exact absurd ((hs.kid n).2 (by rw [hkn]; simp)) hn
      · exact absurd ((hs.kid n).2 (by rw [hkn]; simp)) hn
    have e' := (shape_null (hsh n 0 ⟨0, 0, 0⟩)).1 (by rw [e]; rfl)
    rw [at_null_iff] at e'
    simp at e'
    rw [e, e']

theorem rebuild_shape {m : Mesh} (hm : m.Valid) {t : Tree} (hw : WF m t)
    (hneg : ∀ L p g, InRange L p → t.at L p = .node g → g = -1) (K : Nat) (q : Pos) :
    ((rebuild m ((meshBlocks m t).map (fun b => (b.1, b.2.1)))).at K q).shape = (t.at K q).shape := by
  rw [at_mod, at_mod t]
  have hp : 0 < 2 ^ K := Nat.pow_pos (by omega)
  rw [rebuild_at hm hw hneg ⟨Nat.mod_lt _ hp, Nat.mod_lt _ hp, Nat.mod_lt _ hp⟩]
  split
  · rename_i h; rw [h]; rfl
  · rfl

/-- The restarted tree and numbering equal those of the tree that wrote the list. -/
theorem rebuild_number {m : Mesh} (hm : m.Valid) {t : Tree} (hw : WF m t)
    (hneg : ∀ L p g, InRange L p → t.at L p = .node g → g = -1) :
    (rebuild m ((meshBlocks m t).map (fun b => (b.1, b.2.1)))).number m 0 = t.number m 0 := by
  symm
  exact number_congr (fun K q => (rebuild_shape hm hw hneg K q).symm) (hw.slim hm) 0

end Verif.Tree
