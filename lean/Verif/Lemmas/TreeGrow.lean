import Verif.Lemmas.Tree

/-! # Refinement: well-formedness, growth, minimality -/
namespace Verif.Tree

theorem DomDim.half {on : Bool} {n root L x : Nat} (h : DomDim on n root (L + 1) x) :
    DomDim on n root L (x / 2) := by
  unfold DomDim at *
  split at h
  · rw [if_pos ‹_›]
    have h1 : x / 2 * 2 * 2 ^ root ≤ x * 2 ^ root := Nat.mul_le_mul_right _ (Nat.div_mul_le_self x 2)
    have h2 : x / 2 * 2 * 2 ^ root = 2 * (x / 2 * 2 ^ root) := by
      rw [Nat.mul_comm (x / 2) 2, Nat.mul_assoc]
    rw [Nat.pow_succ, ← Nat.mul_assoc] at h
    omega
  · rw [if_neg ‹_›]; omega

theorem Dom.half {m : Mesh} {L : Nat} {p : Pos} (h : Dom m (L + 1) p) : Dom m L p.half :=
  ⟨h.d1.half, h.d2.half, h.d3.half⟩

theorem DomDim.lt {on : Bool} {n root L x : Nat} (hn : n ≤ 2 ^ root) (h : DomDim on n root L x) :
    x < 2 ^ L := by
  unfold DomDim at h
  split at h
  · have h1 : n * 2 ^ L ≤ 2 ^ root * 2 ^ L := Nat.mul_le_mul_right _ hn
    have h2 : x * 2 ^ root < 2 ^ L * 2 ^ root := by rw [Nat.mul_comm (2 ^ L)]; omega
    exact Nat.lt_of_mul_lt_mul_right h2
  · have := Nat.pow_pos (n := L) (show 0 < 2 by omega); omega

theorem Dom.inRange {m : Mesh} (hm : m.Valid) {L : Nat} {p : Pos} (h : Dom m L p) : InRange L p :=
  ⟨h.d1.lt hm.le1, h.d2.lt hm.le2, h.d3.lt hm.le3⟩

theorem Dom.zero {m : Mesh} (hm : m.Valid) : Dom m 0 ⟨0, 0, 0⟩ := by
  refine ⟨?_, ?_, ?_⟩ <;> unfold DomDim <;> split <;> simp [hm.pos1, hm.pos2, hm.pos3]

theorem Dom.shr {m : Mesh} {L j : Nat} {p : Pos} (h : Dom m (L + j) p) : Dom m L (p.shr j) := by
  induction j generalizing p with
  | zero => simpa using h
  | succ j ih => rw [Pos.shr_succ]; exact ih h.half

theorem domDim_ge {n root L x : Nat} (h : root ≤ L) :
    DomDim true n root L x ↔ x < n * 2 ^ (L - root) := by
  unfold DomDim
  have : n * 2 ^ L = n * 2 ^ (L - root) * 2 ^ root := by
    rw [Nat.mul_assoc, ← Nat.pow_add, Nat.sub_add_cancel h]
  simp only [if_true, this]
  exact Nat.mul_lt_mul_right (Nat.pow_pos (by omega))

/-- From the root level on, the location is inside the mesh iff its coordinates are smaller than
the `nxmax, nymax, nzmax` computed in the code. -/
theorem dom_iff_ge {m : Mesh} {L : Nat} {p : Pos} (h : m.rootLevel ≤ L) :
    Dom m L p ↔ p.x1 < m.nmax1 L ∧ p.x2 < m.nmax2 L ∧ p.x3 < m.nmax3 L := by
  have h1 := domDim_ge (n := m.nrbx1) (x := p.x1) h
  have h2 : DomDim m.f2 m.nrbx2 m.rootLevel L p.x2 ↔ p.x2 < m.nmax2 L := by
    unfold Mesh.nmax2
    cases m.f2
    · simp [DomDim]
    · simpa using domDim_ge h
  have h3 : DomDim m.f3 m.nrbx3 m.rootLevel L p.x3 ↔ p.x3 < m.nmax3 L := by
    unfold Mesh.nmax3
    cases m.f3
    · simp [DomDim]
    · simpa using domDim_ge h
  exact ⟨fun ⟨a, b, c⟩ => ⟨h1.1 a, h2.1 b, h3.1 c⟩, fun ⟨a, b, c⟩ => ⟨h1.2 a, h2.2 b, h3.2 c⟩⟩

theorem nmax_succ {m : Mesh} {L : Nat} (h : m.rootLevel ≤ L) :
    m.nmax1 (L + 1) = 2 * m.nmax1 L ∧ (m.f2 = true → m.nmax2 (L + 1) = 2 * m.nmax2 L) ∧
    (m.f3 = true → m.nmax3 (L + 1) = 2 * m.nmax3 L) := by
  have hp : 2 ^ (L + 1 - m.rootLevel) = 2 ^ (L - m.rootLevel) * 2 := by
    rw [show L + 1 - m.rootLevel = (L - m.rootLevel) + 1 by omega, Nat.pow_succ]
  refine ⟨?_, ?_, ?_⟩
  · simp only [Mesh.nmax1, hp]; rw [← Nat.mul_assoc, Nat.mul_comm]
  · intro hf; simp only [Mesh.nmax2, hf, if_true, hp]; rw [← Nat.mul_assoc, Nat.mul_comm]
  · intro hf; simp only [Mesh.nmax3, hf, if_true, hp]; rw [← Nat.mul_assoc, Nat.mul_comm]

theorem nmax_pos {m : Mesh} (hm : m.Valid) (L : Nat) :
    0 < m.nmax1 L ∧ 0 < m.nmax2 L ∧ 0 < m.nmax3 L := by
  have hp := Nat.pow_pos (n := L - m.rootLevel) (show 0 < 2 by omega)
  refine ⟨Nat.mul_pos hm.pos1 hp, ?_, ?_⟩
  · unfold Mesh.nmax2; split
    · exact Nat.mul_pos hm.pos2 hp
    · omega
  · unfold Mesh.nmax3; split
    · exact Nat.mul_pos hm.pos3 hp
    · omega

theorem child_lt_nleaf {m : Mesh} (hm : m.Valid) {L : Nat} {p : Pos} {n : Fin 8}
    (h : Dom m L (p.child n)) : n.val < m.nleaf := by
  have h2 := h.d2
  have h3 := h.d3
  have := n.isLt
  have hd := hm.dim
  unfold Mesh.nleaf
  rcases hf2 : m.f2 <;> rcases hf3 : m.f3 <;> simp [hf2, hf3, DomDim, Pos.child] at h2 h3 hd ⊢ <;>
    omega

theorem Dom.idx_lt {m : Mesh} (hm : m.Valid) {L : Nat} {p : Pos} (h : Dom m L p) :
    (p.bitIdx 0).val < m.nleaf := by
  rw [← Pos.child_half p] at h; exact child_lt_nleaf hm h

theorem Dom.child {m : Mesh} (hm : m.Valid) {L : Nat} {p : Pos} {n : Fin 8} (hL : m.rootLevel ≤ L)
    (h : Dom m L p) (hn : n.val < m.nleaf) : Dom m (L + 1) (p.child n) := by
  rw [dom_iff_ge hL] at h
  rw [dom_iff_ge (by omega)]
  obtain ⟨h1, h2, h3⟩ := h
  obtain ⟨e1, e2, e3⟩ := nmax_succ hL
  have := n.isLt
  refine ⟨?_, ?_, ?_⟩
  · simp only [Pos.child]; omega
  · simp only [Pos.child]
    rcases hf2 : m.f2
    · have hn' : n.val < 2 := by
        have hd := hm.dim
        unfold Mesh.nleaf at hn
        rcases hf3 : m.f3 <;> simp [hf2, hf3] at hn hd ⊢; omega
      simp only [Mesh.nmax2, hf2] at h2 ⊢; simp at h2 ⊢; omega
    · rw [e2 hf2]; omega
  · simp only [Pos.child]
    rcases hf3 : m.f3
    · have hn' : n.val < 4 := by
        unfold Mesh.nleaf at hn
        rcases hf2 : m.f2 <;> simp [hf2, hf3] at hn ⊢ <;> omega
      simp only [Mesh.nmax3, hf3] at h3 ⊢; simp at h3 ⊢; omega
    · rw [e3 hf3]; omega

/-! ## Well-formed trees -/

structure WF (m : Mesh) (t : Tree) : Prop where
  root : t ≠ .null
  kids : ∀ L p g, Dom m L p → t.at L p = .node g →
    ∀ n, t.at (L + 1) (p.child n) ≠ .null ↔ Dom m (L + 1) (p.child n)
  leaf : ∀ L p g, Dom m L p → t.at L p = .leaf g → m.rootLevel ≤ L

theorem WF.dom {m : Mesh} (hm : m.Valid) {t : Tree} (h : WF m t) {L : Nat} {p : Pos}
    (hp : InRange L p) (hex : t.at L p ≠ .null) : Dom m L p := by
  induction L generalizing p with
  | zero => rw [hp.zero]; exact Dom.zero hm
  | succ L ih =>
    obtain ⟨g, hg⟩ := parent_node hex
    have hd := ih hp.half (by rw [hg]; simp)
    rw [← Pos.child_half p] at hex ⊢
    exact (h.kids L _ g hd hg _).1 hex

/-- A location inside the mesh exists if its parent is internal. -/
theorem WF.exists_child {m : Mesh} {t : Tree} (h : WF m t) {L : Nat} {p : Pos}
    (hp : Dom m (L + 1) p) {g : Int} (hg : t.at L p.half = .node g) : t.at (L + 1) p ≠ .null := by
  have := (h.kids L _ g hp.half hg (p.bitIdx 0)).2
  rw [Pos.child_half] at this
  exact this hp

theorem kind_cases (k : Kind) : k = .null ∨ (∃ g, k = .leaf g) ∨ (∃ g, k = .node g) := by
  cases k <;> simp

theorem WF.low {m : Mesh} {t : Tree} (h : WF m t) {L : Nat} {p : Pos}
    (hp : Dom m L p) (hL : L ≤ m.rootLevel) : t.at L p ≠ .null := by
  induction L generalizing p with
  | zero => simpa [Tree.at] using h.root
  | succ L ih =>
    have h1 := ih hp.half (by omega)
    rcases kind_cases (t.at L p.half) with h2 | ⟨g, h2⟩ | ⟨g, h2⟩
    · exact absurd h2 h1
    · have := h.leaf L _ g hp.half h2; omega
    · exact h.exists_child hp h2

/-- Every location inside the mesh either exists or lies below exactly one leaf. -/
theorem WF.leaf_above {m : Mesh} {t : Tree} (h : WF m t) {L : Nat} {p : Pos}
    (hp : Dom m L p) : t.at L p ≠ .null ∨
      ∃ j g, 0 < j ∧ j ≤ L ∧ t.at (L - j) (p.shr j) = .leaf g := by
  induction L generalizing p with
  | zero => left; simpa [Tree.at] using h.root
  | succ L ih =>
    rcases ih hp.half with h1 | ⟨j, g, h1, h2, h3⟩
    · rcases kind_cases (t.at L p.half) with h2 | ⟨g, h2⟩ | ⟨g, h2⟩
      · exact absurd h2 h1
      · right; exact ⟨1, g, by omega, by omega, by rw [Pos.shr_one]; exact h2⟩
      · left; exact h.exists_child hp h2
    · right
      exact ⟨j + 1, g, by omega, by omega, by
        rw [Pos.shr_succ, show L + 1 - (j + 1) = L - j by omega]; exact h3⟩

/-- Tree order: `t'` is obtained from `t` by refinement. -/
def Le (t t' : Tree) : Prop := ∀ L p, InRange L p →
  ((∃ g, t.at L p = .node g) → ∃ g, t'.at L p = .node g) ∧ (t.at L p ≠ .null → t'.at L p ≠ .null)

theorem Le.refl (t : Tree) : Le t t := fun _ _ _ => ⟨id, id⟩
theorem Le.trans {t t' t'' : Tree} (h : Le t t') (h' : Le t' t'') : Le t t'' :=
  fun L p hp => ⟨fun x => (h' L p hp).1 ((h L p hp).1 x), fun x => (h' L p hp).2 ((h L p hp).2 x)⟩

/-- Gids are inherited: every leaf of `t'` carries the gid of the leaf of `t` above it. -/
def Inh (t t' : Tree) : Prop := ∀ L p g, InRange L p → t'.at L p = .leaf g →
  ∃ j, j ≤ L ∧ t.at (L - j) (p.shr j) = .leaf g

theorem Inh.refl (t : Tree) : Inh t t := fun L p g _ h => ⟨0, by omega, by simpa using h⟩

theorem Inh.trans {t t' t'' : Tree} (h : Inh t t') (h' : Inh t' t'') : Inh t t'' := by
  intro L p g hp hl
  obtain ⟨j, hj, h1⟩ := h' L p g hp hl
  obtain ⟨i, hi, h2⟩ := h (L - j) (p.shr j) g
    (InRange.shr (by rw [Nat.sub_add_cancel hj]; exact hp)) h1
  exact ⟨j + i, by omega, by rw [← Pos.shr_shr, Nat.sub_add_eq]; exact h2⟩

/-! ## Counting -/

theorem Mesh.nleaf_le (m : Mesh) : m.nleaf ≤ 8 := by
  unfold Mesh.nleaf; split
  · omega
  · split <;> omega

theorem mem_kids {m : Mesh} {n : Fin 8} : n ∈ m.kids ↔ n.val < m.nleaf := by
  unfold Mesh.kids Mesh.nleaf
  revert n
  rcases m.f2 <;> rcases m.f3 <;> decide

theorem kids_nodup (m : Mesh) : m.kids.Nodup := by
  unfold Mesh.kids Mesh.nleaf
  rcases m.f2 <;> rcases m.f3 <;> decide

theorem kids_length (m : Mesh) : m.kids.length = m.nleaf := by
  unfold Mesh.kids Mesh.nleaf
  rcases m.f2 <;> rcases m.f3 <;> decide

theorem sum_map_update {l : List (Fin 8)} (hl : l.Nodup) (f g : Fin 8 → Nat) (i : Fin 8)
    (hi : i ∈ l) (h : ∀ n, n ≠ i → g n = f n) :
    (l.map g).sum + f i = (l.map f).sum + g i := by
  induction l with
  | nil => simp at hi
  | cons a l ih =>
    rw [List.nodup_cons] at hl
    simp only [List.map_cons, List.sum_cons]
    by_cases ha : a = i
    · subst ha
      have : l.map g = l.map f := List.map_congr_left (fun n hn => h n (by
        intro h'; subst h'; exact hl.1 hn))
      rw [this]; omega
    · have := ih hl.2 (by rcases List.mem_cons.1 hi with h' | h'; exact absurd h'.symm ha; exact h')
      rw [h a ha]; omega

theorem count_put {m : Mesh} (t : Tree) (L : Nat) (p : Pos) (u : Tree)
    (hb : ∀ sh, sh < L → (p.bitIdx sh).val < m.nleaf) (hex : t.get L p ≠ .null) :
    (t.put L p u).count m + (t.get L p).count m = t.count m + u.count m := by
  induction L generalizing t with
  | zero => simp [put_zero]; omega
  | succ L ih =>
    rcases t with _ | g | ⟨g, k⟩
    · simp at hex
    · rw [get_leaf_succ] at hex; simp at hex
    · rw [get_succ_top, kid_node] at hex ⊢
      have h1 := ih (k (p.bitIdx L)) (fun sh hs => hb sh (by omega)) hex
      have h2 := sum_map_update (kids_nodup m) (fun n => (k n).count m)
        (fun n => (if n = p.bitIdx L then (k n).put L p u else k n).count m) (p.bitIdx L)
        (mem_kids.2 (hb L (by omega))) (fun n hn => by simp [hn])
      simp only [if_true] at h2
      simp only [put_node, Tree.count]
      omega

theorem Dom.bits {m : Mesh} (hm : m.Valid) {L : Nat} {p : Pos} (h : Dom m L p) :
    ∀ sh, sh < L → (p.bitIdx sh).val < m.nleaf := by
  intro sh hs
  have h1 : Dom m (L - sh) (p.shr sh) := Dom.shr (by rw [Nat.sub_add_cancel (by omega)]; exact h)
  have := h1.idx_lt hm
  rwa [Pos.bitIdx_shr] at this

/-! ## One refinement step -/

/-- The fresh children. -/
def fresh (m : Mesh) (g : Int) : Tree :=
  .node g (fun n => if n.val < m.nleaf then .leaf g else .null)

theorem fresh_at (m : Mesh) (g : Int) (j : Nat) (q : Pos) : (fresh m g).at j q =
    if j = 0 then .node g
    else if j = 1 ∧ (q.bitIdx 0).val < m.nleaf then .leaf g else .null := by
  unfold Tree.at fresh
  rcases j with _ | _ | j
  · simp [Tree.kind]
  · rw [get_succ_top]; simp; split <;> simp [Tree.kind]
  · rw [get_succ_top]; simp only [kid_node]
    split
    · rw [get_leaf_succ]; simp [Tree.kind]
    · simp [Tree.kind]

theorem at_expand {m : Mesh} {t : Tree} {L : Nat} {p : Pos} {g : Int}
    (hp : InRange L p) (hl : t.at L p = .leaf g) {K : Nat} {q : Pos} (hq : InRange K q) :
    (t.put L p (fresh m g)).at K q =
      if K = L ∧ q = p then .node g
      else if K = L + 1 ∧ q.half = p then
        (if (q.bitIdx 0).val < m.nleaf then .leaf g else .null)
      else t.at K q := by
  have hex : t.get L p ≠ .null := by rw [at_leaf_iff.1 hl]; simp
  by_cases hKL : K < L
  · rw [at_put_lt _ _ _ _ _ _ hKL, if_neg (by omega), if_neg (by omega)]
  · obtain ⟨j, rfl⟩ : ∃ j, K = L + j := ⟨K - L, by omega⟩
    have h1 : (t.put L p (fresh m g)).at (L + j) q =
        if q.shr j = p then (fresh m g).at j q else t.at (L + j) q := by
      unfold Tree.at; rw [get_put _ _ hp hq hex]; split <;> rfl
    rw [h1, fresh_at]
    rcases j with _ | _ | j
    · simp
    · simp [Pos.shr_one]
    · simp only [show ¬ (L + (j + 1 + 1) = L) by omega, show ¬ (L + (j + 1 + 1) = L + 1) by omega,
        false_and, if_false]
      split
      · rename_i h2
        have : t.at (L + (j + 1 + 1)) q = .null := by
          rw [at_null_iff, get_add, h2, at_leaf_iff.1 hl, get_leaf_succ]
        rw [this]; simp
      · rfl

theorem at_setGid {t : Tree} {L : Nat} {p : Pos} {g g' : Int} (hp : InRange L p)
    (hn : t.at L p = .node g) {K : Nat} {q : Pos} (hq : InRange K q) :
    (t.setGid L p g').at K q = if K = L ∧ q = p then .node g' else t.at K q := by
  obtain ⟨k, hk⟩ := at_node_iff.1 hn
  unfold Tree.setGid
  rw [hk]
  simp only
  by_cases hKL : K < L
  · rw [at_put_lt _ _ _ _ _ _ hKL, if_neg (by omega)]
  · obtain ⟨j, rfl⟩ : ∃ j, K = L + j := ⟨K - L, by omega⟩
    unfold Tree.at
    rw [get_put _ _ hp hq (by rw [hk]; simp)]
    rcases j with _ | j
    · by_cases h : q = p
      · simp [h, Tree.kind]
      · simp [h]
    · rw [if_neg (by omega : ¬ (L + (j + 1) = L ∧ q = p))]
      by_cases h : q.shr (j + 1) = p
      · rw [if_pos h, get_add t, h, hk, get_succ_top, get_succ_top]; rfl
      · rw [if_neg h]

theorem count_setGid {m : Mesh} (hm : m.Valid) {t : Tree} {L : Nat} {p : Pos} {g g' : Int}
    (hp : Dom m L p) (hn : t.at L p = .node g) :
    (t.setGid L p g').count m = t.count m := by
  obtain ⟨k, hk⟩ := at_node_iff.1 hn
  unfold Tree.setGid
  rw [hk]
  have := count_put (m := m) t L p (.node g' k) (hp.bits hm) (by rw [hk]; simp)
  rw [hk] at this
  simp only [Tree.count] at this ⊢
  omega

theorem count_fresh (m : Mesh) (g : Int) : (fresh m g).count m = m.nleaf := by
  unfold fresh
  simp only [Tree.count]
  have : m.kids.map (fun n => (if n.val < m.nleaf then Tree.leaf g else .null).count m) =
      m.kids.map (fun _ => 1) := by
    apply List.map_congr_left
    intro n hn
    rw [if_pos (mem_kids.1 hn)]; rfl
  rw [this, ← kids_length m]
  generalize m.kids = l
  induction l with
  | nil => rfl
  | cons a l ih => simp only [List.map_cons, List.sum_cons, List.length_cons, ih]; omega

end Verif.Tree
