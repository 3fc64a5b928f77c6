import Verif.Lemmas.TreeBal

/-! # Neighbour search and derefinement -/
namespace Verif.Tree

theorem fnWrap1_iff {m : Mesh} (hm : m.Valid) (hs : NoShear m) {L x y : Nat} {d : Int}
    (hx : x < m.nmax1 L) (h1 : -1 ≤ d) (h2 : d ≤ 1) :
    fnWrap1 m (m.nrbx1 * 2 ^ (L - m.rootLevel)) (x + d) = some y ↔
      Step (m.ix1 = .periodic) (m.nmax1 L) x d y := by
  rw [← wrapDim_iff hm.per1 hx h1 h2]
  have ho : m.ox1 ≠ .shearPeriodic := fun h => hs (hm.shear.2 h)
  have hs' : m.ix1 ≠ .shearPeriodic := hs
  simp [fnWrap1, wrapDim, Mesh.nmax1, hs', ho]

theorem nmax2_eq {m : Mesh} (hm : m.Valid) {L x : Nat} {d : Int} (hx : x < m.nmax2 L)
    (hd : d ∈ offs m.f2) :
    wrapDim2 m.ix2 m.ox2 (m.nrbx2 * 2 ^ (L - m.rootLevel)) (x + d) =
      wrapDim2 m.ix2 m.ox2 (m.nmax2 L) (x + d) := by
  rw [mem_offs] at hd
  rcases hf : m.f2
  · have h0 := hd.2 hf
    have n1 : m.nmax2 L = 1 := by simp [Mesh.nmax2, hf]
    have := Nat.mul_pos hm.pos2 (Nat.pow_pos (n := L - m.rootLevel) (show 0 < 2 by omega))
    rw [wrapDim2_inside (by omega), wrapDim2_inside (by omega)]
    unfold wrapDim
    rw [if_neg (by omega), if_neg (by omega), if_neg (by omega), if_neg (by omega)]
  · simp [Mesh.nmax2, hf]

theorem nmax3_eq {m : Mesh} (hm : m.Valid) {L x : Nat} {d : Int} (hx : x < m.nmax3 L)
    (hd : d ∈ offs m.f3) :
    wrapDim m.ix3 m.ox3 (m.nrbx3 * 2 ^ (L - m.rootLevel)) (x + d) =
      wrapDim m.ix3 m.ox3 (m.nmax3 L) (x + d) := by
  rw [mem_offs] at hd
  rcases hf : m.f3
  · have h0 := hd.2 hf
    have n1 : m.nmax3 L = 1 := by simp [Mesh.nmax3, hf]
    have := Nat.mul_pos hm.pos3 (Nat.pow_pos (n := L - m.rootLevel) (show 0 < 2 by omega))
    unfold wrapDim
    rw [if_neg (by omega), if_neg (by omega), if_neg (by omega), if_neg (by omega)]
  · simp [Mesh.nmax3, hf]

theorem Shift.dir {m : Mesh} {L : Nat} {p q : Pos} {o1 o2 o3 : Int} (h : Shift m L p o1 o2 o3 q) :
    Dir m o1 o2 o3 :=
  ⟨mem_offs.2 ⟨⟨h.s1.lo, h.s1.hi⟩, by simp⟩, mem_offs.2 ⟨⟨h.s2.lo, h.s2.hi⟩, h.off2⟩,
    mem_offs.2 ⟨⟨h.s3.lo, h.s3.hi⟩, h.off3⟩⟩

theorem findNeighbor_nothing {m : Mesh} (hm : m.Valid) (hnp : NoPolar m) (hs : NoShear m) {t : Tree}
    {L : Nat} (hL : m.rootLevel ≤ L) {p : Pos} (hp : Dom m L p) {o1 o2 o3 : Int}
    (hd : Dir m o1 o2 o3) (amr : Bool) (h : ¬ ∃ q, Shift m L p o1 o2 o3 q) :
    findNeighbor m t L p o1 o2 o3 amr = .nothing := by
  obtain ⟨p1, p2, p3⟩ := (dom_iff_ge hL).1 hp
  obtain ⟨d1, d2, d3⟩ := hd
  unfold findNeighbor
  rw [nmax2_eq hm p2 d2, nmax3_eq hm p3 d3]
  split
  · rename_i x y polar z hx hy hz
    exfalso
    apply h
    obtain rfl := wrapDim2_false hnp p2 d2 hy
    have e1 := mem_offs.1 d1
    exact ⟨⟨x, y, z⟩, (mem_offs.1 d2).2, (mem_offs.1 d3).2,
      (fnWrap1_iff hm hs p1 e1.1.1 e1.1.2).1 hx, (per2_iff hm hnp p2 d2 y).1 hy,
      (per3_iff hm p3 d3 z).1 hz⟩
  · rfl

/-- Index of the child tested by `FindNeighbor`. -/
def faceIdx (o1 o2 o3 : Int) : Fin 8 :=
  ⟨(if o1 < 0 then 1 else 0) + 2 * (if o2 < 0 then 1 else 0)
                + 4 * (if o3 < 0 then 1 else 0), by split <;> split <;> split <;> omega⟩

/-- The part of `findNeighbor` after the wrap. -/
def fnAt (t : Tree) (L : Nat) (q : Pos) (o1 o2 o3 : Int) (amr : Bool) : FN :=
  if L < 1 then .found 0 ⟨0, 0, 0⟩ else
  match descend L q L t with
  | .found l q' =>
    if l = L then
      match t.get l q' with
      | .node _ k =>
        match k (faceIdx o1 o2 o3) with
        | .leaf _ => .found l q'
        | .null => .fatal
        | .node _ _ => if amr then .found l q' else .fatal
      | _ => .found l q'
    else .found l q'
  | r => r

theorem findNeighbor_shift {m : Mesh} (hm : m.Valid) (hnp : NoPolar m) (hs : NoShear m) {t : Tree}
    {L : Nat} (hL : m.rootLevel ≤ L) {p q : Pos} (hp : Dom m L p) {o1 o2 o3 : Int}
    (h : Shift m L p o1 o2 o3 q) (amr : Bool) :
    findNeighbor m t L p o1 o2 o3 amr = fnAt t L q o1 o2 o3 amr := by
  obtain ⟨p1, p2, p3⟩ := (dom_iff_ge hL).1 hp
  obtain ⟨d1, d2, d3⟩ := h.dir
  have e1 := mem_offs.1 d1
  unfold findNeighbor
  rw [nmax2_eq hm p2 d2, nmax3_eq hm p3 d3, (fnWrap1_iff hm hs p1 e1.1.1 e1.1.2).2 h.s1,
    (per2_iff hm hnp p2 d2 _).2 h.s2, (per3_iff hm p3 d3 _).2 h.s3]
  rfl

/-! ## The descent -/

theorem descend_found (ll : Nat) (q : Pos) (rem : Nat) (t : Tree) (h : t.get rem q ≠ .null) :
    descend ll q rem t = .found ll q := by
  induction rem generalizing t with
  | zero => cases t <;> rfl
  | succ rem ih =>
    rw [get_succ_top] at h
    rcases t with _ | g | ⟨g, k⟩
    · simp at h
    · simp at h
    · simp only [kid_node] at h
      have := ih _ h
      unfold descend
      rcases hk : k (q.bitIdx rem) with _ | g' | ⟨g', k'⟩
      · rw [hk] at h; simp at h
      · rw [hk] at this; exact this
      · rw [hk] at this; exact this

theorem descend_parent (ll : Nat) (q : Pos) (rem : Nat) (t : Tree) {g : Int}
    (h : t.get rem q.half = .leaf g) :
    descend ll q (rem + 1) t = .found (ll - 1) q.half := by
  induction rem generalizing t with
  | zero => simp at h; subst h; rfl
  | succ rem ih =>
    rw [get_succ_top, Pos.bitIdx_half] at h
    rcases t with _ | g' | ⟨g', k⟩
    · simp at h
    · simp at h
    · simp only [kid_node] at h
      have := ih _ h
      rw [descend]
      rcases hk : k (q.bitIdx (rem + 1)) with _ | g'' | ⟨g'', k'⟩
      · rw [hk] at h; simp at h
      · rw [hk] at this; exact this
      · rw [hk] at this; exact this

theorem fnAt_leaf {m : Mesh} (hm : m.Valid) {t : Tree} {L : Nat} {q : Pos} (hq : Dom m L q)
    {g : Int} (h : t.at L q = .leaf g) (o1 o2 o3 : Int) (amr : Bool) :
    fnAt t L q o1 o2 o3 amr = .found L q := by
  unfold fnAt
  split
  · obtain rfl : L = 0 := by omega
    rw [(hq.inRange hm).zero]
  · rw [descend_found _ _ _ _ (by rw [at_leaf_iff.1 h]; simp)]
    simp only [if_true, at_leaf_iff.1 h]

theorem fnAt_node {m : Mesh} (hm : m.Valid) {t : Tree} {L : Nat} {q : Pos} (hq : Dom m L q)
    {g : Int} (h : t.at L q = .node g) {o1 o2 o3 : Int} {amr : Bool}
    (hk : (∃ g', t.at (L + 1) (q.child (faceIdx o1 o2 o3)) = .leaf g') ∨
      (amr = true ∧ t.at (L + 1) (q.child (faceIdx o1 o2 o3)) ≠ .null)) :
    fnAt t L q o1 o2 o3 amr = .found L q := by
  obtain ⟨k, e⟩ := at_node_iff.1 h
  unfold fnAt
  split
  · obtain rfl : L = 0 := by omega
    rw [(hq.inRange hm).zero]
  · rw [descend_found _ _ _ _ (by rw [e]; simp)]
    simp only [if_true, e]
    rw [at_kid e] at hk
    rcases hk with ⟨g', hk⟩ | ⟨rfl, hk⟩
    · cases hkk : k (faceIdx o1 o2 o3) <;> simp [hkk, Tree.kind] at hk ⊢
    · cases hkk : k (faceIdx o1 o2 o3) <;> simp [hkk, Tree.kind] at hk ⊢

theorem fnAt_coarse {t : Tree} {L : Nat} {q : Pos} {g : Int} (h : t.at L q.half = .leaf g)
    (o1 o2 o3 : Int) (amr : Bool) :
    fnAt t (L + 1) q o1 o2 o3 amr = .found L q.half := by
  unfold fnAt
  rw [if_neg (by omega), descend_parent _ _ _ _ (at_leaf_iff.1 h)]
  simp

/-! ## Facing children -/

theorem Step.down {per : Prop} {n x y : Nat} {o : Int} (hx : x < n) (h : Step per n x o y) {b : Nat}
    (hb : b < 2) (h1 : o = -1 → b = 1) (h2 : o = 1 → b = 0) :
    ∃ b', b' < 2 ∧ Step per (2 * n) (2 * y + b) (-o) (2 * x + b') := by
  obtain ⟨a1, a2, a3, a4⟩ := h
  have ho : o = -1 ∨ o = 0 ∨ o = 1 := by omega
  rcases ho with rfl | rfl | rfl
  · refine ⟨0, by omega, by omega, by omega, by omega, ?_⟩
    rcases a4 with a4 | ⟨hp, a4 | a4⟩
    · left; omega
    · right; exact ⟨hp, by omega⟩
    · right; exact ⟨hp, by omega⟩
  · refine ⟨b, by omega, by omega, by omega, by omega, ?_⟩
    rcases a4 with a4 | ⟨hp, a4 | a4⟩
    · left; omega
    · right; exact ⟨hp, by omega⟩
    · right; exact ⟨hp, by omega⟩
  · refine ⟨1, by omega, by omega, by omega, by omega, ?_⟩
    rcases a4 with a4 | ⟨hp, a4 | a4⟩
    · left; omega
    · right; exact ⟨hp, by omega⟩
    · right; exact ⟨hp, by omega⟩

/-- A facing child of the neighbour `q` has a child of `p` as neighbour. -/
theorem Shift.down {m : Mesh} (hm : m.Valid) {L : Nat} (hL : m.rootLevel ≤ L) {p q : Pos} (hp : Dom m L p)
    {o1 o2 o3 : Int} (h : Shift m L p o1 o2 o3 q) {n : Fin 8} (hn : n.val < m.nleaf)
    (hf : Face o1 o2 o3 n) :
    ∃ n', Shift m (L + 1) (q.child n) (-o1) (-o2) (-o3) (p.child n') := by
  obtain ⟨p1, p2, p3⟩ := (dom_iff_ge hL).1 hp
  obtain ⟨e1, e2, e3⟩ := nmax_succ hL
  have hd := hm.dim
  obtain ⟨b1, hb1, s1⟩ := h.s1.down p1 (b := n.val % 2) (by omega) hf.a1 hf.b1
  have H2 : ∃ b, b < 2 ∧ Step (m.ix2 = .periodic) (m.nmax2 (L + 1)) (2 * q.x2 + n.val / 2 % 2) (-o2)
      (2 * p.x2 + b) := by
    rcases hf2 : m.f2
    · have n1 : ∀ l, m.nmax2 l = 1 := fun l => by simp [Mesh.nmax2, hf2]
      have hn2 : m.nleaf = 2 := by
        unfold Mesh.nleaf
        rcases hf3 : m.f3
        · simp [hf2]
        · simp [hf3, hf2] at hd
      have := h.off2 hf2
      have := h.s2.lt
      rw [n1] at this p2
      exact ⟨0, by omega, by rw [n1]; omega, by omega, by omega, .inl (by omega)⟩
    · rw [e2 hf2]
      exact h.s2.down p2 (by omega) hf.a2 hf.b2
  have H3 : ∃ b, b < 2 ∧ Step (m.ix3 = .periodic) (m.nmax3 (L + 1)) (2 * q.x3 + n.val / 4 % 2) (-o3)
      (2 * p.x3 + b) := by
    rcases hf3 : m.f3
    · have n1 : ∀ l, m.nmax3 l = 1 := fun l => by simp [Mesh.nmax3, hf3]
      have hn2 : m.nleaf ≤ 4 := by
        unfold Mesh.nleaf
        rcases hf2 : m.f2 <;> simp [hf3]
      have := h.off3 hf3
      have := h.s3.lt
      rw [n1] at this p3
      exact ⟨0, by omega, by rw [n1]; omega, by omega, by omega, .inl (by omega)⟩
    · rw [e3 hf3]
      exact h.s3.down p3 (by omega) hf.a3 hf.b3
  obtain ⟨b2, hb2, s2⟩ := H2
  obtain ⟨b3, hb3, s3⟩ := H3
  refine ⟨⟨b1 + 2 * b2 + 4 * b3, by omega⟩, fun h' => by have := h.off2 h'; omega,
    fun h' => by have := h.off3 h'; omega, ?_, ?_, ?_⟩
  · rw [e1]; simp only [Pos.child]
    rw [show (b1 + 2 * b2 + 4 * b3) % 2 = b1 by omega]; exact s1
  · simp only [Pos.child]
    rw [show (b1 + 2 * b2 + 4 * b3) / 2 % 2 = b2 by omega]; exact s2
  · simp only [Pos.child]
    rw [show (b1 + 2 * b2 + 4 * b3) / 4 % 2 = b3 by omega]; exact s3

theorem faceIdx_lt {m : Mesh} {L : Nat} {p q : Pos} {o1 o2 o3 : Int}
    (h : Shift m L p o1 o2 o3 q) : (faceIdx o1 o2 o3).val < m.nleaf := by
  have h2 := h.off2
  have h3 := h.off3
  unfold faceIdx Mesh.nleaf
  simp only
  rcases hf2 : m.f2 <;> rcases hf3 : m.f3 <;> simp [hf2, hf3] at h2 h3 ⊢
  · subst h2 h3; simp; split <;> omega
  · subst h2; simp; split <;> split <;> omega
  · subst h3; simp; split <;> split <;> omega
  · split <;> split <;> split <;> omega

theorem faceIdx_face {o1 o2 o3 : Int} : Face o1 o2 o3 (faceIdx o1 o2 o3) := by
  unfold faceIdx
  constructor <;> intro h <;> subst h <;> simp <;> (repeat' split) <;> omega

theorem Inv.child_exists {m : Mesh} (hm : m.Valid) {t : Tree} (hi : Inv m t) {L : Nat}
    (hL : m.rootLevel ≤ L) {q : Pos} (hq : Dom m L q) {g : Int} (h : t.at L q = .node g) {n : Fin 8}
    (hn : n.val < m.nleaf) : t.at (L + 1) (q.child n) ≠ .null :=
  (hi.wf.kids L q g hq h n).2 (hq.child hm hL hn)

/-- Children of a refined neighbour that face a leaf are leaves. -/
theorem facing_leaf {m : Mesh} (hm : m.Valid) (hnp : NoPolar m) {t : Tree} (hi : Inv m t) {L : Nat}
    {p q : Pos} (hp : Dom m L p) {g : Int} (h : t.at L p = .leaf g) {o1 o2 o3 : Int}
    (h0 : ¬ (o1 = 0 ∧ o2 = 0 ∧ o3 = 0)) (hs : Shift m L p o1 o2 o3 q) {g' : Int}
    (hq : t.at L q = .node g') {n : Fin 8} (hn : n.val < m.nleaf) (hf : Face o1 o2 o3 n) :
    ∃ g'', t.at (L + 1) (q.child n) = .leaf g'' := by
  have hL := hi.wf.leaf L p g hp h
  have hdq := hs.dom hL
  have hdn : Dom m (L + 1) (q.child n) := hdq.child hm hL hn
  rcases kind_cases (t.at (L + 1) (q.child n)) with h1 | h1 | ⟨g1, h1⟩
  · exact absurd h1 (hi.child_exists hm hL hdq hq hn)
  · exact h1
  · exfalso
    obtain ⟨n', hn'⟩ := hs.down hm hL hp hn hf
    have := (hi.ok _ _ _ hdn h1 (by simp)).2 (by omega) (p.child n')
      ((mem_refineNbrs hm hnp (by omega) hdn).2 ⟨-o1, -o2, -o3, by omega, hn'⟩)
    obtain ⟨g2, h2⟩ := parent_node this
    rw [Pos.half_child, h] at h2; simp at h2

/-- What is found in direction `o` of a leaf `p`. -/
theorem neighbour_cases {m : Mesh} (hm : m.Valid) (hnp : NoPolar m) {t : Tree} (hi : Inv m t)
    {L : Nat} {p q : Pos} (hp : Dom m L p) {g : Int} (h : t.at L p = .leaf g) {o1 o2 o3 : Int}
    (hs : Shift m L p o1 o2 o3 q) :
    (∃ g', t.at L q = .leaf g') ∨ (∃ g', t.at L q = .node g') ∨
      (∃ K g', L = K + 1 ∧ m.rootLevel ≤ K ∧ t.at K q.half = .leaf g' ∧
        ∃ c1 c2 c3, ¬ (c1 = 0 ∧ c2 = 0 ∧ c3 = 0) ∧ Shift m K p.half c1 c2 c3 q.half ∧
      (c1 = 0 ∨ (c1 = o1 ∧ (o1 = -1 → p.x1 % 2 = 0 ∧ q.x1 % 2 = 1) ∧ (o1 = 1 → p.x1 % 2 = 1 ∧ q.x1 % 2 = 0))) ∧
      (c2 = 0 ∨ (c2 = o2 ∧ (o2 = -1 → p.x2 % 2 = 0 ∧ q.x2 % 2 = 1) ∧ (o2 = 1 → p.x2 % 2 = 1 ∧ q.x2 % 2 = 0))) ∧
      (c3 = 0 ∨ (c3 = o3 ∧ (o3 = -1 → p.x3 % 2 = 0 ∧ q.x3 % 2 = 1) ∧ (o3 = 1 → p.x3 % 2 = 1 ∧ q.x3 % 2 = 0)))) := by
  have hL := hi.wf.leaf L p g hp h
  have hdq := hs.dom hL
  rcases kind_cases (t.at L q) with h1 | h1 | h1
  · right; right
    have hlt : m.rootLevel < L := by
      rcases Nat.lt_or_ge m.rootLevel L with h2 | h2
      · exact h2
      · exact absurd h1 (hi.wf.low hdq h2)
    obtain ⟨K, rfl⟩ : ∃ K, L = K + 1 := ⟨L - 1, by omega⟩
    obtain ⟨gp, hP⟩ := parent_node (t := t) (L := K) (p := p) (by rw [h]; simp)
    obtain ⟨c1, c2, c3, hsh, u1, u2, u3⟩ := hs.half (by omega) hp
    have hc : ¬ (c1 = 0 ∧ c2 = 0 ∧ c3 = 0) := by
      intro h0
      have hself : Shift m K p.half c1 c2 c3 p.half := by
        obtain ⟨r1, r2, r3⟩ := (dom_iff_ge (L := K) (by omega)).1 hp.half
        exact ⟨hsh.off2, hsh.off3, ⟨r1, hsh.s1.lo, hsh.s1.hi, .inl (by omega)⟩,
          ⟨r2, hsh.s2.lo, hsh.s2.hi, .inl (by omega)⟩, ⟨r3, hsh.s3.lo, hsh.s3.hi, .inl (by omega)⟩⟩
      have heq := hsh.unique (by omega) hp.half hself
      exact hi.wf.exists_child hdq (by rw [heq]; exact hP) h1
    have hex := (hi.ok _ _ _ hp.half hP (by simp)).2 (by omega) q.half
      ((mem_refineNbrs hm hnp (by omega) hp.half).2 ⟨c1, c2, c3, hc, hsh⟩)
    rcases kind_cases (t.at K q.half) with h2 | ⟨g', h2⟩ | ⟨g', h2⟩
    · exact absurd h2 hex
    · exact ⟨K, g', rfl, by omega, h2, c1, c2, c3, hc, hsh, u1, u2, u3⟩
    · exact absurd h1 (hi.wf.exists_child hdq h2)
  · exact .inl h1
  · exact .inr (.inl h1)

/-! ## Derefinement -/

theorem foldlM_all {α : Type} {f : Bool → α → Option Bool} (P : α → Bool) (l : List α)
    (h : ∀ a ∈ l, ∀ b, f b a = some (b && P a)) (b : Bool) :
    l.foldlM f b = some (b && l.all P) := by
  induction l generalizing b with
  | nil => simp
  | cons a l ih =>
    rw [List.foldlM_cons, h a (by simp)]
    simp only [Option.bind_eq_bind, Option.bind_some]
    rw [ih (fun x hx => h x (by simp [hx]))]
    simp [Bool.and_assoc]

theorem mem_facing {on : Bool} {o : Int} {b : Nat} (hb : b < 2) :
    b ∈ facing on o ↔ (on = false → b = 0) ∧ (on = true → (o = -1 → b = 1) ∧ (o = 1 → b = 0)) := by
  unfold facing
  rcases on
  · simp
  · simp only [if_true]
    split
    · simp; omega
    · split
      · simp; omega
      · simp; omega

theorem facing_lt {on : Bool} {o : Int} {b : Nat} (hb : b ∈ facing on o) : b < 2 := by
  unfold facing at hb
  repeat' split at hb
  all_goals simp at hb; omega

/-- No facing child of the neighbour of `p` in direction `o` is refined. -/
def ClearDir (m : Mesh) (t : Tree) (L : Nat) (p : Pos) (o1 o2 o3 : Int) : Prop :=
  ∀ q, Shift m L p o1 o2 o3 q → ∀ n : Fin 8, n.val < m.nleaf → Face o1 o2 o3 n →
    ∀ g, t.at (L + 1) (q.child n) ≠ .node g

open Classical in
/-- The loops over the facing children. -/
theorem facing_fold {m : Mesh} (hm : m.Valid) {k : Fin 8 → Tree}
    (hnn : ∀ n : Fin 8, n.val < m.nleaf → k n ≠ .null) {o1 o2 o3 : Int}
    (h2' : m.f2 = false → o2 = 0) (h3' : m.f3 = false → o3 = 0) :
    facingTest m k o1 o2 o3 =
    some (decide (∀ n : Fin 8, n.val < m.nleaf → Face o1 o2 o3 n → ∀ g k', k n ≠ .node g k')) := by
  unfold facingTest
  let P : Nat → Nat → Nat → Bool := fun lk lj li =>
    match k (Fin.ofNat 8 (li + 2 * lj + 4 * lk)) with
    | .node _ _ => false
    | _ => true
  have hlt : ∀ lk ∈ facing m.f3 o3, ∀ lj ∈ facing m.f2 o2, ∀ li ∈ facing true o1,
      (Fin.ofNat 8 (li + 2 * lj + 4 * lk)).val = li + 2 * lj + 4 * lk ∧
      (Fin.ofNat 8 (li + 2 * lj + 4 * lk)).val < m.nleaf := by
    intro lk hk lj hj li hi'
    have k3 := facing_lt hk; have k2 := facing_lt hj; have k1 := facing_lt hi'
    have j3 := (mem_facing k3).1 hk; have j2 := (mem_facing k2).1 hj
    have hv : (Fin.ofNat 8 (li + 2 * lj + 4 * lk)).val = li + 2 * lj + 4 * lk := by
      simp [Fin.ofNat]; omega
    refine ⟨hv, ?_⟩
    rw [hv]
    have hdim := hm.dim
    unfold Mesh.nleaf
    rcases hf2 : m.f2 <;> rcases hf3 : m.f3 <;> simp [hf2, hf3] at j2 j3 hdim ⊢ <;> omega
  have step : ∀ lk ∈ facing m.f3 o3, ∀ lj ∈ facing m.f2 o2, ∀ li ∈ facing true o1, ∀ b : Bool,
      (match k (Fin.ofNat 8 (li + 2 * lj + 4 * lk)) with
      | .null => if b then none else some b
      | .leaf _ => some b
      | .node _ _ => some false : Option Bool) = some (b && P lk lj li) := by
    intro lk hk lj hj li hi' b
    have := hnn _ (hlt lk hk lj hj li hi').2
    simp only [P]
    rcases hkk : k (Fin.ofNat 8 (li + 2 * lj + 4 * lk)) with _ | g2 | ⟨g2, k2⟩
    · exact absurd hkk this
    · simp
    · simp
  rw [foldlM_all (fun lk => (facing m.f2 o2).all fun lj => (facing true o1).all fun li => P lk lj li)]
  · simp only [Bool.true_and, Option.some.injEq]
    rw [Bool.eq_iff_iff, decide_eq_true_eq]
    simp only [List.all_eq_true]
    constructor
    · intro hall n hn hf g2 k2 hn2
      have hn8 := n.isLt
      have m1 : n.val % 2 ∈ facing true o1 := (mem_facing (by omega)).2 ⟨by simp, fun _ => ⟨hf.a1, hf.b1⟩⟩
      have hdim := hm.dim
      have m2 : n.val / 2 % 2 ∈ facing m.f2 o2 := (mem_facing (by omega)).2
        ⟨fun hf2 => by
          have : m.nleaf = 2 := by
            unfold Mesh.nleaf; rcases hf3 : m.f3
            · simp [hf2]
            · simp [hf3, hf2] at hdim
          omega, fun _ => ⟨hf.a2, hf.b2⟩⟩
      have m3 : n.val / 4 % 2 ∈ facing m.f3 o3 := (mem_facing (by omega)).2
        ⟨fun hf3 => by
          have : m.nleaf ≤ 4 := by
            unfold Mesh.nleaf; rcases hf2 : m.f2 <;> simp [hf3]
          omega, fun _ => ⟨hf.a3, hf.b3⟩⟩
      have := hall _ m3 _ m2 _ m1
      have hidx : Fin.ofNat 8 (n.val % 2 + 2 * (n.val / 2 % 2) + 4 * (n.val / 4 % 2)) = n := by
        apply Fin.ext; simp [Fin.ofNat]; omega
      simp only [P, hidx, hn2] at this
      simp at this
    · intro hc lk hk lj hj li hi'
      have k3 := facing_lt hk; have k2 := facing_lt hj; have k1 := facing_lt hi'
      have j3 := (mem_facing k3).1 hk; have j2 := (mem_facing k2).1 hj
      have j1 := (mem_facing k1).1 hi'
      obtain ⟨hv, hl⟩ := hlt lk hk lj hj li hi'
      have := hc (Fin.ofNat 8 (li + 2 * lj + 4 * lk)) hl (by
        refine ⟨?_, ?_, ?_, ?_, ?_, ?_⟩ <;> rw [hv] <;> intro ho
        · have := (j1.2 rfl).1 ho; omega
        · have := (j1.2 rfl).2 ho; omega
        · rcases hf2 : m.f2
          · have := h2' hf2; omega
          · have := (j2.2 hf2).1 ho; omega
        · rcases hf2 : m.f2
          · have := h2' hf2; omega
          · have := (j2.2 hf2).2 ho; omega
        · rcases hf3 : m.f3
          · have := h3' hf3; omega
          · have := (j3.2 hf3).1 ho; omega
        · rcases hf3 : m.f3
          · have := h3' hf3; omega
          · have := (j3.2 hf3).2 ho; omega)
      simp only [P]
  · intro lk hk b
    rw [foldlM_all (fun lj => (facing true o1).all fun li => P lk lj li)]
    intro lj hj b
    rw [foldlM_all (fun li => P lk lj li)]
    intro li hi' b
    exact step lk hk lj hj li hi' b

open Classical in
theorem derefineTest_spec {m : Mesh} (hm : m.Valid) (hnp : NoPolar m) (hns : NoShear m) {t : Tree}
    (hi : Inv m t) {L : Nat} (hL : m.rootLevel ≤ L) {p : Pos} (hp : Dom m L p) {g : Int}
    (h : t.at L p = .node g) {o1 o2 o3 : Int} (hd : Dir m o1 o2 o3) :
    derefineTest m t L p o1 o2 o3 = some (decide (ClearDir m t L p o1 o2 o3)) := by
  unfold derefineTest
  by_cases hex : ∃ q, Shift m L p o1 o2 o3 q
  · obtain ⟨q, hs⟩ := hex
    have hq := hs.dom hL
    have huniq : ∀ q', Shift m L p o1 o2 o3 q' → q' = q := fun q' h' => h'.unique hL hp hs
    rw [findNeighbor_shift hm hnp hns hL hp hs]
    have hqe : t.at L q ≠ .null := by
      by_cases h0 : o1 = 0 ∧ o2 = 0 ∧ o3 = 0
      · have hself : Shift m L p o1 o2 o3 p := by
          obtain ⟨r1, r2, r3⟩ := (dom_iff_ge hL).1 hp
          exact ⟨hs.off2, hs.off3, ⟨r1, hs.s1.lo, hs.s1.hi, .inl (by omega)⟩,
            ⟨r2, hs.s2.lo, hs.s2.hi, .inl (by omega)⟩, ⟨r3, hs.s3.lo, hs.s3.hi, .inl (by omega)⟩⟩
        rw [hs.unique hL hp hself, h]; simp
      · exact (hi.ok _ _ _ hp h (by simp)).2 hL q
          ((mem_refineNbrs hm hnp hL hp).2 ⟨o1, o2, o3, h0, hs⟩)
    rcases kind_cases (t.at L q) with h1 | ⟨g', h1⟩ | ⟨g', h1⟩
    · exact absurd h1 hqe
    · rw [fnAt_leaf hm hq h1]
      simp only [at_leaf_iff.1 h1]
      symm
      simp only [Option.some.injEq, decide_eq_true_eq]
      intro q' hq' n _ _ g2 h2
      obtain rfl := huniq q' hq'
      obtain ⟨g3, h3⟩ := parent_node (t := t) (by rw [h2]; simp : t.at (L + 1) (q'.child n) ≠ .null)
      rw [Pos.half_child, h1] at h3; simp at h3
    · rw [fnAt_node hm hq h1 (.inr ⟨rfl, hi.child_exists hm hL hq h1 (faceIdx_lt hs)⟩)]
      obtain ⟨k, e⟩ := at_node_iff.1 h1
      simp only [e]
      have hnn : ∀ n : Fin 8, n.val < m.nleaf → k n ≠ .null := by
        intro n hn h0
        have := hi.child_exists hm hL hq h1 hn
        rw [at_kid e, h0] at this; simp [Tree.kind] at this
      rw [facing_fold hm hnn hs.off2 hs.off3]
      congr 1
      rw [Bool.eq_iff_iff, decide_eq_true_eq, decide_eq_true_eq]
      constructor
      · intro hall q' hq' n hn hf g2 hn2
        obtain rfl := huniq q' hq'
        rw [at_kid e] at hn2
        rcases hkk : k n with _ | g3 | ⟨g3, k3⟩
        · rw [hkk] at hn2; simp [Tree.kind] at hn2
        · rw [hkk] at hn2; simp [Tree.kind] at hn2
        · exact hall n hn hf _ _ hkk
      · intro hc n hn hf g3 k3 hkk
        have := hc q hs n hn hf g3
        rw [at_kid e, hkk] at this; simp [Tree.kind] at this
  · rw [findNeighbor_nothing hm hnp hns hL hp hd true hex]
    symm
    simp only [Option.some.injEq, decide_eq_true_eq]
    exact fun q hq => absurd ⟨q, hq⟩ hex

/-- The test of a node's own children, on any mesh. -/
theorem derefineTest_self {m : Mesh} (hm : m.Valid) {t : Tree} (hw : WF m t) {L : Nat}
    (hL : m.rootLevel ≤ L) {p : Pos} (hp : Dom m L p) {g : Int} (h : t.at L p = .node g)
    (ht : derefineTest m t L p 0 0 0 = some true) :
    ∀ n : Fin 8, n.val < m.nleaf → ∃ g', t.at (L + 1) (p.child n) = .leaf g' := by
  classical
  obtain ⟨p1, p2, p3⟩ := (dom_iff_ge hL).1 hp
  obtain ⟨k, e⟩ := at_node_iff.1 h
  have hnn : ∀ n : Fin 8, n.val < m.nleaf → k n ≠ .null := by
    intro n hn h0
    have := (hw.kids L p g hp h n).2 (hp.child hm hL hn)
    rw [at_kid e, h0] at this; simp [Tree.kind] at this
  have hfn : findNeighbor m t L p 0 0 0 true = fnAt t L p 0 0 0 true := by
    unfold findNeighbor
    rw [nmax2_eq hm p2 (by cases m.f2 <;> simp [offs]), nmax3_eq hm p3 (by cases m.f3 <;> simp [offs])]
    have w1 : fnWrap1 m (m.nrbx1 * 2 ^ (L - m.rootLevel)) (p.x1 + 0) = some p.x1 := by
      have : p.x1 < m.nrbx1 * 2 ^ (L - m.rootLevel) := p1
      unfold fnWrap1
      rw [if_neg (by omega), if_neg (by omega)]; simp
    have w2 : wrapDim2 m.ix2 m.ox2 (m.nmax2 L) (p.x2 + 0) = some (p.x2, false) := by
      unfold wrapDim2; rw [if_neg (by omega), if_neg (by omega)]; simp
    have w3 : wrapDim m.ix3 m.ox3 (m.nmax3 L) (p.x3 + 0) = some p.x3 := by
      unfold wrapDim; rw [if_neg (by omega), if_neg (by omega)]; simp
    rw [w1, w2, w3]; rfl
  unfold derefineTest at ht
  rw [hfn, fnAt_node hm hp h (.inr ⟨rfl, by
    rw [at_kid e]
    have h0 : faceIdx 0 0 0 = 0 := rfl
    rw [h0]
    have := hnn 0 (by unfold Mesh.nleaf; repeat' split
                      all_goals simp)
    simpa using this⟩)] at ht
  simp only [e] at ht
  rw [facing_fold hm hnn (by simp) (by simp)] at ht
  simp only [Option.some.injEq, decide_eq_true_eq] at ht
  intro n hn
  have h1 := ht n hn ⟨by simp, by simp, by simp, by simp, by simp, by simp⟩
  have h2 := hnn n hn
  rw [at_kid e]
  rcases hk : k n with _ | g' | ⟨g', k'⟩
  · exact absurd hk h2
  · exact ⟨g', rfl⟩
  · exact absurd hk (h1 g' k')

/-- Derefinement of `p` is allowed. -/
def Clear (m : Mesh) (t : Tree) (L : Nat) (p : Pos) : Prop :=
  ∀ o1 o2 o3, Dir m o1 o2 o3 → ClearDir m t L p o1 o2 o3

theorem self_shift {m : Mesh} {L : Nat} (hL : m.rootLevel ≤ L) {p : Pos} (hp : Dom m L p) :
    Shift m L p 0 0 0 p := by
  obtain ⟨r1, r2, r3⟩ := (dom_iff_ge hL).1 hp
  exact ⟨by simp, by simp, ⟨r1, by omega, by omega, .inl (by omega)⟩,
    ⟨r2, by omega, by omega, .inl (by omega)⟩, ⟨r3, by omega, by omega, .inl (by omega)⟩⟩

theorem Clear.kids {m : Mesh} (hm : m.Valid) {t : Tree} (hi : Inv m t) {L : Nat} (hL : m.rootLevel ≤ L)
    {p : Pos} (hp : Dom m L p) {g : Int} (h : t.at L p = .node g) (hc : Clear m t L p)
    {n : Fin 8} (hn : n.val < m.nleaf) : ∃ g', t.at (L + 1) (p.child n) = .leaf g' := by
  have hs := self_shift hL hp
  have := hc 0 0 0 hs.dir p hs n hn ⟨by simp, by simp, by simp, by simp, by simp, by simp⟩
  rcases kind_cases (t.at (L + 1) (p.child n)) with h1 | h1 | ⟨g1, h1⟩
  · exact absurd h1 (hi.child_exists hm hL hp h hn)
  · exact h1
  · exact absurd h1 (this g1)

theorem nleaf_pos (m : Mesh) : 0 < m.nleaf := by
  unfold Mesh.nleaf; repeat' split
  all_goals omega

open Classical in
theorem derefine_eq {m : Mesh} (hm : m.Valid) (hnp : NoPolar m) (hns : NoShear m) {s : St}
    (hi : Inv m s.tree) {L : Nat} (hL : m.rootLevel ≤ L) {p : Pos} (hp : Dom m L p) {g : Int}
    (h : s.tree.at L p = .node g) :
    (¬ Clear m s.tree L p ∧ derefine m L p s = some s) ∨
    (Clear m s.tree L p ∧ ∃ g', s.tree.at (L + 1) (p.child 0) = .leaf g' ∧
      derefine m L p s = some ⟨s.tree.put L p (.leaf g'), s.cnt + (m.nleaf - 1 : Int)⟩) := by
  unfold derefine
  simp only
  rw [foldlM_all (fun o => decide (ClearDir m s.tree L p o.1 o.2.1 o.2.2))]
  · by_cases hc : Clear m s.tree L p
    · right
      refine ⟨hc, ?_⟩
      have hall : ((offs m.f3).flatMap fun o3 => (offs m.f2).flatMap fun o2 =>
          (offs true).map fun o1 => (o1, o2, o3)).all
          (fun o => decide (ClearDir m s.tree L p o.1 o.2.1 o.2.2)) = true := by
        rw [List.all_eq_true]
        intro o ho
        simp only [List.mem_flatMap, List.mem_map] at ho
        obtain ⟨o3, h3, o2, h2, o1, h1, rfl⟩ := ho
        simpa using hc o1 o2 o3 ⟨h1, h2, h3⟩
      rw [hall]
      obtain ⟨g', hg⟩ := hc.kids hm hi hL hp h (n := 0) (nleaf_pos m)
      refine ⟨g', hg, ?_⟩
      obtain ⟨k, e⟩ := at_node_iff.1 h
      rw [at_kid e] at hg
      simp only [Bool.true_and, e]
      rcases hk : k 0 with _ | g2 | ⟨g2, k2⟩
      · rw [hk] at hg; simp [Tree.kind] at hg
      · rw [hk] at hg; simp [Tree.kind] at hg; subst hg; rfl
      · rw [hk] at hg; simp [Tree.kind] at hg
    · left
      refine ⟨hc, ?_⟩
      have hall : ((offs m.f3).flatMap fun o3 => (offs m.f2).flatMap fun o2 =>
          (offs true).map fun o1 => (o1, o2, o3)).all
          (fun o => decide (ClearDir m s.tree L p o.1 o.2.1 o.2.2)) = false := by
        rw [← Bool.not_eq_true, List.all_eq_true]
        intro hall
        apply hc
        intro o1 o2 o3 hd
        have := hall (o1, o2, o3) (by
          simp only [List.mem_flatMap, List.mem_map]
          exact ⟨o3, hd.o3, o2, hd.o2, o1, hd.o1, rfl⟩)
        simpa using this
      rw [hall]
      rfl
  · intro o ho b
    simp only [List.mem_flatMap, List.mem_map] at ho
    obtain ⟨o3, h3, o2, h2, o1, h1, rfl⟩ := ho
    rw [derefineTest_spec hm hnp hns hi hL hp h ⟨h1, h2, h3⟩]
    cases b <;> simp

/-- Contents of the tree after removing the children of `p`. -/
theorem at_collapse {t : Tree} {L : Nat} {p : Pos} (hp : InRange L p) (hex : t.at L p ≠ .null)
    (g : Int) {K : Nat} {q : Pos} (hq : InRange K q) :
    (t.put L p (.leaf g)).at K q =
      if L ≤ K ∧ q.shr (K - L) = p then (if K = L then .leaf g else .null) else t.at K q := by
  rcases Nat.lt_or_ge K L with hK | hK
  · rw [at_put_lt _ _ _ _ _ _ hK, if_neg (by omega)]
  · obtain ⟨j, rfl⟩ : ∃ j, K = L + j := ⟨K - L, by omega⟩
    unfold Tree.at at *
    rw [get_put _ _ hp hq (by simpa using hex)]
    simp only [show L + j - L = j by omega, show L ≤ L + j by omega, true_and]
    split
    · rcases j with _ | j
      · simp [Tree.kind]
      · rw [get_leaf_succ, if_neg (by omega)]; rfl
    · rfl

theorem collapse_node {m : Mesh} (hm : m.Valid) {t : Tree} {L : Nat} {p : Pos} (hp : Dom m L p)
    (hex : t.at L p ≠ .null) (g' : Int) : ∀ K q g2, InRange K q →
      (t.put L p (.leaf g')).at K q = .node g2 →
      t.at K q = .node g2 ∧ ¬ (L ≤ K ∧ q.shr (K - L) = p) := by
  intro K q g2 hq hn
  rw [at_collapse (hp.inRange hm) hex g' hq] at hn
  split at hn
  · split at hn <;> simp at hn
  · exact ⟨hn, ‹_›⟩

theorem collapse_wf {m : Mesh} (hm : m.Valid) {t : Tree} (hw : WF m t) {L : Nat}
    (hL : m.rootLevel ≤ L) {p : Pos} (hp : Dom m L p) (hex : t.at L p ≠ .null) (g' : Int) :
    WF m (t.put L p (.leaf g')) := by
  have hr := hp.inRange hm
  have A := fun {K : Nat} {q : Pos} (hq : InRange K q) => at_collapse hr hex g' hq
  have hnode := collapse_node hm hp hex g'
  refine ⟨?_, ?_, ?_⟩
  · intro h0
    have := A (K := 0) (q := ⟨0, 0, 0⟩) (by simp [InRange])
    rw [h0, at_null_iff.2 (get_null 0 _)] at this
    split at this
    · rename_i hc0
      rw [if_pos (by omega)] at this; simp at this
    · exact hw.low (Dom.zero hm) (by omega) this.symm
  · intro K q g2 hq hn n
    obtain ⟨hn1, hn2⟩ := hnode K q g2 (hq.inRange hm) hn
    rw [A ((hq.inRange hm).child n), ← hw.kids K q g2 hq hn1 n]
    split
    · rename_i hcond
      have hK : K + 1 = L := by
        rcases Nat.lt_or_ge K L with h1 | h1
        · omega
        · exfalso
          apply hn2
          refine ⟨h1, ?_⟩
          have := hcond.2
          rw [show K + 1 - L = (K - L) + 1 by omega, Pos.shr_succ, Pos.half_child] at this
          exact this
      rw [if_pos hK]
      subst hK
      have := hcond.2
      simp only [Nat.sub_self, Pos.shr_zero] at this
      rw [this]; simp [hex]
    · exact Iff.rfl
  · intro K q g2 hq hl
    rw [A (hq.inRange hm)] at hl
    split at hl
    · omega
    · exact hw.leaf K q g2 hq hl

theorem collapse_inv {m : Mesh} (hm : m.Valid) (hnp : NoPolar m) {t : Tree}
    (hi : Inv m t) {L : Nat} (hL : m.rootLevel ≤ L) {p : Pos} (hp : Dom m L p) {g : Int}
    (h : t.at L p = .node g) (hc : Clear m t L p) (g' : Int) :
    Inv m (t.put L p (.leaf g')) := by
  have hr := hp.inRange hm
  have hex : t.at L p ≠ .null := by rw [h]; simp
  have A := fun {K : Nat} {q : Pos} (hq : InRange K q) => at_collapse hr hex g' hq
  have hnode := collapse_node hm hp hex g'
  refine ⟨collapse_wf hm hi.wf hL hp hex g', ?_⟩
  · intro K q g2 hq hn _
    obtain ⟨hn1, hn2⟩ := hnode K q g2 (hq.inRange hm) hn
    obtain ⟨o1, o2⟩ := hi.ok K q g2 hq hn1 (by simp)
    refine ⟨o1, fun hK r hrm => ?_⟩
    have hre := o2 hK r hrm
    have hrd := refineNbrs_dom hm hK r hrm
    rw [A (hrd.inRange hm)]
    split
    · rename_i hcond
      split
      · simp
      · exfalso
        -- `r` is strictly below `p`, hence a child of `p`
        obtain ⟨j, rfl⟩ : ∃ j, K = L + 1 + j := ⟨K - L - 1, by omega⟩
        have hpar : (r.shr j).half = p := by
          have := hcond.2
          rw [show L + 1 + j - L = j + 1 by omega, ← Pos.shr_half] at this
          exact this
        have hdj : Dom m (L + 1) (r.shr j) := hrd.shr
        obtain ⟨g3, hkid⟩ := hc.kids hm hi hL hp h (hdj.idx_lt hm)
        rw [← hpar, Pos.child_half] at hkid
        have hj : j = 0 := by
          rcases Nat.eq_zero_or_pos j with h0 | h0
          · exact h0
          · obtain ⟨g4, h4⟩ := node_anc hre h0
            rw [hkid] at h4; simp at h4
        subst hj
        simp only [Pos.shr_zero] at hpar hdj hkid
        simp only [Nat.add_zero] at hq hn1 hrm hrd hK
        -- `q` is a refined node next to a child of `p`
        have hadj := (mem_refineNbrs hm hnp hK hq).1 hrm
        obtain ⟨a1, a2, a3, _, hsh⟩ := hadj.symm hK hq
        obtain ⟨c1, c2, c3, hs2, u1, u2, u3⟩ := hsh.half hL hrd
        rw [hpar] at hs2
        have hface : Face c1 c2 c3 (q.bitIdx 0) := by
          refine ⟨?_, ?_, ?_, ?_, ?_, ?_⟩ <;> intro hcc <;> simp only [Pos.bitIdx, Nat.pow_zero, Nat.div_one]
          · rcases u1 with u | ⟨u, v, _⟩
            · omega
            · have := (v (by omega)).2; omega
          · rcases u1 with u | ⟨u, _, v⟩
            · omega
            · have := (v (by omega)).2; omega
          · rcases u2 with u | ⟨u, v, _⟩
            · omega
            · have := (v (by omega)).2; omega
          · rcases u2 with u | ⟨u, _, v⟩
            · omega
            · have := (v (by omega)).2; omega
          · rcases u3 with u | ⟨u, v, _⟩
            · omega
            · have := (v (by omega)).2; omega
          · rcases u3 with u | ⟨u, _, v⟩
            · omega
            · have := (v (by omega)).2; omega
        have := hc c1 c2 c3 hs2.dir q.half hs2 (q.bitIdx 0) (hq.idx_lt hm) hface g2
        rw [Pos.child_half] at this
        exact this hn1
    · exact hre

end Verif.Tree
