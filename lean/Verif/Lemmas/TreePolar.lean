import Verif.Lemmas.TreeNeg
import Verif.Lemmas.TreeTouch

/-! # Refinement at the outer pole -/
namespace Verif.Tree

/-- A location reached across the outer pole. -/
structure PoleShift (m : Mesh) (L : Nat) (p : Pos) (o1 o3 : Int) (z : Nat) (q : Pos) : Prop where
  on2 : m.f2 = true
  off3 : m.f3 = false → o3 = 0
  row : p.x2 + 1 = m.nmax2 L
  s1 : Step (m.ix1 = .periodic) (m.nmax1 L) p.x1 o1 q.x1
  row' : q.x2 + 1 = m.nmax2 L
  s3 : Step (m.ix3 = .periodic) (m.nmax3 L) p.x3 o3 z
  turn : q.x3 = (z + m.nmax3 L / 2) % m.nmax3 L

theorem cols_of_step {m : Mesh} (hm : m.Valid) {L : Nat} {p : Pos} {oz : Int}
    (hx : p.x1 < m.nmax1 L) (hy : p.x2 < m.nmax2 L) {q : Pos} (l : List Int)
    (hs : m.f2 = true → m.ix2 ≠ .polar)
    (hl : l = [-1, 0, 1] ∧ m.f2 = true ∨ l = [0, 1] ∧ m.f2 = true ∨ l = [1] ∧ m.f2 = true ∨ l = [0] ∧ m.f2 = false)
    {ox oy : Int} (hoy : oy ∈ l) (h0 : ¬ (ox = 0 ∧ oy = 0 ∧ oz = 0))
    (h1 : Step (m.ix1 = .periodic) (m.nmax1 L) p.x1 ox q.x1)
    (h2 : Step (m.ix2 = .periodic) (m.nmax2 L) p.x2 oy q.x2) :
    q ∈ refineCols m L p oz l q.x3 := by
  -- a wrap that agrees with the step has no polar flag
  have hw : wrapDim2 m.ix2 m.ox2 (m.nmax2 L) (p.x2 + oy) = some (q.x2, false) := by
    obtain ⟨a1, a2, a3, a4⟩ := h2
    unfold wrapDim2
    rcases a4 with a4 | ⟨hp, a4 | a4⟩
    · rw [if_neg (by omega), if_neg (by omega)]; simp; omega
    · rw [if_pos (by omega), if_pos hp]; simp; omega
    · rcases hf : m.f2
      · have n1 : m.nmax2 L = 1 := by simp [Mesh.nmax2, hf]
        have : oy = 0 := by
          rcases hl with ⟨_, h⟩ | ⟨_, h⟩ | ⟨_, h⟩ | ⟨rfl, _⟩
          · simp [hf] at h
          · simp [hf] at h
          · simp [hf] at h
          · simpa using hoy
        omega
      · rw [if_neg (by omega), if_pos (by omega), if_pos ((hm.per2 hf).1 hp)]; simp; omega
  -- earlier values of `oy` do not turn
  have hflag : ∀ o : Int, o ≤ 0 → (m.f2 = true ∨ o = 0) → -1 ≤ o → ∀ y b,
      wrapDim2 m.ix2 m.ox2 (m.nmax2 L) (p.x2 + o) = some (y, b) → b = false := by
    intro o ho hf ho2 y b h
    unfold wrapDim2 at h
    split at h
    · split at h
      · simp at h; exact h.2
      · split at h
        · rename_i h3 h4
          rcases hf with hf | hf
          · exact absurd h4 (hs hf)
          · omega
        · simp at h
    · rw [if_neg (by omega)] at h; simp at h; exact h.2
  have head : ∀ l', q ∈ refineCols m L p oz (oy :: l') q.x3 := by
    intro l'
    unfold refineCols
    rw [hw]
    simp only [Bool.false_eq_true, if_false, List.mem_append]
    left
    exact (mem_refineRow hm hx).2 ⟨rfl, rfl, ox, h0, h1⟩
  have skip : ∀ o l', o ≤ 0 → (m.f2 = true ∨ o = 0) → -1 ≤ o → q ∈ refineCols m L p oz l' q.x3 →
      q ∈ refineCols m L p oz (o :: l') q.x3 := by
    intro o l' ho hf ho2 h
    unfold refineCols
    split
    · exact h
    · rename_i y b hyb
      have := hflag o ho hf ho2 y b hyb
      subst this
      simp only [Bool.false_eq_true, if_false, List.mem_append]
      exact .inr h
  rcases hl with ⟨rfl, hf⟩ | ⟨rfl, hf⟩ | ⟨rfl, hf⟩ | ⟨rfl, hf⟩
  · simp only [List.mem_cons, List.not_mem_nil, or_false] at hoy
    rcases hoy with rfl | rfl | rfl
    · exact head _
    · exact skip _ _ (by omega) (.inl hf) (by omega) (head _)
    · exact skip _ _ (by omega) (.inl hf) (by omega) (skip _ _ (by omega) (.inl hf) (by omega) (head _))
  · simp only [List.mem_cons, List.not_mem_nil, or_false] at hoy
    rcases hoy with rfl | rfl
    · exact head _
    · exact skip _ _ (by omega) (.inl hf) (by omega) (head _)
  · simp only [List.mem_cons, List.not_mem_nil, or_false] at hoy
    subst hoy
    exact head _
  · simp only [List.mem_cons, List.not_mem_nil, or_false] at hoy
    subst hoy
    exact head _

/-- Without an inner pole all neighbours at the same level are visited. -/
theorem refineNbrs_of_shift {m : Mesh} (hm : m.Valid) (hs : m.f2 = true → m.ix2 ≠ .polar) {L : Nat}
    (hL : m.rootLevel ≤ L) {p q : Pos} (hp : Dom m L p) {o1 o2 o3 : Int}
    (h0 : ¬ (o1 = 0 ∧ o2 = 0 ∧ o3 = 0)) (h : Shift m L p o1 o2 o3 q) : q ∈ refineNbrs m L p := by
  obtain ⟨p1, p2, p3⟩ := (dom_iff_ge hL).1 hp
  obtain ⟨d1, d2, d3⟩ := h.dir
  unfold refineNbrs
  simp only [List.mem_flatMap]
  refine ⟨o3, d3, ?_⟩
  rw [(per3_iff hm p3 d3 _).2 h.s3]
  simp only
  refine cols_of_step hm p1 p2 _ hs ?_ d2 h0 h.s1 h.s2
  unfold offs
  rcases hf : m.f2 <;> simp

/-- Without an inner pole the locations across the outer pole are visited. -/
theorem refineNbrs_of_pole {m : Mesh} (hm : m.Valid) (hs : m.ix2 ≠ .polar) (ho : m.ox2 = .polar)
    {L : Nat} (hL : m.rootLevel ≤ L) {p q : Pos} (hp : Dom m L p) {o1 o3 : Int} {z : Nat}
    (h : PoleShift m L p o1 o3 z q) : q ∈ refineNbrs m L p := by
  obtain ⟨p1, p2, p3⟩ := (dom_iff_ge hL).1 hp
  have d3 : o3 ∈ offs m.f3 := mem_offs.2 ⟨⟨h.s3.lo, h.s3.hi⟩, h.off3⟩
  unfold refineNbrs
  simp only [List.mem_flatMap]
  refine ⟨o3, d3, ?_⟩
  rw [(per3_iff hm p3 d3 _).2 h.s3]
  simp only [offs, h.on2, if_true]
  have hrow := h.row
  have key : q ∈ refineCols m L p o3 [1] z := by
    unfold refineCols
    have : wrapDim2 m.ix2 m.ox2 (m.nmax2 L) (p.x2 + 1) = some (m.nmax2 L - 1, true) := by
      unfold wrapDim2
      rw [if_neg (by omega), if_pos (by omega), if_neg (by rw [ho]; simp), if_pos ho]
    rw [this]
    simp only [if_true, List.mem_append]
    left
    have hr' := h.row'
    exact (mem_refineRow hm p1).2 ⟨by omega, h.turn, o1, by omega, h.s1⟩
  have skip : ∀ o l', o ≤ 0 → -1 ≤ o → q ∈ refineCols m L p o3 l' z →
      q ∈ refineCols m L p o3 (o :: l') z := by
    intro o l' ho1 ho2 hq
    unfold refineCols
    split
    · exact hq
    · rename_i y b hyb
      have : b = false := by
        unfold wrapDim2 at hyb
        split at hyb
        · split at hyb
          · simp at hyb; exact hyb.2
          · simp at hyb
        · rw [if_neg (by omega)] at hyb; simp at hyb; exact hyb.2
      subst this
      simp only [Bool.false_eq_true, if_false, List.mem_append]
      exact .inr hq
  exact skip _ _ (by omega) (by omega) (skip _ _ (by omega) (by omega) key)

theorem halfTouch_step {n root L d x y : Nat} (hL : root ≤ L) (hd : 0 < d)
    (hx : x < n * 2 ^ (L - root)) (hy : y < 2 * (n * 2 ^ (L + d - root)))
    (h : HalfTouch n root L x (L + d + 1) y) :
    ∃ o z c, c / 2 ^ d = x ∧ Step True (n * 2 ^ (L + d - root)) (y / 2) o z ∧
      c = (z + n * 2 ^ (L + d - root) / 2) % (n * 2 ^ (L + d - root)) := by
  obtain ⟨s, hs, h1, h2⟩ := h
  obtain ⟨w, hw, hw0⟩ : ∃ w, 2 ^ d = 2 * w ∧ 0 < w := ⟨2 ^ (d - 1), by
    rw [← Nat.pow_succ']; congr 1; omega, Nat.pow_pos (by omega)⟩
  -- half the number of cells
  obtain ⟨H, hH⟩ : ∃ H, n * 2 ^ (L + d - root) = 2 * H := ⟨n * 2 ^ (L - root) * w, by
    rw [show L + d - root = (L - root) + d by omega, Nat.pow_add, hw]
    rw [← Nat.mul_assoc, Nat.mul_left_comm, Nat.mul_assoc]⟩
  have hNx : (x + 1) * 2 ^ d ≤ 2 * H := by
    rw [← hH, show L + d - root = (L - root) + d by omega, Nat.pow_add, ← Nat.mul_assoc]
    exact Nat.mul_le_mul_right _ hx
  have e1 : (n : Int) * 2 ^ (L + (L + d + 1) - root) = 4 * H * 2 ^ L := by
    have : ((n * 2 ^ (L + d - root) : Nat) : Int) = 2 * H := by rw [hH]; push_cast; ring
    push_cast at this
    rw [show L + (L + d + 1) - root = (L + d - root) + 1 + L by omega, Int.pow_add, Int.pow_succ,
      ← Int.mul_assoc, ← Int.mul_assoc, this]
    ring
  have e2 : (2 : Int) ^ (L + d + 1) = 2 * (2 * w) * 2 ^ L := by
    have : (2 : Int) ^ d = 2 * w := by exact_mod_cast hw
    rw [show L + d + 1 = d + 1 + L by omega, Int.pow_add, Int.pow_succ, this]
    simp only [Int.mul_assoc, Int.mul_comm, Int.mul_left_comm]
  have hpL' : (0 : Int) < 2 ^ L := by positivity
  rw [hH] at hy ⊢
  rw [e1, e2] at h1 h2
  have k1 : 2 * (x : Int) * (2 * (2 * w)) ≤ 2 * (y + 1) + s * (4 * H) := by
    refine Int.le_of_mul_le_mul_right ?_ hpL'
    calc _ = 2 * ((x : Int) * (2 * (2 * w) * 2 ^ L)) := by ring
      _ ≤ _ := h1
      _ = _ := by ring
  have k2 : 2 * (y : Int) + s * (4 * H) ≤ 2 * ((x + 1) * (2 * (2 * w))) := by
    refine Int.le_of_mul_le_mul_right ?_ hpL'
    calc _ = 2 * ((y : Int) * 2 ^ L) + s * (4 * H * 2 ^ L) := by ring
      _ ≤ _ := h2
      _ = _ := by ring
  clear h1 h2 e1 e2
  rw [hw] at hNx ⊢
  have m1 : 2 * (x : Int) * (2 * (2 * w)) = 8 * ((x * w : Nat) : Int) := by push_cast; ring
  have m2 : 2 * (((x : Int) + 1) * (2 * (2 * w))) = 8 * ((x * w : Nat) : Int) + 8 * w := by push_cast; ring
  have m3 : (x + 1) * (2 * w) = 2 * (x * w) + 2 * w := by ring
  rw [m1] at k1
  rw [m2] at k2
  rw [m3] at hNx
  have hdiv : ∀ c, 2 * (x * w) ≤ c → c < 2 * (x * w) + 2 * w → c / (2 * w) = x := by
    intro c hc1 hc2
    apply Nat.div_eq_of_lt_le
    · have : x * (2 * w) = 2 * (x * w) := by ring
      omega
    · rw [m3]; omega
  generalize x * w = xw at *
  rw [show 2 * H / 2 = H by omega]
  -- turning by half the period
  have turn : ∀ z c, z < 2 * H → c < 2 * H → ((z : Int) = c + H ∨ (z : Int) = c - H) →
      c = (z + H) % (2 * H) := by
    intro z c hz hc hh
    rcases hh with hh | hh
    · rw [show z + H = c + 2 * H by omega, Nat.add_mod_right, Nat.mod_eq_of_lt hc]
    · rw [show z + H = c by omega, Nat.mod_eq_of_lt hc]
  have fin : ∀ v : Int, (2 * (xw : Int) - 1 ≤ v) → (v ≤ 2 * xw + 2 * w) →
      (v = (y / 2 : Nat) + H ∨ v = (y / 2 : Nat) - H) →
      ∃ o z c, c / (2 * w) = x ∧ Step True (2 * H) (y / 2) o z ∧ c = (z + H) % (2 * H) := by
    intro v v1 v2 hv
    obtain ⟨c, o, hc1, hc2, ho1, ho2, hcv⟩ : ∃ (c : Nat) (o : Int), 2 * xw ≤ c ∧ c < 2 * xw + 2 * w ∧
        -1 ≤ o ∧ o ≤ 1 ∧ (c : Int) = v + o := by
      by_cases c1 : v < 2 * xw
      · exact ⟨2 * xw, 1, by omega, by omega, by omega, by omega, by omega⟩
      · by_cases c2 : v ≥ 2 * xw + 2 * w
        · exact ⟨2 * xw + 2 * w - 1, -1, by omega, by omega, by omega, by omega, by omega⟩
        · exact ⟨v.toNat, 0, by omega, by omega, by omega, by omega, by omega⟩
    have hcH : c < 2 * H := by omega
    by_cases hz : c < H
    · refine ⟨o, c + H, c, hdiv c hc1 hc2, ⟨by omega, ho1, ho2, ?_⟩, turn _ _ (by omega) hcH (.inl (by omega))⟩
      rcases hv with hv | hv
      · exact .inr ⟨trivial, by omega⟩
      · exact .inl (by omega)
    · refine ⟨o, c - H, c, hdiv c hc1 hc2, ⟨by omega, ho1, ho2, ?_⟩, turn _ _ (by omega) hcH (.inr (by omega))⟩
      rcases hv with hv | hv
      · exact .inl (by omega)
      · exact .inr ⟨trivial, by omega⟩
  rcases hs with rfl | rfl
  · exact fin ((y / 2 : Nat) + H) (by omega) (by omega) (.inl rfl)
  · exact fin ((y / 2 : Nat) - H) (by omega) (by omega) (.inr rfl)

/-- A leaf cannot lie above an existing location. -/
theorem no_leaf_above {t : Tree} {L d : Nat} {p c : Pos} (hd : 0 < d) (hanc : c.shr d = p)
    (hex : t.at (L + d) c ≠ .null) {g : Int} (h : t.at L p = .leaf g) : False := by
  obtain ⟨g'', hnode⟩ := node_anc hex hd
  rw [hanc, h] at hnode
  simp at hnode

theorem balance_shift {m : Mesh} (hm : m.Valid) (hs : m.f2 = true → m.ix2 ≠ .polar) {t : Tree}
    (hi : Inv m t) {L d : Nat} {p q : Pos} (hp : Dom m L p) (hq : Dom m (L + d + 1) q) {g g' : Int}
    (h1 : t.at L p = .leaf g) (h2 : t.at (L + d + 1) q = .leaf g')
    (ht : Touch m L p (L + d + 1) q) : d = 0 := by
  rcases Nat.eq_zero_or_pos d with h0 | hd
  · exact h0
  exfalso
  have hL := hi.wf.leaf L p g hp h1
  obtain ⟨gp, hP⟩ := parent_node (t := t) (L := L + d) (p := q) (by rw [h2]; simp)
  obtain ⟨o1, o2, o3, c, hsh, hanc⟩ := touch_shift hL hd hp hq ht
  refine no_leaf_above hd hanc ?_ h1
  by_cases h0 : o1 = 0 ∧ o2 = 0 ∧ o3 = 0
  · obtain ⟨rfl, rfl, rfl⟩ := h0
    rw [hsh.unique (by omega) hq.half (self_shift (by omega) hq.half), hP]; simp
  · exact (hi.ok (L + d) q.half gp hq.half hP (by simp)).2 (by omega) _
      (refineNbrs_of_shift hm hs (by omega) hq.half h0 hsh)

theorem balance_pole {m : Mesh} (hm : m.Valid) (hs : m.ix2 ≠ .polar) (ho : m.ox2 = .polar)
    (hper : m.ix3 = .periodic) {t : Tree}
    (hi : Inv m t) {L d : Nat} {p q : Pos} (hp : Dom m L p) (hq : Dom m (L + d + 1) q) {g g' : Int}
    (h1 : t.at L p = .leaf g) (h2 : t.at (L + d + 1) q = .leaf g')
    (ht : PoleTouch m L p (L + d + 1) q) : d = 0 := by
  rcases Nat.eq_zero_or_pos d with h0 | hd
  · exact h0
  exfalso
  have hL := hi.wf.leaf L p g hp h1
  obtain ⟨gp, hP⟩ := parent_node (t := t) (L := L + d) (p := q) (by rw [h2]; simp)
  obtain ⟨p1, p2, p3⟩ := (dom_iff_ge hL).1 hp
  obtain ⟨q1, q2, q3⟩ := (dom_iff_ge (L := L + d + 1) (by omega)).1 hq
  obtain ⟨e1, e2, e3⟩ := nmax_succ (m := m) (L := L + d) (by omega)
  have n2 : ∀ l, m.nmax2 l = m.nrbx2 * 2 ^ (l - m.rootLevel) := fun l => by simp [Mesh.nmax2, hm.dim ht.on3]
  have n3 : ∀ l, m.nmax3 l = m.nrbx3 * 2 ^ (l - m.rootLevel) := fun l => by simp [Mesh.nmax3, ht.on3]
  obtain ⟨o1, c1, hc1, s1⟩ := touchDim_step hL hd p1 (by rw [e1] at q1; exact q1) ht.t1
  rw [e3 ht.on3, n3] at q3
  rw [n3] at p3
  obtain ⟨o3, z, c3, hc3, s3, hturn⟩ := halfTouch_step hL hd p3 q3 ht.t3
  have row : ∀ K x, m.rootLevel ≤ K → (x + 1) * 2 ^ m.rootLevel = m.nrbx2 * 2 ^ K →
      x + 1 = m.nmax2 K := by
    intro K x hK h
    rw [n2]
    apply Nat.eq_of_mul_eq_mul_right (Nat.pow_pos (n := m.rootLevel) (show 0 < 2 by omega))
    rw [h, Nat.mul_assoc, ← Nat.pow_add, Nat.sub_add_cancel hK]
  have rp := row L p.x2 hL ht.row
  have rq := row (L + d + 1) q.x2 (by omega) ht.row'
  have hN : m.nmax2 (L + d + 1) = 2 * m.nmax2 (L + d) := e2 (hm.dim ht.on3)
  have hNd : m.nmax2 (L + d) = m.nmax2 L * 2 ^ d := by
    rw [n2, n2, Nat.mul_assoc, ← Nat.pow_add]; congr 2; omega
  have hps : PoleShift m (L + d) q.half o1 o3 z ⟨c1, m.nmax2 (L + d) - 1, c3⟩ := by
    refine ⟨hm.dim ht.on3, fun h => by rw [ht.on3] at h; simp at h, ?_, s1, ?_, ?_, ?_⟩
    · simp only [Pos.half]; omega
    · simp only; omega
    · rw [n3]; simpa [hper, Pos.half] using s3
    · rw [n3]; exact hturn
  have hp2 : (m.nmax2 (L + d) - 1) / 2 ^ d = p.x2 := by
    have hpos : 0 < 2 ^ d := Nat.pow_pos (by omega)
    rw [hNd, ← rp]
    apply Nat.div_eq_of_lt_le
    · rw [Nat.add_mul]; omega
    · have : 0 < (p.x2 + 1) * 2 ^ d := Nat.mul_pos (by omega) hpos
      omega
  refine no_leaf_above hd (c := ⟨c1, m.nmax2 (L + d) - 1, c3⟩) (Pos.ext' hc1 hp2 hc3) ?_ h1
  exact (hi.ok (L + d) q.half gp hq.half hP (by simp)).2 (by omega) _
    (refineNbrs_of_pole hm hs ho (by omega) hq.half hps)

theorem PoleTouch.symm {m : Mesh} {L K : Nat} {p q : Pos} (h : PoleTouch m L p K q) :
    PoleTouch m K q L p := by
  refine ⟨h.on3, touchDim_symm h.t1, h.row', h.row, ?_⟩
  obtain ⟨s, hs, h1, h2⟩ := h.t3
  refine ⟨-s, by omega, ?_, ?_⟩
  · rw [Nat.add_comm K L, Int.neg_mul]; omega
  · rw [Nat.add_comm K L, Int.neg_mul]; omega

/-- Histories without derefinement keep the invariant on every mesh. -/
theorem ReachR.inv {m : Mesh} (hm : m.Valid) {s : St} (h : ReachR m s) : Inv m s.tree := by
  induction h with
  | start c => exact ⟨rootGrid_wf hm, rootGrid_ok hm _⟩
  | add _ hd he ih =>
    obtain ⟨s2, e2, w2, o2, _⟩ := add_spec hm _ _ _ _ ih.wf ih.ok hd
    rw [he] at e2; simp at e2; rw [e2]; exact ⟨w2, o2⟩
  | refine _ hd hex he ih =>
    obtain ⟨s2, e2, w2, o2, _⟩ := refine_spec hm ih.wf ih.ok hd (by rwa [Ne, at_null_iff])
    rw [he] at e2; simp at e2; rw [e2]; exact ⟨w2, o2⟩
  | number c _ ih => exact ih.shape (number_shape _ _)

end Verif.Tree
