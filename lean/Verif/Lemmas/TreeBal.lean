import Verif.Lemmas.TreeGeom
import Mathlib.Tactic.Ring

/-! # Balance of touching leaves -/
namespace Verif.Tree

/-- The invariant of the tree. -/
structure Inv (m : Mesh) (t : Tree) : Prop where
  wf : WF m t
  ok : OkX m t (fun _ _ => False)

theorem touchDim_step {per : Prop} {n root L d x y : Nat} (hL : root ≤ L) (hd : 0 < d)
    (hx : x < n * 2 ^ (L - root)) (hy : y < 2 * (n * 2 ^ (L + d - root)))
    (h : TouchDim per n root L x (L + d + 1) y) :
    ∃ o c, c / 2 ^ d = x ∧ Step per (n * 2 ^ (L + d - root)) (y / 2) o c := by
  obtain ⟨s, hs, h1, h2⟩ := h
  have hd2 : ∃ w, 2 ^ d = 2 * w ∧ 0 < w := ⟨2 ^ (d - 1), by
    rw [← Nat.pow_succ']; congr 1; omega, Nat.pow_pos (by omega)⟩
  obtain ⟨w, hw, hw0⟩ := hd2
  have hpL : 0 < 2 ^ L := Nat.pow_pos (by omega)
  -- reduce to the unit `2^-(L+d+1)`
  generalize hN : n * 2 ^ (L + d - root) = N at *
  have hNx : (x + 1) * 2 ^ d ≤ N := by
    rw [← hN, show L + d - root = (L - root) + d by omega, Nat.pow_add, ← Nat.mul_assoc]
    exact Nat.mul_le_mul_right _ hx
  have e1 : (n : Int) * 2 ^ (L + (L + d + 1) - root) = 2 * N * 2 ^ L := by
    rw [← hN]; push_cast
    rw [show L + (L + d + 1) - root = (L + d - root) + 1 + L by omega, Int.pow_add, Int.pow_succ]
    ring
  have e2 : (2 : Int) ^ (L + d + 1) = 2 * (2 * w) * 2 ^ L := by
    have : (2 : Int) ^ d = 2 * w := by exact_mod_cast hw
    rw [show L + d + 1 = d + 1 + L by omega, Int.pow_add, Int.pow_succ, this]
    simp only [Int.mul_assoc, Int.mul_comm, Int.mul_left_comm]
  have hpL' : (0 : Int) < 2 ^ L := by exact_mod_cast hpL
  rw [e1, e2] at h1 h2
  have k1 : (x : Int) * (2 * (2 * w)) ≤ (y + 1) + s * (2 * N) := by
    refine Int.le_of_mul_le_mul_right ?_ hpL'
    calc _ = (x : Int) * (2 * (2 * w) * 2 ^ L) := by simp only [Int.mul_assoc]
      _ ≤ _ := h1
      _ = _ := by ring
  have k2 : (y : Int) + s * (2 * N) ≤ (x + 1) * (2 * (2 * w)) := by
    refine Int.le_of_mul_le_mul_right ?_ hpL'
    calc _ = (y : Int) * 2 ^ L + s * (2 * N * 2 ^ L) := by rw [Int.add_mul]; simp only [Int.mul_assoc]
      _ ≤ _ := h2
      _ = _ := by simp only [Int.mul_assoc]
  clear h1 h2 e1 e2
  rw [hw] at hNx ⊢
  -- `xw = x * w`
  have m1 : (x : Int) * (2 * (2 * w)) = 4 * ((x * w : Nat) : Int) := by
    push_cast; ring
  have m2 : ((x : Int) + 1) * (2 * (2 * w)) = 4 * ((x * w : Nat) : Int) + 4 * w := by
    rw [Int.add_mul, m1]; omega
  have m3 : (x + 1) * (2 * w) = 2 * (x * w) + 2 * w := by
    rw [Nat.add_mul]
    have : x * (2 * w) = 2 * (x * w) := by rw [Nat.mul_left_comm]
    omega
  rw [m1] at k1
  rw [m2] at k2
  rw [m3] at hNx
  have hdiv : ∀ c, 2 * (x * w) ≤ c → c < 2 * (x * w) + 2 * w → c / (2 * w) = x := by
    intro c hc1 hc2
    apply Nat.div_eq_of_lt_le
    · have : x * (2 * w) = 2 * (x * w) := by rw [Nat.mul_left_comm]
      omega
    · rw [m3]; omega
  generalize x * w = xw at *
  have fin : ∀ z : Int, (2 * (xw : Int) - 1 ≤ z) → (z ≤ 2 * xw + 2 * w) →
      (z = (y / 2 : Nat) ∨ (per ∧ (z = (y / 2 : Nat) + N ∨ z = (y / 2 : Nat) - N))) →
      ∃ o c, c / (2 * w) = x ∧ Step per N (y / 2) o c := by
    intro z z1 z2 hz
    by_cases c1 : z < 2 * xw
    · refine ⟨1, 2 * xw, hdiv _ (by omega) (by omega), by omega, by omega, by omega, ?_⟩
      rcases hz with hz | ⟨hp, hz | hz⟩
      · left; omega
      · right; exact ⟨hp, by omega⟩
      · right; exact ⟨hp, by omega⟩
    · by_cases c2 : z ≥ 2 * xw + 2 * w
      · refine ⟨-1, 2 * xw + 2 * w - 1, hdiv _ (by omega) (by omega), by omega, by omega, by omega, ?_⟩
        rcases hz with hz | ⟨hp, hz | hz⟩
        · left; omega
        · right; exact ⟨hp, by omega⟩
        · right; exact ⟨hp, by omega⟩
      · refine ⟨0, z.toNat, hdiv _ (by omega) (by omega), by omega, by omega, by omega, ?_⟩
        rcases hz with hz | ⟨hp, hz | hz⟩
        · left; omega
        · right; exact ⟨hp, by omega⟩
        · right; exact ⟨hp, by omega⟩
  rcases hs with rfl | ⟨hp, rfl | rfl⟩
  · exact fin (y / 2 : Nat) (by omega) (by omega) (.inl rfl)
  · exact fin ((y / 2 : Nat) + N) (by omega) (by omega) (.inr ⟨hp, .inl rfl⟩)
  · exact fin ((y / 2 : Nat) - N) (by omega) (by omega) (.inr ⟨hp, .inr rfl⟩)

/-- If `p` touches a location `q` that is `d+1` levels finer, the parent of `q` has a neighbour at its
level (or is itself) inside `p`. -/
theorem touch_shift {m : Mesh} {L d : Nat} {p q : Pos} (hL : m.rootLevel ≤ L) (hd : 0 < d)
    (hp : Dom m L p) (hq : Dom m (L + d + 1) q) (ht : Touch m L p (L + d + 1) q) :
    ∃ o1 o2 o3 c, Shift m (L + d) q.half o1 o2 o3 c ∧ c.shr d = p := by
  obtain ⟨p1, p2, p3⟩ := (dom_iff_ge hL).1 hp
  obtain ⟨q1, q2, q3⟩ := (dom_iff_ge (L := L + d + 1) (by omega)).1 hq
  obtain ⟨e1, e2, e3⟩ := nmax_succ (m := m) (L := L + d) (by omega)
  obtain ⟨o1, c1, hc1, s1⟩ := touchDim_step hL hd p1 (by rw [e1] at q1; exact q1) ht.t1
  have H2 : ∃ o c, c / 2 ^ d = p.x2 ∧ (m.f2 = false → o = 0) ∧
      Step (m.ix2 = .periodic) (m.nmax2 (L + d)) (q.x2 / 2) o c := by
    rcases hf : m.f2
    · have n1 : ∀ l, m.nmax2 l = 1 := fun l => by simp [Mesh.nmax2, hf]
      rw [n1] at p2 q2
      exact ⟨0, 0, by simp; omega, by simp, by rw [n1]; omega, by omega, by omega, .inl (by omega)⟩
    · have n1 : ∀ l, m.nmax2 l = m.nrbx2 * 2 ^ (l - m.rootLevel) := fun l => by simp [Mesh.nmax2, hf]
      have := e2 hf
      rw [this, n1] at q2
      rw [n1] at p2
      obtain ⟨o, c, a, b⟩ := touchDim_step hL hd p2 q2 (ht.t2 hf)
      exact ⟨o, c, a, by simp, by rw [n1]; exact b⟩
  have H3 : ∃ o c, c / 2 ^ d = p.x3 ∧ (m.f3 = false → o = 0) ∧
      Step (m.ix3 = .periodic) (m.nmax3 (L + d)) (q.x3 / 2) o c := by
    rcases hf : m.f3
    · have n1 : ∀ l, m.nmax3 l = 1 := fun l => by simp [Mesh.nmax3, hf]
      rw [n1] at p3 q3
      exact ⟨0, 0, by simp; omega, by simp, by rw [n1]; omega, by omega, by omega, .inl (by omega)⟩
    · have n1 : ∀ l, m.nmax3 l = m.nrbx3 * 2 ^ (l - m.rootLevel) := fun l => by simp [Mesh.nmax3, hf]
      have := e3 hf
      rw [this, n1] at q3
      rw [n1] at p3
      obtain ⟨o, c, a, b⟩ := touchDim_step hL hd p3 q3 (ht.t3 hf)
      exact ⟨o, c, a, by simp, by rw [n1]; exact b⟩
  obtain ⟨o2, c2, hc2, f2, s2⟩ := H2
  obtain ⟨o3, c3, hc3, f3, s3⟩ := H3
  exact ⟨o1, o2, o3, ⟨c1, c2, c3⟩, ⟨f2, f3, s1, s2, s3⟩, Pos.ext' hc1 hc2 hc3⟩

/-- Two touching leaves differ by at most one level. -/
theorem balance_aux {m : Mesh} (hm : m.Valid) (hnp : NoPolar m) {t : Tree} (hi : Inv m t)
    {L d : Nat} {p q : Pos} (hp : Dom m L p) (hq : Dom m (L + d + 1) q) {g g' : Int}
    (h1 : t.at L p = .leaf g) (h2 : t.at (L + d + 1) q = .leaf g')
    (ht : Touch m L p (L + d + 1) q) : d = 0 := by
  rcases Nat.eq_zero_or_pos d with h0 | hd
  · exact h0
  exfalso
  have hL := hi.wf.leaf L p g hp h1
  have hq' : Dom m (L + d) q.half := hq.half
  obtain ⟨gp, hP⟩ := parent_node (t := t) (L := L + d) (p := q) (by rw [h2]; simp)
  -- a same-level neighbour (or the parent itself) inside `p`
  obtain ⟨o1, o2, o3, c, hsh, hanc⟩ := touch_shift hL hd hp hq ht
  have hex : t.at (L + d) c ≠ .null := by
    by_cases h0 : o1 = 0 ∧ o2 = 0 ∧ o3 = 0
    · have hself : Shift m (L + d) q.half o1 o2 o3 q.half := by
        obtain ⟨r1, r2, r3⟩ := (dom_iff_ge (L := L + d) (by omega)).1 hq'
        refine ⟨hsh.off2, hsh.off3, ⟨r1, hsh.s1.lo, hsh.s1.hi, .inl (by omega)⟩,
          ⟨r2, hsh.s2.lo, hsh.s2.hi, .inl (by omega)⟩, ⟨r3, hsh.s3.lo, hsh.s3.hi, .inl (by omega)⟩⟩
      rw [hsh.unique (by omega) hq' hself, hP]; simp
    · have := (hi.ok (L + d) q.half gp hq' hP (by simp)).2 (by omega)
      exact this _ ((mem_refineNbrs hm hnp (by omega) hq').2 ⟨o1, o2, o3, h0, hsh⟩)
  obtain ⟨g'', hnode⟩ := node_anc hex hd
  rw [hanc, h1] at hnode
  simp at hnode

end Verif.Tree
