import Verif.Lemmas.TreeReach
import Mathlib.Tactic.Linarith
import Mathlib.Tactic.Positivity

/-! # Touching boxes one level apart -/
namespace Verif.Tree

theorem touchDim_reduce {per : Prop} {n root L x z : Nat} (hL : root ≤ L) :
    TouchDim per n root L x (L + 1) z ↔
      ∃ s : Int, (s = 0 ∨ per ∧ (s = 1 ∨ s = -1)) ∧
        2 * (x : Int) ≤ z + 1 + s * (2 * ((n * 2 ^ (L - root) : Nat) : Int)) ∧
        z + s * (2 * ((n * 2 ^ (L - root) : Nat) : Int)) ≤ 2 * (x + 1) := by
  unfold TouchDim
  have hpL : (0 : Int) < 2 ^ L := by positivity
  have e1 : (n : Int) * 2 ^ (L + (L + 1) - root) = (2 * ((n * 2 ^ (L - root) : Nat) : Int)) * 2 ^ L := by
    rw [show L + (L + 1) - root = (L - root) + 1 + L by omega, Int.pow_add, Int.pow_succ]
    push_cast; ring
  simp only [e1, Int.pow_succ]
  constructor
  · rintro ⟨s, hs, h1, h2⟩
    refine ⟨s, hs, ?_, ?_⟩
    · refine Int.le_of_mul_le_mul_right ?_ hpL
      linarith
    · refine Int.le_of_mul_le_mul_right ?_ hpL
      linarith
  · rintro ⟨s, hs, h1, h2⟩
    refine ⟨s, hs, ?_, ?_⟩
    · have := Int.mul_le_mul_of_nonneg_right h1 (Int.le_of_lt hpL)
      linarith
    · have := Int.mul_le_mul_of_nonneg_right h2 (Int.le_of_lt hpL)
      linarith

theorem step_touch {per : Prop} {n root L x y b : Nat} {o : Int} (hL : root ≤ L)
    (h : Step per (n * 2 ^ (L - root)) x o y) (hb : b < 2) (h1 : o = -1 → b = 1) (h2 : o = 1 → b = 0) :
    TouchDim per n root L x (L + 1) (2 * y + b) := by
  rw [touchDim_reduce hL]
  obtain ⟨a1, a2, a3, a4⟩ := h
  generalize n * 2 ^ (L - root) = N at *
  rcases a4 with a4 | ⟨hp, a4 | a4⟩
  · exact ⟨0, .inl rfl, by omega, by omega⟩
  · exact ⟨-1, .inr ⟨hp, .inr rfl⟩, by omega, by omega⟩
  · exact ⟨1, .inr ⟨hp, .inl rfl⟩, by omega, by omega⟩

theorem touch_step {per : Prop} {n root L x z : Nat} (hL : root ≤ L)
    (hz : z < 2 * (n * 2 ^ (L - root)))
    (h : TouchDim per n root L x (L + 1) z) :
    ∃ o, Step per (n * 2 ^ (L - root)) x o (z / 2) ∧ (o = -1 → z % 2 = 1) ∧ (o = 1 → z % 2 = 0) := by
  rw [touchDim_reduce hL] at h
  generalize n * 2 ^ (L - root) = N at *
  obtain ⟨s, hs, h1, h2⟩ := h
  rcases hs with rfl | ⟨hp, rfl | rfl⟩
  · exact ⟨(z / 2 : Nat) - x, ⟨by omega, by omega, by omega, .inl (by omega)⟩, by omega, by omega⟩
  · exact ⟨(z / 2 : Nat) + N - x, ⟨by omega, by omega, by omega, .inr ⟨hp, .inr (by omega)⟩⟩, by omega, by omega⟩
  · exact ⟨(z / 2 : Nat) - N - x, ⟨by omega, by omega, by omega, .inr ⟨hp, .inl (by omega)⟩⟩, by omega, by omega⟩

/-- A location one level finer touches `p` exactly if it is a facing child of a neighbour of `p`
(or of `p` itself). -/
theorem touch_iff_facing {m : Mesh} {L : Nat} (hL : m.rootLevel ≤ L) {p r : Pos}
    (hp : Dom m L p) (hr : Dom m (L + 1) r) :
    Touch m L p (L + 1) r ↔ ∃ o1 o2 o3, Shift m L p o1 o2 o3 r.half ∧ Face o1 o2 o3 (r.bitIdx 0) := by
  obtain ⟨p1, p2, p3⟩ := (dom_iff_ge hL).1 hp
  obtain ⟨r1, r2, r3⟩ := (dom_iff_ge (L := L + 1) (by omega)).1 hr
  obtain ⟨e1, e2, e3⟩ := nmax_succ hL
  have b1 : (r.bitIdx 0).val % 2 = r.x1 % 2 := by simp only [Pos.bitIdx, Nat.pow_zero, Nat.div_one]; omega
  have b2 : (r.bitIdx 0).val / 2 % 2 = r.x2 % 2 := by simp only [Pos.bitIdx, Nat.pow_zero, Nat.div_one]; omega
  have b3 : (r.bitIdx 0).val / 4 % 2 = r.x3 % 2 := by simp only [Pos.bitIdx, Nat.pow_zero, Nat.div_one]; omega
  constructor
  · rintro ⟨t1, t2, t3⟩
    obtain ⟨o1, s1, a1, c1⟩ := touch_step hL (by rw [e1] at r1; exact r1) t1
    have H2 : ∃ o, (m.f2 = false → o = 0) ∧ Step (m.ix2 = .periodic) (m.nmax2 L) p.x2 o (r.x2 / 2) ∧
        (o = -1 → r.x2 % 2 = 1) ∧ (o = 1 → r.x2 % 2 = 0) := by
      rcases hf : m.f2
      · have n1 : ∀ l, m.nmax2 l = 1 := fun l => by simp [Mesh.nmax2, hf]
        rw [n1] at p2 r2
        exact ⟨0, by simp, ⟨by rw [n1]; omega, by omega, by omega, .inl (by omega)⟩, by omega, by omega⟩
      · have n1 : ∀ l, m.nmax2 l = m.nrbx2 * 2 ^ (l - m.rootLevel) := fun l => by simp [Mesh.nmax2, hf]
        have := e2 hf
        rw [this, n1] at r2
        obtain ⟨o, a, b, c⟩ := touch_step hL r2 (t2 hf)
        exact ⟨o, by simp, by rw [n1]; exact a, b, c⟩
    have H3 : ∃ o, (m.f3 = false → o = 0) ∧ Step (m.ix3 = .periodic) (m.nmax3 L) p.x3 o (r.x3 / 2) ∧
        (o = -1 → r.x3 % 2 = 1) ∧ (o = 1 → r.x3 % 2 = 0) := by
      rcases hf : m.f3
      · have n1 : ∀ l, m.nmax3 l = 1 := fun l => by simp [Mesh.nmax3, hf]
        rw [n1] at p3 r3
        exact ⟨0, by simp, ⟨by rw [n1]; omega, by omega, by omega, .inl (by omega)⟩, by omega, by omega⟩
      · have n1 : ∀ l, m.nmax3 l = m.nrbx3 * 2 ^ (l - m.rootLevel) := fun l => by simp [Mesh.nmax3, hf]
        have := e3 hf
        rw [this, n1] at r3
        obtain ⟨o, a, b, c⟩ := touch_step hL r3 (t3 hf)
        exact ⟨o, by simp, by rw [n1]; exact a, b, c⟩
    obtain ⟨o2, f2, s2, a2, c2⟩ := H2
    obtain ⟨o3, f3, s3, a3, c3⟩ := H3
    exact ⟨o1, o2, o3, ⟨f2, f3, s1, s2, s3⟩, by rw [b1]; exact a1, by rw [b1]; exact c1,
      by rw [b2]; exact a2, by rw [b2]; exact c2, by rw [b3]; exact a3, by rw [b3]; exact c3⟩
  · rintro ⟨o1, o2, o3, hs, hf⟩
    have g1 : 2 * r.half.x1 + r.x1 % 2 = r.x1 := by simp only [Pos.half]; omega
    have g2 : 2 * r.half.x2 + r.x2 % 2 = r.x2 := by simp only [Pos.half]; omega
    have g3 : 2 * r.half.x3 + r.x3 % 2 = r.x3 := by simp only [Pos.half]; omega
    refine ⟨?_, fun h2 => ?_, fun h3 => ?_⟩
    · rw [← g1]
      exact step_touch hL hs.s1 (by omega) (by rw [← b1]; exact hf.a1) (by rw [← b1]; exact hf.b1)
    · rw [← g2]
      have n1 : m.nmax2 L = m.nrbx2 * 2 ^ (L - m.rootLevel) := by simp [Mesh.nmax2, h2]
      exact step_touch hL (by rw [← n1]; exact hs.s2) (by omega) (by rw [← b2]; exact hf.a2) (by rw [← b2]; exact hf.b2)
    · rw [← g3]
      have n1 : m.nmax3 L = m.nrbx3 * 2 ^ (L - m.rootLevel) := by simp [Mesh.nmax3, h3]
      exact step_touch hL (by rw [← n1]; exact hs.s3) (by omega) (by rw [← b3]; exact hf.a3) (by rw [← b3]; exact hf.b3)

theorem clear_iff {m : Mesh} (hm : m.Valid) {t : Tree} (hw : WF m t) {L : Nat} (hL : m.rootLevel ≤ L) {p : Pos} (hp : Dom m L p) :
    Clear m t L p ↔ ∀ r g, InRange (L + 1) r → Touch m L p (L + 1) r → t.at (L + 1) r ≠ .node g := by
  constructor
  · intro hc r g hr ht hn
    have hdr := hw.dom hm hr (by rw [hn]; simp)
    obtain ⟨o1, o2, o3, hs, hf⟩ := (touch_iff_facing hL hp hdr).1 ht
    have := hc o1 o2 o3 hs.dir r.half hs (r.bitIdx 0) (hdr.idx_lt hm) hf g
    rw [Pos.child_half] at this
    exact this hn
  · intro h o1 o2 o3 _ q hs n hn hf g hg
    have hdn := (hs.dom hL).child hm hL hn
    refine h (q.child n) g (hdn.inRange hm) ?_ hg
    refine (touch_iff_facing hL hp hdn).2 ⟨o1, o2, o3, by simpa using hs, ?_⟩
    have : (q.child n).bitIdx 0 = n := Pos.bitIdx_child q n
    rw [this]; exact hf

theorem touchDim_symm {per : Prop} {n root L x K y : Nat} (h : TouchDim per n root L x K y) :
    TouchDim per n root K y L x := by
  obtain ⟨s, hs, h1, h2⟩ := h
  refine ⟨-s, ?_, ?_, ?_⟩
  · rcases hs with rfl | ⟨hp, rfl | rfl⟩
    · exact .inl rfl
    · exact .inr ⟨hp, .inr rfl⟩
    · exact .inr ⟨hp, .inl rfl⟩
  · rw [Nat.add_comm K L, Int.neg_mul]; omega
  · rw [Nat.add_comm K L, Int.neg_mul]; omega

theorem Touch.symm {m : Mesh} {L K : Nat} {p q : Pos} (h : Touch m L p K q) : Touch m K q L p :=
  ⟨touchDim_symm h.t1, fun hf => touchDim_symm (h.t2 hf), fun hf => touchDim_symm (h.t3 hf)⟩

theorem covers_iff {L M : Nat} {p r : Pos} : Covers L p M r ↔ L ≤ M ∧ r.shr (M - L) = p := by
  have hp : 0 < 2 ^ (M - L) := Nat.pow_pos (by omega)
  have key : ∀ x y : Nat, y / 2 ^ (M - L) = x ↔ x * 2 ^ (M - L) ≤ y ∧ y < (x + 1) * 2 ^ (M - L) :=
    fun x y => by
      constructor
      · rintro rfl
        exact ⟨Nat.div_mul_le_self _ _, by rw [Nat.mul_comm]; exact Nat.lt_mul_div_succ _ hp⟩
      · rintro ⟨a, b⟩
        exact Nat.div_eq_of_lt_le a b
  constructor
  · rintro ⟨h0, h1, h2, h3, h4, h5, h6⟩
    exact ⟨h0, Pos.ext' ((key _ _).2 ⟨h1, h2⟩) ((key _ _).2 ⟨h3, h4⟩) ((key _ _).2 ⟨h5, h6⟩)⟩
  · rintro ⟨h0, rfl⟩
    have a := (key _ r.x1).1 rfl
    have b := (key _ r.x2).1 rfl
    have c := (key _ r.x3).1 rfl
    exact ⟨h0, a.1, a.2, b.1, b.2, c.1, c.2⟩

end Verif.Tree
