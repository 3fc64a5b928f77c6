import Verif.Spec.Tree

/-! # Basic facts about locations, lookup and replacement in the block tree -/
namespace Verif.Tree

theorem Pos.ext' {p q : Pos} (h1 : p.x1 = q.x1) (h2 : p.x2 = q.x2) (h3 : p.x3 = q.x3) : p = q := by
  cases p; cases q; simp_all

/-- Position of the ancestor `j` levels up. -/
def Pos.shr (p : Pos) (j : Nat) : Pos := ⟨p.x1 / 2 ^ j, p.x2 / 2 ^ j, p.x3 / 2 ^ j⟩

@[simp] theorem Pos.shr_zero (p : Pos) : p.shr 0 = p := by simp [Pos.shr]

theorem Pos.shr_succ (p : Pos) (j : Nat) : p.shr (j + 1) = p.half.shr j := by
  simp [Pos.shr, Pos.half, Nat.pow_succ, Nat.div_div_eq_div_mul, Nat.mul_comm]

theorem Pos.shr_half (p : Pos) (j : Nat) : (p.shr j).half = p.shr (j + 1) := by
  simp [Pos.shr, Pos.half, Nat.pow_succ, Nat.div_div_eq_div_mul]

theorem Pos.shr_one (p : Pos) : p.shr 1 = p.half := by simp [Pos.shr, Pos.half]

theorem Pos.shr_shr (p : Pos) (i j : Nat) : (p.shr i).shr j = p.shr (i + j) := by
  simp [Pos.shr, Nat.pow_add, Nat.div_div_eq_div_mul]

theorem Pos.bitIdx_half (p : Pos) (sh : Nat) : p.half.bitIdx sh = p.bitIdx (sh + 1) := by
  simp [Pos.bitIdx, Pos.half, Nat.pow_succ, Nat.div_div_eq_div_mul, Nat.mul_comm]

theorem Pos.bitIdx_shr (p : Pos) (j sh : Nat) : (p.shr j).bitIdx sh = p.bitIdx (j + sh) := by
  simp [Pos.bitIdx, Pos.shr, Nat.pow_add, Nat.div_div_eq_div_mul]

@[simp] theorem Pos.half_child (p : Pos) (n : Fin 8) : (p.child n).half = p := by
  apply Pos.ext' <;> simp only [Pos.child, Pos.half] <;> omega

@[simp] theorem Pos.bitIdx_child (p : Pos) (n : Fin 8) : (p.child n).bitIdx 0 = n := by
  apply Fin.ext; simp only [Pos.child, Pos.bitIdx]
  have := n.isLt
  simp only [Nat.pow_zero, Nat.div_one]
  omega

@[simp] theorem Pos.child_half (p : Pos) : p.half.child (p.bitIdx 0) = p := by
  apply Pos.ext' <;> simp only [Pos.child, Pos.half, Pos.bitIdx, Nat.pow_zero, Nat.div_one] <;> omega

theorem InRange.half {L : Nat} {p : Pos} (h : InRange (L + 1) p) : InRange L p.half := by
  simp only [InRange, Pos.half, Nat.pow_succ] at *; omega

theorem InRange.child {L : Nat} {p : Pos} (h : InRange L p) (n : Fin 8) :
    InRange (L + 1) (p.child n) := by
  have := n.isLt
  simp only [InRange, Pos.child, Nat.pow_succ] at *; omega

theorem InRange.shr {L j : Nat} {p : Pos} (h : InRange (L + j) p) : InRange L (p.shr j) := by
  simp only [InRange, Pos.shr, Nat.pow_add] at *
  refine ⟨?_, ?_, ?_⟩ <;> apply (Nat.div_lt_iff_lt_mul (Nat.pow_pos (by omega))).2
  · exact h.1
  · exact h.2.1
  · exact h.2.2

theorem InRange.zero {p : Pos} (h : InRange 0 p) : p = ⟨0, 0, 0⟩ := by
  simp only [InRange, Nat.pow_zero] at h
  apply Pos.ext' <;> simp <;> omega

/-! ## Lookup -/

inductive Kind where
  | null | leaf (g : Int) | node (g : Int)
deriving DecidableEq, Repr

def Tree.kind : Tree → Kind
  | .null => .null
  | .leaf g => .leaf g
  | .node g _ => .node g

/-- What is stored at a location. -/
def Tree.at (t : Tree) (L : Nat) (p : Pos) : Kind := (t.get L p).kind

@[simp] theorem kid_null (n : Fin 8) : Tree.null.kid n = .null := rfl
@[simp] theorem kid_leaf (g : Int) (n : Fin 8) : (Tree.leaf g).kid n = .null := rfl
@[simp] theorem kid_node (g : Int) (k : Fin 8 → Tree) (n : Fin 8) : (Tree.node g k).kid n = k n := rfl

@[simp] theorem get_zero (t : Tree) (p : Pos) : t.get 0 p = t := by cases t <;> rfl

theorem get_succ_top (t : Tree) (L : Nat) (p : Pos) :
    t.get (L + 1) p = (t.kid (p.bitIdx L)).get L p := by cases t <;> rfl

theorem get_succ (t : Tree) (L : Nat) (p : Pos) :
    t.get (L + 1) p = (t.get L p.half).kid (p.bitIdx 0) := by
  induction L generalizing t with
  | zero => rw [get_succ_top]; simp
  | succ L ih => rw [get_succ_top, ih, get_succ_top, Pos.bitIdx_half]

theorem get_add (t : Tree) (L j : Nat) (q : Pos) :
    t.get (L + j) q = (t.get L (q.shr j)).get j q := by
  induction L generalizing t with
  | zero => simp
  | succ L ih =>
    rw [show L + 1 + j = (L + j) + 1 by omega, get_succ_top, ih, get_succ_top, Pos.bitIdx_shr,
      Nat.add_comm j L]

@[simp] theorem get_null (L : Nat) (p : Pos) : Tree.null.get L p = .null := by
  induction L with
  | zero => simp
  | succ L ih => rw [get_succ_top]; simpa using ih

theorem get_leaf_succ (g : Int) (L : Nat) (p : Pos) : (Tree.leaf g).get (L + 1) p = .null := by
  rw [get_succ_top]; simp

@[simp] theorem kind_null_iff {t : Tree} : t.kind = .null ↔ t = .null := by
  cases t <;> simp [Tree.kind]

theorem at_null_iff {t : Tree} {L : Nat} {p : Pos} : t.at L p = .null ↔ t.get L p = .null := by
  simp [Tree.at]

theorem at_leaf_iff {t : Tree} {L : Nat} {p : Pos} {g : Int} :
    t.at L p = .leaf g ↔ t.get L p = .leaf g := by
  unfold Tree.at; cases t.get L p <;> simp [Tree.kind]

theorem at_node_iff {t : Tree} {L : Nat} {p : Pos} {g : Int} :
    t.at L p = .node g ↔ ∃ k, t.get L p = .node g k := by
  unfold Tree.at; cases t.get L p <;> simp [Tree.kind]

theorem at_kid {t : Tree} {L : Nat} {p : Pos} {g : Int} {k : Fin 8 → Tree}
    (h : t.get L p = .node g k) (n : Fin 8) : t.at (L + 1) (p.child n) = (k n).kind := by
  unfold Tree.at; rw [get_succ]; simp [h]

/-- A location exists only if its parent is an internal node. -/
theorem parent_node {t : Tree} {L : Nat} {p : Pos} (h : t.at (L + 1) p ≠ .null) :
    ∃ g, t.at L p.half = .node g := by
  rw [Ne, at_null_iff, get_succ] at h
  unfold Tree.at
  generalize t.get L p.half = u at *
  rcases u with _ | g | ⟨g, k⟩
  · simp at h
  · simp at h
  · exact ⟨g, rfl⟩

theorem exists_anc {t : Tree} {L j : Nat} {p : Pos} (h : t.at (L + j) p ≠ .null) :
    t.at L (p.shr j) ≠ .null := by
  rw [Ne, at_null_iff, get_add] at h
  rw [Ne, at_null_iff]
  intro h0; rw [h0] at h; simp at h

theorem node_anc {t : Tree} {L j : Nat} {p : Pos} (h : t.at (L + j) p ≠ .null) (hj : 0 < j) :
    ∃ g, t.at L (p.shr j) = .node g := by
  obtain ⟨j, rfl⟩ : ∃ i, j = i + 1 := ⟨j - 1, by omega⟩
  have h1 : t.at (L + 1) (p.shr j) ≠ .null := exists_anc (j := j) (by
    rw [show L + 1 + j = L + (j + 1) by omega]; exact h)
  have := parent_node h1
  rwa [Pos.shr_half] at this

/-- Two trees with the same contents everywhere are equal. -/
theorem tree_ext {t t' : Tree} (h : ∀ L p, InRange L p → t.at L p = t'.at L p) : t = t' := by
  induction t generalizing t' with
  | null =>
    have := h 0 ⟨0, 0, 0⟩ (by simp [InRange])
    simp [Tree.at, Tree.kind] at this
    cases t' <;> simp_all
  | leaf g =>
    have := h 0 ⟨0, 0, 0⟩ (by simp [InRange])
    simp [Tree.at, Tree.kind] at this
    cases t' <;> simp_all
  | node g k ih =>
    have h0 := h 0 ⟨0, 0, 0⟩ (by simp [InRange])
    simp [Tree.at, Tree.kind] at h0
    rcases t' with _ | g' | ⟨g', k'⟩
    · simp at h0
    · simp at h0
    · simp at h0
      subst h0
      congr 1
      funext n
      apply ih
      intro L p hp
      -- position of `p` inside child `n`
      let q : Pos := ⟨p.x1 + 2 ^ L * (n.val % 2), p.x2 + 2 ^ L * (n.val / 2 % 2),
        p.x3 + 2 ^ L * (n.val / 4 % 2)⟩
      have hpos : 0 < 2 ^ L := Nat.pow_pos (by omega)
      obtain ⟨hp1, hp2, hp3⟩ := hp
      have hq : InRange (L + 1) q := by
        have := n.isLt
        have b1 : ∀ b, b < 2 → 2 ^ L * b ≤ 2 ^ L := by
          intro b hb
          have : b = 0 ∨ b = 1 := by omega
          rcases this with rfl | rfl <;> simp
        have c1 := b1 (n.val % 2) (by omega)
        have c2 := b1 (n.val / 2 % 2) (by omega)
        have c3 := b1 (n.val / 4 % 2) (by omega)
        simp only [InRange, q, Nat.pow_succ]; omega
      have hb : q.bitIdx L = n := by
        have := n.isLt
        apply Fin.ext
        simp only [Pos.bitIdx, q]
        rw [Nat.add_mul_div_left _ _ hpos, Nat.add_mul_div_left _ _ hpos,
          Nat.add_mul_div_left _ _ hpos, Nat.div_eq_of_lt hp1, Nat.div_eq_of_lt hp2,
          Nat.div_eq_of_lt hp3]
        omega
      have hlow : ∀ u : Tree, u.get L q = u.get L p := by
        have : ∀ (j : Nat) (u : Tree), j ≤ L → u.get j q = u.get j p := by
          intro j
          induction j with
          | zero => intro u _; simp
          | succ j ihj =>
            intro u hj
            rw [get_succ_top, get_succ_top, ihj _ (by omega)]
            congr 2
            apply Fin.ext
            have key : ∀ x b : Nat, (x + 2 ^ L * b) / 2 ^ j % 2 = x / 2 ^ j % 2 := by
              intro x b
              have : 2 ^ L = 2 ^ j * (2 * 2 ^ (L - j - 1)) := by
                rw [show (2:Nat) * 2 ^ (L - j - 1) = 2 ^ (L - j) by
                  rw [show L - j = (L - j - 1) + 1 by omega, Nat.pow_succ, Nat.mul_comm]; rfl,
                  ← Nat.pow_add]
                congr 1; omega
              rw [this, Nat.mul_assoc, Nat.add_mul_div_left _ _ (Nat.pow_pos (by omega)),
                Nat.mul_assoc, Nat.add_mul_mod_self_left]
            simp only [Pos.bitIdx, q, key]
        exact fun u => this L u (Nat.le_refl _)
      have := h (L + 1) q hq
      simp only [Tree.at, get_succ_top, kid_node, hb, hlow] at this
      exact this

/-! ## Replacement -/

theorem put_zero (t : Tree) (p : Pos) (u : Tree) : t.put 0 p u = u := by cases t <;> rfl

theorem put_node (g : Int) (k : Fin 8 → Tree) (L : Nat) (p : Pos) (u : Tree) :
    (Tree.node g k).put (L + 1) p u =
      .node g (fun n => if n = p.bitIdx L then (k n).put L p u else k n) := rfl

theorem at_put_lt (t : Tree) (L : Nat) (p : Pos) (u : Tree) (K : Nat) (q : Pos) (h : K < L) :
    (t.put L p u).at K q = t.at K q := by
  induction L generalizing t K with
  | zero => omega
  | succ L ih =>
    rcases t with _ | g | ⟨g, k⟩
    · rfl
    · rfl
    · rw [put_node]
      cases K with
      | zero => simp [Tree.at, Tree.kind]
      | succ K =>
        simp only [Tree.at, get_succ_top, kid_node] at *
        split
        · exact ih _ _ (by omega)
        · rfl

theorem pos_eq_of_bits {L : Nat} {p q : Pos} (hp : InRange L p) (hq : InRange L q)
    (h : ∀ sh, sh < L → p.bitIdx sh = q.bitIdx sh) : p = q := by
  induction L generalizing p q with
  | zero => rw [hp.zero, hq.zero]
  | succ L ih =>
    have h1 : p.half = q.half := ih hp.half hq.half (fun sh hs => by
      rw [Pos.bitIdx_half, Pos.bitIdx_half]; exact h _ (by omega))
    rw [← Pos.child_half p, ← Pos.child_half q, h1, h 0 (by omega)]

theorem get_put_same_bits (t : Tree) (L : Nat) (p : Pos) (u : Tree) (q : Pos)
    (hex : t.get L p ≠ .null) :
    (t.put L p u).get L q = if ∀ sh, sh < L → q.bitIdx sh = p.bitIdx sh then u else t.get L q := by
  induction L generalizing t with
  | zero => simp [put_zero]
  | succ L ih =>
    rcases t with _ | g | ⟨g, k⟩
    · simp at hex
    · rw [get_leaf_succ] at hex; simp at hex
    · rw [put_node, get_succ_top, get_succ_top]
      simp only [kid_node]
      by_cases hb : q.bitIdx L = p.bitIdx L
      · rw [if_pos hb, ih _ (by rw [get_succ_top, kid_node] at hex; rw [hb]; exact hex)]
        congr 1
        apply propext
        constructor
        · intro h sh hs
          by_cases hsl : sh = L
          · subst hsl; exact hb
          · exact h sh (by omega)
        · intro h sh hs; exact h sh (by omega)
      · rw [if_neg hb, if_neg (fun h => hb (h L (by omega)))]

theorem get_put (t : Tree) {L : Nat} {p : Pos} (u : Tree) {j : Nat} {q : Pos}
    (hp : InRange L p) (hq : InRange (L + j) q) (hex : t.get L p ≠ .null) :
    (t.put L p u).get (L + j) q = if q.shr j = p then u.get j q else t.get (L + j) q := by
  rw [get_add, get_put_same_bits _ _ _ _ _ hex, get_add t]
  by_cases h : q.shr j = p
  · rw [if_pos h, if_pos (fun sh _ => by rw [h])]
  · rw [if_neg h, if_neg]
    intro hb
    exact h (pos_eq_of_bits hq.shr hp hb)

end Verif.Tree
