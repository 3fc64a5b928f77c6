import Verif.Spec.Interp
import Mathlib.Algebra.Order.Floor.Ring
import Mathlib.Data.Rat.Floor
import Mathlib.Tactic.FieldSimp
import Mathlib.Tactic.Linarith
import Mathlib.Tactic.LinearCombination
import Mathlib.Tactic.NormNum

/-!
# C93: interpolation in tables
-/

namespace Verif.Interp

variable {K : Type} [Field K] [LinearOrder K] [IsStrictOrderedRing K]

/-! ### Lemmas -/

/-- Cell index against the scaled coordinate. -/
def InUnit (n i : Int) (x : K) : Prop :=
  0 ≤ i ∧ i + 2 ≤ n ∧ (i = 0 ∨ (i : K) ≤ x) ∧ (i + 2 = n ∨ x ≤ i + 1)

theorem lower_cell [FloorRing K] {n i : Int} {x : K} (h : InUnit n i x) {c : Int}
    (hc : toInt x = some c) :
    0 ≤ lower c n ∧ lower c n + 2 ≤ n ∧
    (lower c n = i ∨ (lower c n = i + 1 ∧ x = i + 1)) := by
  obtain ⟨h0, hn, h1, h2⟩ := h
  have hl : 0 ≤ lower c n ∧ lower c n + 2 ≤ n := by
    unfold lower; split <;> (try split) <;> omega
  refine ⟨hl.1, hl.2, ?_⟩
  have hc' : (if x < 0 then ⌈x⌉ else ⌊x⌋) = c := by
    unfold toInt at hc
    exact Option.some.inj (Option.ite_none_right_eq_some.1 hc).2
  by_cases hx : x < 0
  · rw [if_pos hx] at hc'
    have : c ≤ 0 := by rw [← hc']; exact Int.ceil_le.2 (by simpa using hx.le)
    have hi : i = 0 := by
      rcases h1 with h1 | h1
      · exact h1
      · have : (i : K) < 0 := lt_of_le_of_lt h1 hx
        have : i < 0 := by exact_mod_cast this
        omega
    left
    unfold lower
    split <;> (try split) <;> omega
  · rw [if_neg hx] at hc'
    have c0 : 0 ≤ c := by rw [← hc']; exact Int.floor_nonneg.2 (not_lt.1 hx)
    have ic : i ≤ c := by
      rcases h1 with h1 | h1
      · omega
      · rw [← hc']; exact Int.le_floor.2 h1
    have cx : (c : K) ≤ x := by rw [← hc']; exact Int.floor_le x
    by_cases hlast : i + 2 = n
    · left
      unfold lower
      split <;> (try split) <;> omega
    · have hxi := h2.resolve_left hlast
      have : (c : K) ≤ ((i + 1 : Int) : K) := by push_cast; exact le_trans cx hxi
      have ci : c ≤ i + 1 := by exact_mod_cast this
      rcases lt_or_eq_of_le ci with ci | ci
      · left
        unfold lower
        split <;> (try split) <;> omega
      · right
        refine ⟨?_, le_antisymm hxi ?_⟩
        · unfold lower
          split <;> (try split) <;> omega
        · rw [ci] at cx
          push_cast at cx
          exact cx

/-- The weights do not depend on the choice of the cell. -/
theorem weights [FloorRing K] {n i : Int} {x : K} (h : InUnit n i x) {c : Int}
    (hc : toInt x = some c) (g : Int → K) :
    (1 + (lower c n : K) - x) * g (lower c n) + (1 - (1 + (lower c n : K) - x)) * g (lower c n + 1)
      = (i + 1 - x) * g i + (x - i) * g (i + 1) := by
  rcases (lower_cell h hc).2.2 with e | ⟨e, ex⟩
  · rw [e]; ring
  · rw [e, ex]; push_cast; ring

theorem unit_cell {n i : Int} {a b x : K} (hab : a < b)
    (h : Spec.InCell (Spec.nodes n a b) n i x) :
    InUnit n i ((x - a) * ((n - 1) / (b - a))) := by
  obtain ⟨h0, hn, h1, h2⟩ := h
  have hn' : (0 : K) < n - 1 := by
    have : (1 : Int) < n := by omega
    have : ((1 : Int) : K) < n := by exact_mod_cast this
    push_cast at this; linarith
  have hb : 0 < b - a := sub_pos.2 hab
  have e : ∀ k : Int, (x - Spec.nodes n a b k) * ((n - 1) / (b - a)) =
      (x - a) * ((n - 1) / (b - a)) - k := by
    intro k; unfold Spec.nodes; field_simp; ring
  have hp : (0 : K) < (n - 1) / (b - a) := div_pos hn' hb
  refine ⟨h0, hn, ?_, ?_⟩
  · rcases h1 with h1 | h1
    · exact Or.inl h1
    · right
      have := mul_nonneg (sub_nonneg.2 h1) hp.le
      rw [e] at this
      linarith
  · rcases h2 with h2 | h2
    · exact Or.inl h2
    · right
      have := mul_nonneg (sub_nonneg.2 h2) hp.le
      have e' := e (i + 1)
      push_cast at e'
      linarith

theorem lin_nodes {n i : Int} {a b x : K} (hab : a < b) (hn : 2 ≤ n) (ya yb : K) :
    Spec.lin (Spec.nodes n a b i) (Spec.nodes n a b (i + 1)) ya yb x =
      (i + 1 - (x - a) * ((n - 1) / (b - a))) * ya +
      ((x - a) * ((n - 1) / (b - a)) - i) * yb := by
  have hn' : (n : K) - 1 ≠ 0 := by
    have : (1 : Int) < n := by omega
    have : ((1 : Int) : K) < n := by exact_mod_cast this
    push_cast at this
    exact (sub_pos.2 this).ne'
  have hb : b - a ≠ 0 := (sub_pos.2 hab).ne'
  unfold Spec.lin Spec.nodes
  have e : a + ((i + 1 : Int) : K) * ((b - a) / (n - 1)) - (a + i * ((b - a) / (n - 1))) =
      (b - a) / (n - 1) := by push_cast; ring
  rw [e]
  push_cast
  field_simp
  ring

theorem toInt_fits [FloorRing K] {x : K} (h : Spec.Fits x) : ∃ c, toInt x = some c := by
  unfold toInt
  simp only
  refine ⟨_, if_pos ?_⟩
  obtain ⟨h1, h2⟩ := h
  split
  · rename_i hx
    constructor
    · have : (-2 ^ 31 : Int) < ⌈x⌉ := by
        rw [Int.lt_ceil]; push_cast; linarith
      omega
    · have : ⌈x⌉ ≤ 0 := Int.ceil_le.2 (by simpa using hx.le)
      omega
  · rename_i hx
    constructor
    · have := Int.floor_nonneg.2 (not_lt.1 hx)
      omega
    · rw [Int.floor_lt]; push_cast; linarith

/-- A table in the sense of the code: at least two nodes in both directions. -/
def Table.Ok (t : Table K) : Prop :=
  2 ≤ t.nx2 ∧ 2 ≤ t.nx1 ∧ t.x2min < t.x2max ∧ t.x1min < t.x1max

/-- The point can be converted to indices. -/
def Table.Within (t : Table K) (x2 x1 : K) : Prop :=
  Spec.Fits ((x2 - t.x2min) * ((t.nx2 - 1) / (t.x2max - t.x2min))) ∧
  Spec.Fits ((x1 - t.x1min) * ((t.nx1 - 1) / (t.x1max - t.x1min)))

/-! ### The table of the equation of state -/

/-- In every cell that contains the point the result is the bilinear function of that cell: the result
is continuous, and outside of the table it continues the outermost cell. No element outside of the
table is read. -/
theorem table_bilinear [FloorRing K] (t : Table K) (ht : t.Ok) (x2 x1 : K) (hw : t.Within x2 x1)
    (i j : Int) (hi : Spec.InCell (Spec.nodes t.nx2 t.x2min t.x2max) t.nx2 i x2)
    (hj : Spec.InCell (Spec.nodes t.nx1 t.x1min t.x1max) t.nx1 j x1) :
    interpolate t x2 x1 = some (Spec.bilin (Spec.nodes t.nx2 t.x2min t.x2max)
      (Spec.nodes t.nx1 t.x1min t.x1max) t.data i j x2 x1) := by
  obtain ⟨h2, h1, m2, m1⟩ := ht
  obtain ⟨c, hc⟩ := toInt_fits hw.1
  obtain ⟨e, he⟩ := toInt_fits hw.2
  have ui := unit_cell m2 hi
  have uj := unit_cell m1 hj
  obtain ⟨a1, a2, -⟩ := lower_cell ui hc
  obtain ⟨b1, b2, -⟩ := lower_cell uj he
  unfold interpolate
  simp only [hc, he, Option.bind_eq_bind, Option.bind_some, Table.get]
  rw [if_pos (by omega), if_pos (by omega), if_pos (by omega), if_pos (by omega)]
  simp only [Option.bind_some]
  unfold Spec.bilin
  rw [lin_nodes m2 h2, lin_nodes m1 h1, lin_nodes m1 h1]
  have wx := weights ui hc
  have wy := weights uj he
  have q0 := wy (fun k => t.data (lower c t.nx2) k)
  have q1 := wy (fun k => t.data (lower c t.nx2 + 1) k)
  have r := wx (fun k => (j + 1 - (x1 - t.x1min) * ((t.nx1 - 1) / (t.x1max - t.x1min))) *
    t.data k j + ((x1 - t.x1min) * ((t.nx1 - 1) / (t.x1max - t.x1min)) - j) * t.data k (j + 1))
  beta_reduce at q0 q1 r
  rw [← r, ← q0, ← q1]
  change some _ = some _
  congr 1
  ring

omit [Field K] [IsStrictOrderedRing K] in
/-- Every point is in a cell. -/
theorem cell_exists {n : Int} (hn : 2 ≤ n) (X : Int → K) (x : K) : ∃ i, Spec.InCell X n i x := by
  have key : ∀ m : ℕ, ∀ k : Int, 0 ≤ k → k + m + 2 = n → (k = 0 ∨ X k ≤ x) →
      ∃ i, Spec.InCell X n i x := by
    intro m
    induction m with
    | zero => intro k h0 hk h; exact ⟨k, h0, by omega, h, Or.inl (by omega)⟩
    | succ m ih =>
      intro k h0 hk h
      by_cases hx : x ≤ X (k + 1)
      · exact ⟨k, h0, by omega, h, Or.inr hx⟩
      · exact ih (k + 1) (by omega) (by push_cast at hk; omega) (Or.inr (not_le.1 hx).le)
  exact key (n - 2).toNat 0 le_rfl (by omega) (Or.inl rfl)

theorem nodes_lt {n i : Int} {a b : K} (hab : a < b) (hn : 2 ≤ n) :
    Spec.nodes n a b i < Spec.nodes n a b (i + 1) := by
  have : (1 : Int) < n := by omega
  have : ((1 : Int) : K) < n := by exact_mod_cast this
  push_cast at this
  have : 0 < (b - a) / ((n : K) - 1) := div_pos (sub_pos.2 hab) (sub_pos.2 this)
  unfold Spec.nodes
  push_cast
  linarith

theorem lin_left {a b : K} (h : a < b) (ya yb : K) : Spec.lin a b ya yb a = ya := by
  unfold Spec.lin
  have : b - a ≠ 0 := (sub_pos.2 h).ne'
  field_simp
  ring

theorem lin_right {a b : K} (h : a < b) (ya yb : K) : Spec.lin a b ya yb b = yb := by
  unfold Spec.lin
  have : b - a ≠ 0 := (sub_pos.2 h).ne'
  field_simp
  ring

theorem lin_affine {a b : K} (h : a < b) (p q x : K) :
    Spec.lin a b (p + q * a) (p + q * b) x = p + q * x := by
  unfold Spec.lin
  have : b - a ≠ 0 := (sub_pos.2 h).ne'
  field_simp
  ring

theorem lin_between {a b ya yb x lo hi : K} (h : a < b) (h1 : a ≤ x) (h2 : x ≤ b)
    (ha : lo ≤ ya ∧ ya ≤ hi) (hb : lo ≤ yb ∧ yb ≤ hi) :
    lo ≤ Spec.lin a b ya yb x ∧ Spec.lin a b ya yb x ≤ hi := by
  have hp : 0 < b - a := sub_pos.2 h
  have w1 : 0 ≤ (b - x) / (b - a) := div_nonneg (sub_nonneg.2 h2) hp.le
  have w2 : 0 ≤ (x - a) / (b - a) := div_nonneg (sub_nonneg.2 h1) hp.le
  have ws : (b - x) / (b - a) + (x - a) / (b - a) = 1 := by field_simp; ring
  unfold Spec.lin
  have e : ∀ m : K, m * ((b - x) / (b - a)) + m * ((x - a) / (b - a)) = m := by
    intro m; rw [← mul_add, ws, mul_one]
  constructor
  · have := e lo
    linarith [mul_le_mul_of_nonneg_right ha.1 w1, mul_le_mul_of_nonneg_right hb.1 w2]
  · have := e hi
    linarith [mul_le_mul_of_nonneg_right ha.2 w1, mul_le_mul_of_nonneg_right hb.2 w2]

/-- At a node of the table the result is the number in the table. -/
theorem table_node [FloorRing K] (t : Table K) (ht : t.Ok) (i j : Int) (hi : 0 ≤ i ∧ i < t.nx2)
    (hj : 0 ≤ j ∧ j < t.nx1)
    (hw : t.Within (Spec.nodes t.nx2 t.x2min t.x2max i) (Spec.nodes t.nx1 t.x1min t.x1max j)) :
    interpolate t (Spec.nodes t.nx2 t.x2min t.x2max i) (Spec.nodes t.nx1 t.x1min t.x1max j) =
      some (t.data i j) := by
  have hx := nodes_lt (n := t.nx2) (i := i) ht.2.2.1 ht.1
  have hx' := nodes_lt (n := t.nx2) (i := i - 1) ht.2.2.1 ht.1
  have hy := nodes_lt (n := t.nx1) (i := j) ht.2.2.2 ht.2.1
  have hy' := nodes_lt (n := t.nx1) (i := j - 1) ht.2.2.2 ht.2.1
  simp only [sub_add_cancel] at hx' hy'
  have ci : i + 2 ≤ t.nx2 → Spec.InCell (Spec.nodes t.nx2 t.x2min t.x2max) t.nx2 i
      (Spec.nodes t.nx2 t.x2min t.x2max i) := fun h => ⟨hi.1, h, Or.inr le_rfl, Or.inr hx.le⟩
  have cj : j + 2 ≤ t.nx1 → Spec.InCell (Spec.nodes t.nx1 t.x1min t.x1max) t.nx1 j
      (Spec.nodes t.nx1 t.x1min t.x1max j) := fun h => ⟨hj.1, h, Or.inr le_rfl, Or.inr hy.le⟩
  have di : ¬i + 2 ≤ t.nx2 → Spec.InCell (Spec.nodes t.nx2 t.x2min t.x2max) t.nx2 (i - 1)
      (Spec.nodes t.nx2 t.x2min t.x2max i) := fun h => by
    have := ht.1
    exact ⟨by omega, by omega, Or.inr hx'.le, Or.inl (by omega)⟩
  have dj : ¬j + 2 ≤ t.nx1 → Spec.InCell (Spec.nodes t.nx1 t.x1min t.x1max) t.nx1 (j - 1)
      (Spec.nodes t.nx1 t.x1min t.x1max j) := fun h => by
    have := ht.2.1
    exact ⟨by omega, by omega, Or.inr hy'.le, Or.inl (by omega)⟩
  by_cases h1 : i + 2 ≤ t.nx2 <;> by_cases h2 : j + 2 ≤ t.nx1
  · rw [table_bilinear t ht _ _ hw i j (ci h1) (cj h2), Spec.bilin, lin_left hx, lin_left hy]
  · rw [table_bilinear t ht _ _ hw i (j - 1) (ci h1) (dj h2), Spec.bilin, sub_add_cancel,
      lin_left hx, lin_right hy']
  · rw [table_bilinear t ht _ _ hw (i - 1) j (di h1) (cj h2), Spec.bilin, sub_add_cancel,
      lin_right hx', lin_left hy]
  · rw [table_bilinear t ht _ _ hw (i - 1) (j - 1) (di h1) (dj h2), Spec.bilin, sub_add_cancel,
      sub_add_cancel, lin_right hx', lin_right hy']

/-- A function linear in each of the two variables is reproduced everywhere. -/
theorem table_exact [FloorRing K] (t : Table K) (ht : t.Ok) (x2 x1 : K) (hw : t.Within x2 x1)
    (p q r s : K)
    (hd : ∀ i j, 0 ≤ i → i < t.nx2 → 0 ≤ j → j < t.nx1 → t.data i j =
      p + q * Spec.nodes t.nx2 t.x2min t.x2max i + r * Spec.nodes t.nx1 t.x1min t.x1max j +
      s * Spec.nodes t.nx2 t.x2min t.x2max i * Spec.nodes t.nx1 t.x1min t.x1max j) :
    interpolate t x2 x1 = some (p + q * x2 + r * x1 + s * x2 * x1) := by
  obtain ⟨i, hi⟩ := cell_exists ht.1 (Spec.nodes t.nx2 t.x2min t.x2max) x2
  obtain ⟨j, hj⟩ := cell_exists ht.2.1 (Spec.nodes t.nx1 t.x1min t.x1max) x1
  rw [table_bilinear t ht x2 x1 hw i j hi hj]
  have hx := nodes_lt (n := t.nx2) (i := i) ht.2.2.1 ht.1
  have hy := nodes_lt (n := t.nx1) (i := j) ht.2.2.2 ht.2.1
  obtain ⟨i0, i1, -, -⟩ := hi
  obtain ⟨j0, j1, -, -⟩ := hj
  unfold Spec.bilin
  rw [hd i j (by omega) (by omega) (by omega) (by omega),
    hd i (j + 1) (by omega) (by omega) (by omega) (by omega),
    hd (i + 1) j (by omega) (by omega) (by omega) (by omega),
    hd (i + 1) (j + 1) (by omega) (by omega) (by omega) (by omega)]
  generalize Spec.nodes t.nx2 t.x2min t.x2max i = a at *
  generalize Spec.nodes t.nx2 t.x2min t.x2max (i + 1) = b at *
  generalize Spec.nodes t.nx1 t.x1min t.x1max j = c at *
  generalize Spec.nodes t.nx1 t.x1min t.x1max (j + 1) = d at *
  have e1 := lin_affine hy (p + q * a) (r + s * a) x1
  have e2 := lin_affine hy (p + q * b) (r + s * b) x1
  have e3 := lin_affine hx (p + r * x1) (q + s * x1) x2
  rw [show p + q * a + r * c + s * a * c = p + q * a + (r + s * a) * c by ring,
    show p + q * a + r * d + s * a * d = p + q * a + (r + s * a) * d by ring,
    show p + q * b + r * c + s * b * c = p + q * b + (r + s * b) * c by ring,
    show p + q * b + r * d + s * b * d = p + q * b + (r + s * b) * d by ring, e1, e2,
    show p + q * a + (r + s * a) * x1 = p + r * x1 + (q + s * x1) * a by ring,
    show p + q * b + (r + s * b) * x1 = p + r * x1 + (q + s * x1) * b by ring, e3]
  congr 1
  ring

/-- Inside of the table the result is within all bounds of the table. -/
theorem table_bounds [FloorRing K] (t : Table K) (ht : t.Ok) (x2 x1 : K) (hw : t.Within x2 x1)
    (h2 : t.x2min ≤ x2 ∧ x2 ≤ t.x2max) (h1 : t.x1min ≤ x1 ∧ x1 ≤ t.x1max) (lo hi : K)
    (hd : ∀ i j, 0 ≤ i → i < t.nx2 → 0 ≤ j → j < t.nx1 → lo ≤ t.data i j ∧ t.data i j ≤ hi) :
    ∃ v, interpolate t x2 x1 = some v ∧ lo ≤ v ∧ v ≤ hi := by
  obtain ⟨i, ci⟩ := cell_exists ht.1 (Spec.nodes t.nx2 t.x2min t.x2max) x2
  obtain ⟨j, cj⟩ := cell_exists ht.2.1 (Spec.nodes t.nx1 t.x1min t.x1max) x1
  refine ⟨_, table_bilinear t ht x2 x1 hw i j ci cj, ?_⟩
  have hx := nodes_lt (n := t.nx2) (i := i) ht.2.2.1 ht.1
  have hy := nodes_lt (n := t.nx1) (i := j) ht.2.2.2 ht.2.1
  have first : ∀ (n : Int) (a b : K), Spec.nodes n a b 0 = a := by
    intro n a b; unfold Spec.nodes; push_cast; ring
  have last : ∀ (n : Int) (a b : K) (k : Int), 2 ≤ n → k + 2 = n →
      Spec.nodes n a b (k + 1) = b := by
    intro n a b k hn hk
    have hn' : (n : K) - 1 ≠ 0 := by
      have : (1 : Int) < n := by omega
      have : ((1 : Int) : K) < n := by exact_mod_cast this
      push_cast at this
      exact (sub_pos.2 this).ne'
    have e : ((k + 1 : Int) : K) = n - 1 := by rw [← hk]; push_cast; ring
    unfold Spec.nodes
    rw [e]
    field_simp
    ring
  obtain ⟨i0, i1, i2, i3⟩ := ci
  obtain ⟨j0, j1, j2, j3⟩ := cj
  have xl : Spec.nodes t.nx2 t.x2min t.x2max i ≤ x2 := by
    rcases i2 with e | e
    · rw [e, first]; exact h2.1
    · exact e
  have xr : x2 ≤ Spec.nodes t.nx2 t.x2min t.x2max (i + 1) := by
    rcases i3 with e | e
    · rw [last _ _ _ _ ht.1 e]; exact h2.2
    · exact e
  have yl : Spec.nodes t.nx1 t.x1min t.x1max j ≤ x1 := by
    rcases j2 with e | e
    · rw [e, first]; exact h1.1
    · exact e
  have yr : x1 ≤ Spec.nodes t.nx1 t.x1min t.x1max (j + 1) := by
    rcases j3 with e | e
    · rw [last _ _ _ _ ht.2.1 e]; exact h1.2
    · exact e
  unfold Spec.bilin
  exact lin_between hx xl xr
    (lin_between hy yl yr (hd i j (by omega) (by omega) (by omega) (by omega))
      (hd i (j + 1) (by omega) (by omega) (by omega) (by omega)))
    (lin_between hy yl yr (hd (i + 1) j (by omega) (by omega) (by omega) (by omega))
      (hd (i + 1) (j + 1) (by omega) (by omega) (by omega) (by omega)))

/-! ### The functions of the chemistry -/

omit [Field K] [IsStrictOrderedRing K] in
theorem scan_spec (X : Int → K) (x : K) (m : ℕ) (k : Int) (h : x ≤ X (k + m)) :
    k ≤ scan X x m k ∧ scan X x m k ≤ k + m ∧ x ≤ X (scan X x m k) ∧
      (scan X x m k = k ∨ X (scan X x m k - 1) < x) := by
  induction m generalizing k with
  | zero => simpa [scan] using h
  | succ m ih =>
    unfold scan
    split
    · rename_i hx
      have hk : k + 1 + (m : Int) = k + ((m + 1 : ℕ) : Int) := by push_cast; ring
      obtain ⟨h1, h2, h3, h4⟩ := ih (k + 1) (by rw [hk]; exact h)
      refine ⟨by omega, by omega, h3, Or.inr ?_⟩
      rcases h4 with h4 | h4
      · rw [h4, add_sub_cancel_right]; exact hx
      · exact h4
    · rename_i hx
      exact ⟨le_rfl, by omega, not_lt.1 hx, Or.inl rfl⟩

omit [IsStrictOrderedRing K] in
/-- The index belongs to a cell with the point in it, but for the first node. -/
theorem index_cell (len : ℕ) (hl : 2 ≤ len) (X : Int → K) (hX : Spec.Increasing len X) (x : K)
    (hx : x ≠ X 0) : Spec.InCell X len (index len X x) x := by
  unfold index
  split
  · rename_i h
    exact ⟨le_rfl, by omega, Or.inl rfl,
      Or.inr (le_trans h.le (hX 0 (0 + 1) le_rfl (by omega) (by omega)).le)⟩
  · rename_i h
    split
    · rename_i h'
      exact ⟨by omega, by omega,
        Or.inr (le_trans (hX (len - 2) (len - 1) (by omega) (by omega) (by omega)).le h'.le),
        Or.inl (by omega)⟩
    · rename_i h'
      have hc : ((len - 1 : ℕ) : Int) = (len : Int) - 1 := by omega
      obtain ⟨h1, h2, h3, h4⟩ := scan_spec X x (len - 1) 0
        (by rw [hc, zero_add]; exact not_lt.1 h')
      have hr : scan X x (len - 1) 0 ≠ 0 := by
        intro e
        rw [e] at h3
        exact hx (le_antisymm h3 (not_lt.1 h))
      refine ⟨by omega, by omega, Or.inr (h4.resolve_left hr).le, Or.inr ?_⟩
      rw [sub_add_cancel]
      exact h3

theorem linear_eq {a b : K} (h : a < b) (ya yb x : K) :
    linear a b ya yb x = Spec.lin a b ya yb x := by
  unfold linear Spec.lin
  have : b - a ≠ 0 := (sub_pos.2 h).ne'
  field_simp
  ring

/-- Two cells with the same point give the same number. -/
theorem cells_agree {n i j : Int} {X : Int → K} (hX : Spec.Increasing n X) {x : K}
    (hi : Spec.InCell X n i x) (hj : Spec.InCell X n j x) (g : Int → K) :
    Spec.lin (X i) (X (i + 1)) (g i) (g (i + 1)) x =
      Spec.lin (X j) (X (j + 1)) (g j) (g (j + 1)) x := by
  have key : ∀ i j, Spec.InCell X n i x → Spec.InCell X n j x → i < j →
      Spec.lin (X i) (X (i + 1)) (g i) (g (i + 1)) x =
      Spec.lin (X j) (X (j + 1)) (g j) (g (j + 1)) x := by
    rintro i j ⟨i0, i1, -, i3⟩ ⟨j0, j1, j2, -⟩ hij
    have h1 := i3.resolve_left (by omega)
    have h2 := j2.resolve_left (by omega)
    have e : j = i + 1 := by
      by_contra hne
      exact absurd (hX (i + 1) j (by omega) (by omega) (by omega)) (not_lt.2 (le_trans h2 h1))
    subst e
    have ex : x = X (i + 1) := le_antisymm h1 h2
    rw [ex, lin_right (hX i (i + 1) i0 (by omega) (by omega)),
      lin_left (hX (i + 1) (i + 1 + 1) j0 (by omega) (by omega))]
  rcases lt_trichotomy i j with h | h | h
  · exact key i j hi hj h
  · rw [h]
  · exact (key j i hj hi h).symm

/-- Away from the first node the result is the piecewise linear function, continued beyond both
ends, and no element outside of the arrays is read. -/
theorem lp1d_linear_partial (len : ℕ) (hl : 2 ≤ len) (X Y : Int → K) (hX : Spec.Increasing len X)
    (x : K) (hx : x ≠ X 0) (i : Int) (hi : Spec.InCell X len i x) :
    lp1d len X Y x = some (Spec.lin (X i) (X (i + 1)) (Y i) (Y (i + 1)) x) := by
  have hc := index_cell len hl X hX x hx
  obtain ⟨h0, h1, -, -⟩ := id hc
  unfold lp1d
  simp only [get, Option.bind_eq_bind]
  rw [if_pos (by omega), if_pos (by omega)]
  simp only [Option.bind_some]
  rw [if_pos (by omega), if_pos (by omega)]
  simp only [Option.bind_some]
  change some _ = some _
  rw [linear_eq (hX _ _ h0 (by omega) (by omega)), cells_agree hX hc hi]

/-- Finding F93: at the first node the index is -1, and an element before the arrays is read. -/
theorem lp1d_first_node (len : ℕ) (hl : 2 ≤ len) (X Y : Int → K) (hX : Spec.Increasing len X) :
    index len X (X 0) = -1 ∧ lp1d len X Y (X 0) = none := by
  have e : index len X (X 0) = -1 := by
    unfold index
    rw [if_neg (lt_irrefl _),
      if_neg (not_lt.2 (hX 0 (len - 1) le_rfl (by omega) (by omega)).le)]
    obtain ⟨m, hm⟩ : ∃ m, len - 1 = m + 1 := ⟨len - 2, by omega⟩
    rw [hm, scan, if_neg (lt_irrefl _)]
    rfl
  refine ⟨e, ?_⟩
  unfold lp1d
  rw [e]
  simp [get]

/-- Away from the first node in both directions the result is the piecewise bilinear function. -/
theorem lp2d_bilinear_partial (lenx leny : ℕ) (hlx : 2 ≤ lenx) (hly : 2 ≤ leny)
    (X Y D : Int → K) (hX : Spec.Increasing lenx X) (hY : Spec.Increasing leny Y) (x y : K)
    (hx : x ≠ X 0) (hy : y ≠ Y 0) (i j : Int) (hi : Spec.InCell X lenx i x)
    (hj : Spec.InCell Y leny j y) :
    lp2d lenx leny X Y D x y =
      some (Spec.bilin Y X (fun j i => D (j * lenx + i)) j i y x) := by
  have cx := index_cell lenx hlx X hX x hx
  have cy := index_cell leny hly Y hY y hy
  obtain ⟨x0, x1, -, -⟩ := id cx
  obtain ⟨y0, y1, -, -⟩ := id cy
  have bound : ∀ k l : Int, 0 ≤ k → k < leny → 0 ≤ l → l < lenx →
      0 ≤ k * lenx + l ∧ k * lenx + l < leny * lenx := by
    intro k l k0 k1 l0 l1
    constructor
    · have := mul_nonneg k0 (by omega : (0 : Int) ≤ lenx)
      omega
    · have h := mul_le_mul_of_nonneg_right (by omega : k + 1 ≤ leny) (by omega : (0 : Int) ≤ lenx)
      have e : (k + 1) * (lenx : Int) = k * lenx + lenx := by ring
      rw [e] at h
      omega
  unfold lp2d
  simp only [get, Option.bind_eq_bind]
  rw [if_pos (by omega), if_pos (by omega)]
  simp only [Option.bind_some]
  rw [if_pos (bound _ _ y0 (by omega) x0 (by omega))]
  simp only [Option.bind_some, add_assoc (_ * _)]
  rw [if_pos (bound _ _ y0 (by omega) (by omega) (by omega))]
  simp only [Option.bind_some]
  rw [if_pos (bound _ _ (by omega) (by omega) x0 (by omega))]
  simp only [Option.bind_some]
  rw [if_pos (bound _ _ (by omega) (by omega) (by omega) (by omega)), if_pos (by omega),
    if_pos (by omega)]
  simp only [Option.bind_some]
  change some _ = some _
  rw [linear_eq (hX _ _ x0 (by omega) (by omega)), linear_eq (hX _ _ x0 (by omega) (by omega)),
    linear_eq (hY _ _ y0 (by omega) (by omega))]
  unfold Spec.bilin
  rw [cells_agree hX cx hi (fun k => D (index leny Y y * lenx + k)),
    cells_agree hX cx hi (fun k => D ((index leny Y y + 1) * lenx + k)),
    cells_agree hY cy hj (fun m => Spec.lin (X i) (X (i + 1)) (D (m * lenx + i))
      (D (m * lenx + (i + 1))) x)]

/-! ### Concrete cases -/

/-- A table of 3 times 2 numbers. -/
def sample : Table ℚ := ⟨3, 2, 0, 4, 1, 2, fun i j => i * i + 10 * j⟩

example : sample.Ok ∧ sample.Within 3 (3 / 2) ∧ sample.Within (-1) 5 := by
  unfold Table.Ok Table.Within Spec.Fits sample
  norm_num

example : Spec.InCell (Spec.nodes sample.nx2 sample.x2min sample.x2max) sample.nx2 1 3 ∧
    Spec.InCell (Spec.nodes sample.nx2 sample.x2min sample.x2max) sample.nx2 0 (-1) := by
  unfold Spec.InCell Spec.nodes sample
  norm_num

example : interpolate sample 3 (3 / 2) = some (15 / 2) := by decide +kernel

example : Spec.Increasing 3 (fun i : Int => (i : ℚ) * i) ∧
    lp1d 3 (fun i : Int => (i : ℚ) * i) (fun i => 2 * i) 3 = some (10 / 3) ∧
    lp1d 3 (fun i : Int => (i : ℚ) * i) (fun i => 2 * i) 0 = none := by
  refine ⟨?_, by decide +kernel, by decide +kernel⟩
  intro i j h0 hij hj
  have h1 : (i : ℚ) < j := by exact_mod_cast hij
  have h2 : (0 : ℚ) ≤ i := by exact_mod_cast h0
  show (i : ℚ) * i < j * j
  nlinarith

end Verif.Interp
