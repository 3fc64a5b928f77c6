import Verif.Lemmas.EmfExchange
import Mathlib.Tactic.NormNum
import Mathlib.Algebra.BigOperators.Group.Finset.Piecewise
import Mathlib.Algebra.BigOperators.Ring.Finset

set_option linter.unusedSimpArgs false
set_option linter.unusedVariables false

namespace Verif.Emf

open Verif.Grid (Dims)
open Spec

variable {K : Type} [Field K] {d : Dims}

/-- One coordinate of the blocks that have a face of the mesh. -/
theorem across {n a r : Int} (hn : 0 < n) (h0 : 0 ≤ r) (h1 : r ≤ n) (x : Int) :
    (n * x ≤ n * a + r ∧ n * a + r ≤ n * x + n) ↔
      x = a ∨ (r = 0 ∧ x = a - 1) ∨ (r = n ∧ x = a + 1) := by
  constructor
  · rintro ⟨p, q⟩
    have u : x ≤ a + 1 := by
      by_contra h
      have : n * (a + 2) ≤ n * x := Int.mul_le_mul_of_nonneg_left (by omega) hn.le
      nlinarith
    have v : a - 1 ≤ x := by
      by_contra h
      have : n * x ≤ n * (a - 2) := Int.mul_le_mul_of_nonneg_left (by omega) hn.le
      nlinarith
    have : x = a - 1 ∨ x = a ∨ x = a + 1 := by omega
    rcases this with h | h | h
    · subst h
      refine Or.inr (Or.inl ⟨?_, rfl⟩)
      have e : n * (a - 1) = n * a - n := by ring
      omega
    · exact Or.inl h
    · subst h
      refine Or.inr (Or.inr ⟨?_, rfl⟩)
      have e : n * (a + 1) = n * a + n := by ring
      omega
  · rintro (h | ⟨h, h'⟩ | ⟨h, h'⟩)
    · subst h; omega
    · subst h'
      have e : n * (a - 1) = n * a - n := by ring
      omega
    · subst h'
      have e : n * (a + 1) = n * a + n := by ring
      omega

theorem along {n a r : Int} (h0 : 0 ≤ r) (h1 : r ≤ n - 1) (x : Int) :
    (n * x ≤ n * a + r ∧ n * a + r ≤ n * x + n - 1) ↔ x = a := by
  constructor
  · rintro ⟨p, q⟩
    have hn : 0 < n := by omega
    have u : x ≤ a := by
      by_contra h
      have : n * (a + 1) ≤ n * x := Int.mul_le_mul_of_nonneg_left (by omega) hn.le
      nlinarith
    have v : a ≤ x := by
      by_contra h
      have : n * x ≤ n * (a - 1) := Int.mul_le_mul_of_nonneg_left (by omega) hn.le
      nlinarith
    omega
  · rintro h
    subst h; omega

theorem place_shift (c : Fin 3) (g : Int × Int × Int) (l o : Loc) :
    move d o (place d c g l) = place d c g (shiftLoc l o) := by
  unfold move place shiftLoc
  simp only [Prod.mk.injEq, true_and]
  refine ⟨?_, ?_, ?_⟩ <;> ring

theorem mean1 (M : Mesh) (f : Loc → K) (l : Loc) (hl : M l = true) (S : Finset Loc)
    (hS : ∀ x, x ∈ S ↔ M x = true ∧ x = l) : f l = (∑ x ∈ S, f x) / (S.card : K) := by
  have : S = {l} := by
    ext x
    rw [hS, Finset.mem_singleton]
    constructor
    · exact fun h => h.2
    · rintro rfl; exact ⟨hl, rfl⟩
  rw [this]
  simp

theorem mean2 (M : Mesh) (f : Loc → K) (l m : Loc) (hl : M l = true) (hm : l ≠ m) (S : Finset Loc)
    (hS : ∀ x, x ∈ S ↔ M x = true ∧ (x = l ∨ x = m)) :
    (f l + if M m = true then f m else 0) * (if M m = true then 1 / 2 else 1) =
      (∑ x ∈ S, f x) / (S.card : K) := by
  have : S = ({l, m} : Finset Loc).filter (fun x => M x = true) := by
    ext x
    rw [hS, Finset.mem_filter]
    simp only [Finset.mem_insert, Finset.mem_singleton]
    tauto
  rw [this, Finset.sum_filter, Finset.card_filter, Finset.sum_pair hm, Finset.sum_pair hm,
    if_pos hl, if_pos hl]
  by_cases h : M m = true
  · rw [if_pos h, if_pos h, if_pos h]; push_cast; ring
  · rw [if_neg h, if_neg h, if_neg h]; simp

theorem mean4 (M : Mesh) (f : Loc → K) (l m n q : Loc) (hl : M l = true)
    (h1 : l ≠ m) (h2 : l ≠ n) (h3 : l ≠ q) (h4 : m ≠ n) (h5 : m ≠ q) (h6 : n ≠ q)
    (S : Finset Loc)
    (hS : ∀ x, x ∈ S ↔ M x = true ∧ (x = l ∨ x = m ∨ x = n ∨ x = q)) :
    (f l + ((if M m = true then f m else 0) + ((if M n = true then f n else 0) +
      (if M q = true then f q else 0)))) *
      (1 / (((if M l = true then 1 else 0) + (if M m = true then 1 else 0) +
        (if M n = true then 1 else 0) + (if M q = true then 1 else 0) : ℕ) : K)) =
      (∑ x ∈ S, f x) / (S.card : K) := by
  have : S = ({l, m, n, q} : Finset Loc).filter (fun x => M x = true) := by
    ext x
    rw [hS, Finset.mem_filter]
    simp only [Finset.mem_insert, Finset.mem_singleton]
    tauto
  rw [this, Finset.sum_filter, Finset.card_filter]
  rw [Finset.sum_insert (by simp [h1, h2, h3]), Finset.sum_insert (by simp [h4, h5]),
    Finset.sum_pair h6, Finset.sum_insert (by simp [h1, h2, h3]),
    Finset.sum_insert (by simp [h4, h5]), Finset.sum_pair h6]
  simp only [if_pos hl]
  rw [mul_one_div]
  congr 2
  ring

/-- The exchange at an element of component 0, case by case. -/
theorem closed_0 (h1 : 0 < d.nx1) (h2 : 1 < d.nx2) (h3 : 1 < d.nx3) (M : Mesh) (E : Loc → EField K) (l : Loc)
    {k j i : Int} (i1 : d.is ≤ i) (i2 : i ≤ d.ie)
    (j1 : d.js ≤ j) (j2 : j ≤ d.je + 1) (k1 : d.ks ≤ k) (k2 : k ≤ d.ke + 1) :
    exchange d M E l (0, k, j, i) =
    if j = d.js then
      if k = d.ks then (E l (0, k, j, i) + ((if M (shiftLoc l (off (.face 2))) = true then E (shiftLoc l (off (.face 2))) (move d (off (.face 2)) (0, k, j, i)) else 0) + ((if M (shiftLoc l (off (.face 4))) = true then E (shiftLoc l (off (.face 4))) (move d (off (.face 4)) (0, k, j, i)) else 0) + (if M (shiftLoc l (off (.edge 8))) = true then E (shiftLoc l (off (.edge 8))) (move d (off (.edge 8)) (0, k, j, i)) else 0)))) * (1 / (count M l 8 : K))
      else if k = d.ke + 1 then (E l (0, k, j, i) + ((if M (shiftLoc l (off (.face 2))) = true then E (shiftLoc l (off (.face 2))) (move d (off (.face 2)) (0, k, j, i)) else 0) + ((if M (shiftLoc l (off (.face 5))) = true then E (shiftLoc l (off (.face 5))) (move d (off (.face 5)) (0, k, j, i)) else 0) + (if M (shiftLoc l (off (.edge 10))) = true then E (shiftLoc l (off (.edge 10))) (move d (off (.edge 10)) (0, k, j, i)) else 0)))) * (1 / (count M l 10 : K))
      else (E l (0, k, j, i) + (if M (shiftLoc l (off (.face 2))) = true then E (shiftLoc l (off (.face 2))) (move d (off (.face 2)) (0, k, j, i)) else 0)) * (if M (shiftLoc l (off (.face 2))) = true then 1 / 2 else 1)
    else     if j = d.je + 1 then
      if k = d.ks then (E l (0, k, j, i) + ((if M (shiftLoc l (off (.face 3))) = true then E (shiftLoc l (off (.face 3))) (move d (off (.face 3)) (0, k, j, i)) else 0) + ((if M (shiftLoc l (off (.face 4))) = true then E (shiftLoc l (off (.face 4))) (move d (off (.face 4)) (0, k, j, i)) else 0) + (if M (shiftLoc l (off (.edge 9))) = true then E (shiftLoc l (off (.edge 9))) (move d (off (.edge 9)) (0, k, j, i)) else 0)))) * (1 / (count M l 9 : K))
      else if k = d.ke + 1 then (E l (0, k, j, i) + ((if M (shiftLoc l (off (.face 3))) = true then E (shiftLoc l (off (.face 3))) (move d (off (.face 3)) (0, k, j, i)) else 0) + ((if M (shiftLoc l (off (.face 5))) = true then E (shiftLoc l (off (.face 5))) (move d (off (.face 5)) (0, k, j, i)) else 0) + (if M (shiftLoc l (off (.edge 11))) = true then E (shiftLoc l (off (.edge 11))) (move d (off (.edge 11)) (0, k, j, i)) else 0)))) * (1 / (count M l 11 : K))
      else (E l (0, k, j, i) + (if M (shiftLoc l (off (.face 3))) = true then E (shiftLoc l (off (.face 3))) (move d (off (.face 3)) (0, k, j, i)) else 0)) * (if M (shiftLoc l (off (.face 3))) = true then 1 / 2 else 1)
    else if k = d.ks then (E l (0, k, j, i) + (if M (shiftLoc l (off (.face 4))) = true then E (shiftLoc l (off (.face 4))) (move d (off (.face 4)) (0, k, j, i)) else 0)) * (if M (shiftLoc l (off (.face 4))) = true then 1 / 2 else 1)
    else if k = d.ke + 1 then (E l (0, k, j, i) + (if M (shiftLoc l (off (.face 5))) = true then E (shiftLoc l (off (.face 5))) (move d (off (.face 5)) (0, k, j, i)) else 0)) * (if M (shiftLoc l (off (.face 5))) = true then 1 / 2 else 1)
    else E l (0, k, j, i) := by
  have ha : d.je + 1 ≠ d.js := by
    have := je_eq h2
    omega
  have hb : d.ke + 1 ≠ d.ks := by
    have := ke_eq h3
    omega
  obtain ⟨s1, s2, s3, s4, s5, s6, s7, s8, s9, s10, s11, s12, s13, s14, s15, s16, s17, s18⟩ :=
    set_0 (d := d) i1 i2 j1 j2 k1 k2
  obtain ⟨t1, t2, t3, t4, t5, t6, t7, t8, t9, t10, t11, t12, t13, t14, t15, t16, t17, t18⟩ :=
    avg_0 (d := d) i1 i2 j1 j2 k1 k2
  unfold exchange
  rw [average_eq, receive_eq h2 h3, nbs_eq, fin6, fin12]
  simp only [List.map_cons, List.map_nil, List.sum_cons, List.sum_nil, List.prod_cons,
    List.prod_nil, term, facF, facE, s1, s2, s3, s4, s5, s6, s7, s8, s9, s10, s11, s12, s13, s14,
    s15, s16, s17, s18, t1, t2, t3, t4, t5, t6, t7, t8, t9, t10, t11, t12, t13, t14, t15, t16, t17,
    t18, and_false, if_false, mul_one, one_mul, zero_add, add_zero]
  clear s1 s2 s3 s4 s5 s6 s7 s8 s9 s10 s11 s12 s13 s14 s15 s16 s17 s18
  clear t1 t2 t3 t4 t5 t6 t7 t8 t9 t10 t11 t12 t13 t14 t15 t16 t17 t18
  by_cases p1 : j = d.js
  · have p2 : j ≠ d.je + 1 := fun e => ha (e.symm.trans p1)
    by_cases q1 : k = d.ks
    · have q2 : k ≠ d.ke + 1 := fun e => hb (e.symm.trans q1)
      simp [p1, q1, ha, hb, ha.symm, hb.symm]
    · by_cases q2 : k = d.ke + 1 <;> simp [p1, q1, q2, ha, hb, ha.symm, hb.symm]
  · by_cases p2 : j = d.je + 1 <;>
    · by_cases q1 : k = d.ks
      · simp [p1, p2, q1, ha, hb, ha.symm, hb.symm]
      · by_cases q2 : k = d.ke + 1 <;> simp [p1, p2, q1, q2, ha, hb, ha.symm, hb.symm]

/-- The exchange at an element of component 1, case by case. -/
theorem closed_1 (h1 : 0 < d.nx1) (h2 : 1 < d.nx2) (h3 : 1 < d.nx3) (M : Mesh) (E : Loc → EField K) (l : Loc)
    {k j i : Int} (j1 : d.js ≤ j) (j2 : j ≤ d.je)
    (i1 : d.is ≤ i) (i2 : i ≤ d.ie + 1) (k1 : d.ks ≤ k) (k2 : k ≤ d.ke + 1) :
    exchange d M E l (1, k, j, i) =
    if i = d.is then
      if k = d.ks then (E l (1, k, j, i) + ((if M (shiftLoc l (off (.face 0))) = true then E (shiftLoc l (off (.face 0))) (move d (off (.face 0)) (1, k, j, i)) else 0) + ((if M (shiftLoc l (off (.face 4))) = true then E (shiftLoc l (off (.face 4))) (move d (off (.face 4)) (1, k, j, i)) else 0) + (if M (shiftLoc l (off (.edge 4))) = true then E (shiftLoc l (off (.edge 4))) (move d (off (.edge 4)) (1, k, j, i)) else 0)))) * (1 / (count M l 4 : K))
      else if k = d.ke + 1 then (E l (1, k, j, i) + ((if M (shiftLoc l (off (.face 0))) = true then E (shiftLoc l (off (.face 0))) (move d (off (.face 0)) (1, k, j, i)) else 0) + ((if M (shiftLoc l (off (.face 5))) = true then E (shiftLoc l (off (.face 5))) (move d (off (.face 5)) (1, k, j, i)) else 0) + (if M (shiftLoc l (off (.edge 6))) = true then E (shiftLoc l (off (.edge 6))) (move d (off (.edge 6)) (1, k, j, i)) else 0)))) * (1 / (count M l 6 : K))
      else (E l (1, k, j, i) + (if M (shiftLoc l (off (.face 0))) = true then E (shiftLoc l (off (.face 0))) (move d (off (.face 0)) (1, k, j, i)) else 0)) * (if M (shiftLoc l (off (.face 0))) = true then 1 / 2 else 1)
    else     if i = d.ie + 1 then
      if k = d.ks then (E l (1, k, j, i) + ((if M (shiftLoc l (off (.face 1))) = true then E (shiftLoc l (off (.face 1))) (move d (off (.face 1)) (1, k, j, i)) else 0) + ((if M (shiftLoc l (off (.face 4))) = true then E (shiftLoc l (off (.face 4))) (move d (off (.face 4)) (1, k, j, i)) else 0) + (if M (shiftLoc l (off (.edge 5))) = true then E (shiftLoc l (off (.edge 5))) (move d (off (.edge 5)) (1, k, j, i)) else 0)))) * (1 / (count M l 5 : K))
      else if k = d.ke + 1 then (E l (1, k, j, i) + ((if M (shiftLoc l (off (.face 1))) = true then E (shiftLoc l (off (.face 1))) (move d (off (.face 1)) (1, k, j, i)) else 0) + ((if M (shiftLoc l (off (.face 5))) = true then E (shiftLoc l (off (.face 5))) (move d (off (.face 5)) (1, k, j, i)) else 0) + (if M (shiftLoc l (off (.edge 7))) = true then E (shiftLoc l (off (.edge 7))) (move d (off (.edge 7)) (1, k, j, i)) else 0)))) * (1 / (count M l 7 : K))
      else (E l (1, k, j, i) + (if M (shiftLoc l (off (.face 1))) = true then E (shiftLoc l (off (.face 1))) (move d (off (.face 1)) (1, k, j, i)) else 0)) * (if M (shiftLoc l (off (.face 1))) = true then 1 / 2 else 1)
    else if k = d.ks then (E l (1, k, j, i) + (if M (shiftLoc l (off (.face 4))) = true then E (shiftLoc l (off (.face 4))) (move d (off (.face 4)) (1, k, j, i)) else 0)) * (if M (shiftLoc l (off (.face 4))) = true then 1 / 2 else 1)
    else if k = d.ke + 1 then (E l (1, k, j, i) + (if M (shiftLoc l (off (.face 5))) = true then E (shiftLoc l (off (.face 5))) (move d (off (.face 5)) (1, k, j, i)) else 0)) * (if M (shiftLoc l (off (.face 5))) = true then 1 / 2 else 1)
    else E l (1, k, j, i) := by
  have ha : d.ie + 1 ≠ d.is := by
    have := ie_eq d
    omega
  have hb : d.ke + 1 ≠ d.ks := by
    have := ke_eq h3
    omega
  obtain ⟨s1, s2, s3, s4, s5, s6, s7, s8, s9, s10, s11, s12, s13, s14, s15, s16, s17, s18⟩ :=
    set_1 (d := d) j1 j2 i1 i2 k1 k2
  obtain ⟨t1, t2, t3, t4, t5, t6, t7, t8, t9, t10, t11, t12, t13, t14, t15, t16, t17, t18⟩ :=
    avg_1 (d := d) j1 j2 i1 i2 k1 k2
  unfold exchange
  rw [average_eq, receive_eq h2 h3, nbs_eq, fin6, fin12]
  simp only [List.map_cons, List.map_nil, List.sum_cons, List.sum_nil, List.prod_cons,
    List.prod_nil, term, facF, facE, s1, s2, s3, s4, s5, s6, s7, s8, s9, s10, s11, s12, s13, s14,
    s15, s16, s17, s18, t1, t2, t3, t4, t5, t6, t7, t8, t9, t10, t11, t12, t13, t14, t15, t16, t17,
    t18, and_false, if_false, mul_one, one_mul, zero_add, add_zero]
  clear s1 s2 s3 s4 s5 s6 s7 s8 s9 s10 s11 s12 s13 s14 s15 s16 s17 s18
  clear t1 t2 t3 t4 t5 t6 t7 t8 t9 t10 t11 t12 t13 t14 t15 t16 t17 t18
  by_cases p1 : i = d.is
  · have p2 : i ≠ d.ie + 1 := fun e => ha (e.symm.trans p1)
    by_cases q1 : k = d.ks
    · have q2 : k ≠ d.ke + 1 := fun e => hb (e.symm.trans q1)
      simp [p1, q1, ha, hb, ha.symm, hb.symm]
    · by_cases q2 : k = d.ke + 1 <;> simp [p1, q1, q2, ha, hb, ha.symm, hb.symm]
  · by_cases p2 : i = d.ie + 1 <;>
    · by_cases q1 : k = d.ks
      · simp [p1, p2, q1, ha, hb, ha.symm, hb.symm]
      · by_cases q2 : k = d.ke + 1 <;> simp [p1, p2, q1, q2, ha, hb, ha.symm, hb.symm]

/-- The exchange at an element of component 2, case by case. -/
theorem closed_2 (h1 : 0 < d.nx1) (h2 : 1 < d.nx2) (h3 : 1 < d.nx3) (M : Mesh) (E : Loc → EField K) (l : Loc)
    {k j i : Int} (k1 : d.ks ≤ k) (k2 : k ≤ d.ke)
    (i1 : d.is ≤ i) (i2 : i ≤ d.ie + 1) (j1 : d.js ≤ j) (j2 : j ≤ d.je + 1) :
    exchange d M E l (2, k, j, i) =
    if i = d.is then
      if j = d.js then (E l (2, k, j, i) + ((if M (shiftLoc l (off (.face 0))) = true then E (shiftLoc l (off (.face 0))) (move d (off (.face 0)) (2, k, j, i)) else 0) + ((if M (shiftLoc l (off (.face 2))) = true then E (shiftLoc l (off (.face 2))) (move d (off (.face 2)) (2, k, j, i)) else 0) + (if M (shiftLoc l (off (.edge 0))) = true then E (shiftLoc l (off (.edge 0))) (move d (off (.edge 0)) (2, k, j, i)) else 0)))) * (1 / (count M l 0 : K))
      else if j = d.je + 1 then (E l (2, k, j, i) + ((if M (shiftLoc l (off (.face 0))) = true then E (shiftLoc l (off (.face 0))) (move d (off (.face 0)) (2, k, j, i)) else 0) + ((if M (shiftLoc l (off (.face 3))) = true then E (shiftLoc l (off (.face 3))) (move d (off (.face 3)) (2, k, j, i)) else 0) + (if M (shiftLoc l (off (.edge 2))) = true then E (shiftLoc l (off (.edge 2))) (move d (off (.edge 2)) (2, k, j, i)) else 0)))) * (1 / (count M l 2 : K))
      else (E l (2, k, j, i) + (if M (shiftLoc l (off (.face 0))) = true then E (shiftLoc l (off (.face 0))) (move d (off (.face 0)) (2, k, j, i)) else 0)) * (if M (shiftLoc l (off (.face 0))) = true then 1 / 2 else 1)
    else     if i = d.ie + 1 then
      if j = d.js then (E l (2, k, j, i) + ((if M (shiftLoc l (off (.face 1))) = true then E (shiftLoc l (off (.face 1))) (move d (off (.face 1)) (2, k, j, i)) else 0) + ((if M (shiftLoc l (off (.face 2))) = true then E (shiftLoc l (off (.face 2))) (move d (off (.face 2)) (2, k, j, i)) else 0) + (if M (shiftLoc l (off (.edge 1))) = true then E (shiftLoc l (off (.edge 1))) (move d (off (.edge 1)) (2, k, j, i)) else 0)))) * (1 / (count M l 1 : K))
      else if j = d.je + 1 then (E l (2, k, j, i) + ((if M (shiftLoc l (off (.face 1))) = true then E (shiftLoc l (off (.face 1))) (move d (off (.face 1)) (2, k, j, i)) else 0) + ((if M (shiftLoc l (off (.face 3))) = true then E (shiftLoc l (off (.face 3))) (move d (off (.face 3)) (2, k, j, i)) else 0) + (if M (shiftLoc l (off (.edge 3))) = true then E (shiftLoc l (off (.edge 3))) (move d (off (.edge 3)) (2, k, j, i)) else 0)))) * (1 / (count M l 3 : K))
      else (E l (2, k, j, i) + (if M (shiftLoc l (off (.face 1))) = true then E (shiftLoc l (off (.face 1))) (move d (off (.face 1)) (2, k, j, i)) else 0)) * (if M (shiftLoc l (off (.face 1))) = true then 1 / 2 else 1)
    else if j = d.js then (E l (2, k, j, i) + (if M (shiftLoc l (off (.face 2))) = true then E (shiftLoc l (off (.face 2))) (move d (off (.face 2)) (2, k, j, i)) else 0)) * (if M (shiftLoc l (off (.face 2))) = true then 1 / 2 else 1)
    else if j = d.je + 1 then (E l (2, k, j, i) + (if M (shiftLoc l (off (.face 3))) = true then E (shiftLoc l (off (.face 3))) (move d (off (.face 3)) (2, k, j, i)) else 0)) * (if M (shiftLoc l (off (.face 3))) = true then 1 / 2 else 1)
    else E l (2, k, j, i) := by
  have ha : d.ie + 1 ≠ d.is := by
    have := ie_eq d
    omega
  have hb : d.je + 1 ≠ d.js := by
    have := je_eq h2
    omega
  obtain ⟨s1, s2, s3, s4, s5, s6, s7, s8, s9, s10, s11, s12, s13, s14, s15, s16, s17, s18⟩ :=
    set_2 (d := d) k1 k2 i1 i2 j1 j2
  obtain ⟨t1, t2, t3, t4, t5, t6, t7, t8, t9, t10, t11, t12, t13, t14, t15, t16, t17, t18⟩ :=
    avg_2 (d := d) k1 k2 i1 i2 j1 j2
  unfold exchange
  rw [average_eq, receive_eq h2 h3, nbs_eq, fin6, fin12]
  simp only [List.map_cons, List.map_nil, List.sum_cons, List.sum_nil, List.prod_cons,
    List.prod_nil, term, facF, facE, s1, s2, s3, s4, s5, s6, s7, s8, s9, s10, s11, s12, s13, s14,
    s15, s16, s17, s18, t1, t2, t3, t4, t5, t6, t7, t8, t9, t10, t11, t12, t13, t14, t15, t16, t17,
    t18, and_false, if_false, mul_one, one_mul, zero_add, add_zero]
  clear s1 s2 s3 s4 s5 s6 s7 s8 s9 s10 s11 s12 s13 s14 s15 s16 s17 s18
  clear t1 t2 t3 t4 t5 t6 t7 t8 t9 t10 t11 t12 t13 t14 t15 t16 t17 t18
  by_cases p1 : i = d.is
  · have p2 : i ≠ d.ie + 1 := fun e => ha (e.symm.trans p1)
    by_cases q1 : j = d.js
    · have q2 : j ≠ d.je + 1 := fun e => hb (e.symm.trans q1)
      simp [p1, q1, ha, hb, ha.symm, hb.symm]
    · by_cases q2 : j = d.je + 1 <;> simp [p1, q1, q2, ha, hb, ha.symm, hb.symm]
  · by_cases p2 : i = d.ie + 1 <;>
    · by_cases q1 : j = d.js
      · simp [p1, p2, q1, ha, hb, ha.symm, hb.symm]
      · by_cases q2 : j = d.je + 1 <;> simp [p1, p2, q1, q2, ha, hb, ha.symm, hb.symm]

theorem off_f0 : off (.face 0) = (-1, 0, 0) := rfl
theorem off_f1 : off (.face 1) = (1, 0, 0) := rfl
theorem off_f2 : off (.face 2) = (0, -1, 0) := rfl
theorem off_f3 : off (.face 3) = (0, 1, 0) := rfl
theorem off_f4 : off (.face 4) = (0, 0, -1) := rfl
theorem off_f5 : off (.face 5) = (0, 0, 1) := rfl
theorem off_e0 : off (.edge 0) = (-1, -1, 0) := rfl
theorem off_e1 : off (.edge 1) = (1, -1, 0) := rfl
theorem off_e2 : off (.edge 2) = (-1, 1, 0) := rfl
theorem off_e3 : off (.edge 3) = (1, 1, 0) := rfl
theorem off_e4 : off (.edge 4) = (-1, 0, -1) := rfl
theorem off_e5 : off (.edge 5) = (1, 0, -1) := rfl
theorem off_e6 : off (.edge 6) = (-1, 0, 1) := rfl
theorem off_e7 : off (.edge 7) = (1, 0, 1) := rfl
theorem off_e8 : off (.edge 8) = (0, -1, -1) := rfl
theorem off_e9 : off (.edge 9) = (0, 1, -1) := rfl
theorem off_e10 : off (.edge 10) = (0, -1, 1) := rfl
theorem off_e11 : off (.edge 11) = (0, 1, 1) := rfl

theorem shift_zero (l : Loc) : shiftLoc l (0, 0, 0) = l := by
  simp [shiftLoc]

theorem count_8 (M : Mesh) (l : Loc) : count M l 8 =
    (if M l = true then 1 else 0) + (if M (shiftLoc l (off (.face 2))) = true then 1 else 0) +
    (if M (shiftLoc l (off (.face 4))) = true then 1 else 0) +
    (if M (shiftLoc l (off (.edge 8))) = true then 1 else 0) := by
  simp [count, off_f2, off_f4, off_e8, shift_zero]
  rfl

theorem count_9 (M : Mesh) (l : Loc) : count M l 9 =
    (if M l = true then 1 else 0) + (if M (shiftLoc l (off (.face 3))) = true then 1 else 0) +
    (if M (shiftLoc l (off (.face 4))) = true then 1 else 0) +
    (if M (shiftLoc l (off (.edge 9))) = true then 1 else 0) := by
  simp [count, off_f3, off_f4, off_e9, shift_zero]
  rfl

theorem count_10 (M : Mesh) (l : Loc) : count M l 10 =
    (if M l = true then 1 else 0) + (if M (shiftLoc l (off (.face 2))) = true then 1 else 0) +
    (if M (shiftLoc l (off (.face 5))) = true then 1 else 0) +
    (if M (shiftLoc l (off (.edge 10))) = true then 1 else 0) := by
  simp [count, off_f2, off_f5, off_e10, shift_zero]
  rfl

theorem count_11 (M : Mesh) (l : Loc) : count M l 11 =
    (if M l = true then 1 else 0) + (if M (shiftLoc l (off (.face 3))) = true then 1 else 0) +
    (if M (shiftLoc l (off (.face 5))) = true then 1 else 0) +
    (if M (shiftLoc l (off (.edge 11))) = true then 1 else 0) := by
  simp [count, off_f3, off_f5, off_e11, shift_zero]
  rfl

theorem count_4 (M : Mesh) (l : Loc) : count M l 4 =
    (if M l = true then 1 else 0) + (if M (shiftLoc l (off (.face 0))) = true then 1 else 0) +
    (if M (shiftLoc l (off (.face 4))) = true then 1 else 0) +
    (if M (shiftLoc l (off (.edge 4))) = true then 1 else 0) := by
  simp [count, off_f0, off_f4, off_e4, shift_zero]
  rfl

theorem count_5 (M : Mesh) (l : Loc) : count M l 5 =
    (if M l = true then 1 else 0) + (if M (shiftLoc l (off (.face 1))) = true then 1 else 0) +
    (if M (shiftLoc l (off (.face 4))) = true then 1 else 0) +
    (if M (shiftLoc l (off (.edge 5))) = true then 1 else 0) := by
  simp [count, off_f1, off_f4, off_e5, shift_zero]
  rfl

theorem count_6 (M : Mesh) (l : Loc) : count M l 6 =
    (if M l = true then 1 else 0) + (if M (shiftLoc l (off (.face 0))) = true then 1 else 0) +
    (if M (shiftLoc l (off (.face 5))) = true then 1 else 0) +
    (if M (shiftLoc l (off (.edge 6))) = true then 1 else 0) := by
  simp [count, off_f0, off_f5, off_e6, shift_zero]
  rfl

theorem count_7 (M : Mesh) (l : Loc) : count M l 7 =
    (if M l = true then 1 else 0) + (if M (shiftLoc l (off (.face 1))) = true then 1 else 0) +
    (if M (shiftLoc l (off (.face 5))) = true then 1 else 0) +
    (if M (shiftLoc l (off (.edge 7))) = true then 1 else 0) := by
  simp [count, off_f1, off_f5, off_e7, shift_zero]
  rfl

theorem count_0 (M : Mesh) (l : Loc) : count M l 0 =
    (if M l = true then 1 else 0) + (if M (shiftLoc l (off (.face 0))) = true then 1 else 0) +
    (if M (shiftLoc l (off (.face 2))) = true then 1 else 0) +
    (if M (shiftLoc l (off (.edge 0))) = true then 1 else 0) := by
  simp [count, off_f0, off_f2, off_e0, shift_zero]
  rfl

theorem count_1 (M : Mesh) (l : Loc) : count M l 1 =
    (if M l = true then 1 else 0) + (if M (shiftLoc l (off (.face 1))) = true then 1 else 0) +
    (if M (shiftLoc l (off (.face 2))) = true then 1 else 0) +
    (if M (shiftLoc l (off (.edge 1))) = true then 1 else 0) := by
  simp [count, off_f1, off_f2, off_e1, shift_zero]
  rfl

theorem count_2 (M : Mesh) (l : Loc) : count M l 2 =
    (if M l = true then 1 else 0) + (if M (shiftLoc l (off (.face 0))) = true then 1 else 0) +
    (if M (shiftLoc l (off (.face 3))) = true then 1 else 0) +
    (if M (shiftLoc l (off (.edge 2))) = true then 1 else 0) := by
  simp [count, off_f0, off_f3, off_e2, shift_zero]
  rfl

theorem count_3 (M : Mesh) (l : Loc) : count M l 3 =
    (if M l = true then 1 else 0) + (if M (shiftLoc l (off (.face 1))) = true then 1 else 0) +
    (if M (shiftLoc l (off (.face 3))) = true then 1 else 0) +
    (if M (shiftLoc l (off (.edge 3))) = true then 1 else 0) := by
  simp [count, off_f1, off_f3, off_e3, shift_zero]
  rfl

theorem mean_0 (h1 : 0 < d.nx1) (h2 : 1 < d.nx2) (h3 : 1 < d.nx3) (M : Mesh) (E : Loc → EField K) (l : Loc)
    (hl : M l = true) (g : Int × Int × Int) (hh : Holds d 0 g l) (S : Finset Loc)
    (hS : ∀ x, x ∈ S ↔ M x = true ∧ Holds d 0 g x) :
    exchange d M E l (place d 0 g l) = (∑ x ∈ S, E x (place d 0 g x)) / (S.card : K) := by
  obtain ⟨g3, g2, g1⟩ := g
  obtain ⟨l1, l2, l3⟩ := l
  obtain ⟨r1, rfl⟩ : ∃ r, g1 = d.nx1 * l1 + r := ⟨g1 - d.nx1 * l1, by ring⟩
  obtain ⟨r2, rfl⟩ : ∃ r, g2 = d.nx2 * l2 + r := ⟨g2 - d.nx2 * l2, by ring⟩
  obtain ⟨r3, rfl⟩ : ∃ r, g3 = d.nx3 * l3 + r := ⟨g3 - d.nx3 * l3, by ring⟩
  have e1 := ie_eq d
  have e2 := je_eq h2
  have e3 := ke_eq h3
  have hr : 0 ≤ r1 ∧ r1 ≤ d.nx1 - (if (0 : Fin 3) = 0 then 1 else 0) ∧
      0 ≤ r2 ∧ r2 ≤ d.nx2 - (if (0 : Fin 3) = 1 then 1 else 0) ∧
      0 ≤ r3 ∧ r3 ≤ d.nx3 - (if (0 : Fin 3) = 2 then 1 else 0) := by
    unfold Holds at hh
    dsimp only at hh
    omega
  simp only [Fin.isValue, if_true, show (0 : Fin 3) ≠ 1 by decide, show (0 : Fin 3) ≠ 2 by decide, if_false,
    sub_zero] at hr
  obtain ⟨u1, v1, u2, v2, u3, v3⟩ := hr
  have hS' : ∀ x : Loc, x ∈ S ↔ M x = true ∧
      ((x.2.1 = l2 ∨ (r2 = 0 ∧ x.2.1 = l2 - 1) ∨
        (r2 = d.nx2 ∧ x.2.1 = l2 + 1)) ∧
      (x.2.2 = l3 ∨ (r3 = 0 ∧ x.2.2 = l3 - 1) ∨
        (r3 = d.nx3 ∧ x.2.2 = l3 + 1)) ∧
      x.1 = l1) := by
    intro x
    rw [hS, ← across (by omega) u2 v2, ← across (by omega) u3 v3, ← along u1 v1]
    unfold Holds
    simp only [Fin.isValue, if_true, show (0 : Fin 3) ≠ 1 by decide, show (0 : Fin 3) ≠ 2 by decide,
      if_false, sub_zero]
    tauto
  clear hS hh
  have hcl := closed_0 (d := d) h1 h2 h3 M E (l1, l2, l3)
    (k := d.nx3 * l3 + r3 - d.nx3 * l3 + d.ks) (j := d.nx2 * l2 + r2 - d.nx2 * l2 + d.js)
    (i := d.nx1 * l1 + r1 - d.nx1 * l1 + d.is) (by omega) (by omega) (by omega) (by omega)
    (by omega) (by omega)
  refine hcl.trans ?_
  clear hcl
  have pl : ∀ x : Loc, move d x (0, d.nx3 * l3 + r3 - d.nx3 * l3 + d.ks,
      d.nx2 * l2 + r2 - d.nx2 * l2 + d.js, d.nx1 * l1 + r1 - d.nx1 * l1 + d.is) =
      place d 0 (d.nx3 * l3 + r3, d.nx2 * l2 + r2, d.nx1 * l1 + r1) (shiftLoc (l1, l2, l3) x) :=
    fun x => place_shift 0 (d.nx3 * l3 + r3, d.nx2 * l2 + r2, d.nx1 * l1 + r1) (l1, l2, l3) x
  simp only [pl]
  by_cases p1 : r2 = 0
  · rw [if_pos (by omega)]
    by_cases q1 : r3 = 0
    · rw [if_pos (by omega)]
      rw [count_8]
      exact mean4 M (fun x => E x (place d 0 (d.nx3 * l3 + r3, d.nx2 * l2 + r2, d.nx1 * l1 + r1) x)) (l1, l2, l3) (shiftLoc (l1, l2, l3) (off (.face 2))) (shiftLoc (l1, l2, l3) (off (.face 4))) (shiftLoc (l1, l2, l3) (off (.edge 8))) hl
          (by simp [off_f2, off_f4, off_e8, shiftLoc]) (by simp [off_f2, off_f4, off_e8, shiftLoc])
          (by simp [off_f2, off_f4, off_e8, shiftLoc]) (by simp [off_f2, off_f4, off_e8, shiftLoc])
          (by simp [off_f2, off_f4, off_e8, shiftLoc]) (by simp [off_f2, off_f4, off_e8, shiftLoc]) S (fun x => (hS' x).trans (and_congr_right fun _ => by
            obtain ⟨x1, x2, x3⟩ := x
            simp only [off_f2, off_f4, off_e8, shiftLoc, Prod.mk.injEq]
            omega))
    · rw [if_neg (by omega)]
      by_cases q2 : r3 = d.nx3
      · rw [if_pos (by omega)]
        rw [count_10]
        exact mean4 M (fun x => E x (place d 0 (d.nx3 * l3 + r3, d.nx2 * l2 + r2, d.nx1 * l1 + r1) x)) (l1, l2, l3) (shiftLoc (l1, l2, l3) (off (.face 2))) (shiftLoc (l1, l2, l3) (off (.face 5))) (shiftLoc (l1, l2, l3) (off (.edge 10))) hl
            (by simp [off_f2, off_f5, off_e10, shiftLoc]) (by simp [off_f2, off_f5, off_e10, shiftLoc])
            (by simp [off_f2, off_f5, off_e10, shiftLoc]) (by simp [off_f2, off_f5, off_e10, shiftLoc])
            (by simp [off_f2, off_f5, off_e10, shiftLoc]) (by simp [off_f2, off_f5, off_e10, shiftLoc]) S (fun x => (hS' x).trans (and_congr_right fun _ => by
              obtain ⟨x1, x2, x3⟩ := x
              simp only [off_f2, off_f5, off_e10, shiftLoc, Prod.mk.injEq]
              omega))
      · rw [if_neg (by omega)]
        exact mean2 M (fun x => E x (place d 0 (d.nx3 * l3 + r3, d.nx2 * l2 + r2, d.nx1 * l1 + r1) x)) (l1, l2, l3) (shiftLoc (l1, l2, l3) (off (.face 2))) hl
            (by simp [off_f2, shiftLoc]) S (fun x => (hS' x).trans (and_congr_right fun _ => by
              obtain ⟨x1, x2, x3⟩ := x
              simp only [off_f2, shiftLoc, Prod.mk.injEq]
              omega))
  · rw [if_neg (by omega)]
    by_cases p2 : r2 = d.nx2
    · rw [if_pos (by omega)]
      by_cases q1 : r3 = 0
      · rw [if_pos (by omega)]
        rw [count_9]
        exact mean4 M (fun x => E x (place d 0 (d.nx3 * l3 + r3, d.nx2 * l2 + r2, d.nx1 * l1 + r1) x)) (l1, l2, l3) (shiftLoc (l1, l2, l3) (off (.face 3))) (shiftLoc (l1, l2, l3) (off (.face 4))) (shiftLoc (l1, l2, l3) (off (.edge 9))) hl
            (by simp [off_f3, off_f4, off_e9, shiftLoc]) (by simp [off_f3, off_f4, off_e9, shiftLoc])
            (by simp [off_f3, off_f4, off_e9, shiftLoc]) (by simp [off_f3, off_f4, off_e9, shiftLoc])
            (by simp [off_f3, off_f4, off_e9, shiftLoc]) (by simp [off_f3, off_f4, off_e9, shiftLoc]) S (fun x => (hS' x).trans (and_congr_right fun _ => by
              obtain ⟨x1, x2, x3⟩ := x
              simp only [off_f3, off_f4, off_e9, shiftLoc, Prod.mk.injEq]
              omega))
      · rw [if_neg (by omega)]
        by_cases q2 : r3 = d.nx3
        · rw [if_pos (by omega)]
          rw [count_11]
          exact mean4 M (fun x => E x (place d 0 (d.nx3 * l3 + r3, d.nx2 * l2 + r2, d.nx1 * l1 + r1) x)) (l1, l2, l3) (shiftLoc (l1, l2, l3) (off (.face 3))) (shiftLoc (l1, l2, l3) (off (.face 5))) (shiftLoc (l1, l2, l3) (off (.edge 11))) hl
              (by simp [off_f3, off_f5, off_e11, shiftLoc]) (by simp [off_f3, off_f5, off_e11, shiftLoc])
              (by simp [off_f3, off_f5, off_e11, shiftLoc]) (by simp [off_f3, off_f5, off_e11, shiftLoc])
              (by simp [off_f3, off_f5, off_e11, shiftLoc]) (by simp [off_f3, off_f5, off_e11, shiftLoc]) S (fun x => (hS' x).trans (and_congr_right fun _ => by
                obtain ⟨x1, x2, x3⟩ := x
                simp only [off_f3, off_f5, off_e11, shiftLoc, Prod.mk.injEq]
                omega))
        · rw [if_neg (by omega)]
          exact mean2 M (fun x => E x (place d 0 (d.nx3 * l3 + r3, d.nx2 * l2 + r2, d.nx1 * l1 + r1) x)) (l1, l2, l3) (shiftLoc (l1, l2, l3) (off (.face 3))) hl
              (by simp [off_f3, shiftLoc]) S (fun x => (hS' x).trans (and_congr_right fun _ => by
                obtain ⟨x1, x2, x3⟩ := x
                simp only [off_f3, shiftLoc, Prod.mk.injEq]
                omega))
    · rw [if_neg (by omega)]
      by_cases q1 : r3 = 0
      · rw [if_pos (by omega)]
        exact mean2 M (fun x => E x (place d 0 (d.nx3 * l3 + r3, d.nx2 * l2 + r2, d.nx1 * l1 + r1) x)) (l1, l2, l3) (shiftLoc (l1, l2, l3) (off (.face 4))) hl
            (by simp [off_f4, shiftLoc]) S (fun x => (hS' x).trans (and_congr_right fun _ => by
              obtain ⟨x1, x2, x3⟩ := x
              simp only [off_f4, shiftLoc, Prod.mk.injEq]
              omega))
      · rw [if_neg (by omega)]
        by_cases q2 : r3 = d.nx3
        · rw [if_pos (by omega)]
          exact mean2 M (fun x => E x (place d 0 (d.nx3 * l3 + r3, d.nx2 * l2 + r2, d.nx1 * l1 + r1) x)) (l1, l2, l3) (shiftLoc (l1, l2, l3) (off (.face 5))) hl
              (by simp [off_f5, shiftLoc]) S (fun x => (hS' x).trans (and_congr_right fun _ => by
                obtain ⟨x1, x2, x3⟩ := x
                simp only [off_f5, shiftLoc, Prod.mk.injEq]
                omega))
        · rw [if_neg (by omega)]
          exact mean1 M (fun x => E x (place d 0 (d.nx3 * l3 + r3, d.nx2 * l2 + r2, d.nx1 * l1 + r1) x)) (l1, l2, l3) hl S (fun x => (hS' x).trans (and_congr_right fun _ => by
                obtain ⟨x1, x2, x3⟩ := x
                simp only [shiftLoc, Prod.mk.injEq]
                omega))

theorem mean_1 (h1 : 0 < d.nx1) (h2 : 1 < d.nx2) (h3 : 1 < d.nx3) (M : Mesh) (E : Loc → EField K) (l : Loc)
    (hl : M l = true) (g : Int × Int × Int) (hh : Holds d 1 g l) (S : Finset Loc)
    (hS : ∀ x, x ∈ S ↔ M x = true ∧ Holds d 1 g x) :
    exchange d M E l (place d 1 g l) = (∑ x ∈ S, E x (place d 1 g x)) / (S.card : K) := by
  obtain ⟨g3, g2, g1⟩ := g
  obtain ⟨l1, l2, l3⟩ := l
  obtain ⟨r1, rfl⟩ : ∃ r, g1 = d.nx1 * l1 + r := ⟨g1 - d.nx1 * l1, by ring⟩
  obtain ⟨r2, rfl⟩ : ∃ r, g2 = d.nx2 * l2 + r := ⟨g2 - d.nx2 * l2, by ring⟩
  obtain ⟨r3, rfl⟩ : ∃ r, g3 = d.nx3 * l3 + r := ⟨g3 - d.nx3 * l3, by ring⟩
  have e1 := ie_eq d
  have e2 := je_eq h2
  have e3 := ke_eq h3
  have hr : 0 ≤ r1 ∧ r1 ≤ d.nx1 - (if (1 : Fin 3) = 0 then 1 else 0) ∧
      0 ≤ r2 ∧ r2 ≤ d.nx2 - (if (1 : Fin 3) = 1 then 1 else 0) ∧
      0 ≤ r3 ∧ r3 ≤ d.nx3 - (if (1 : Fin 3) = 2 then 1 else 0) := by
    unfold Holds at hh
    dsimp only at hh
    omega
  simp only [Fin.isValue, if_true, show (1 : Fin 3) ≠ 2 by decide, show (1 : Fin 3) ≠ 0 by decide, if_false,
    sub_zero] at hr
  obtain ⟨u1, v1, u2, v2, u3, v3⟩ := hr
  have hS' : ∀ x : Loc, x ∈ S ↔ M x = true ∧
      ((x.1 = l1 ∨ (r1 = 0 ∧ x.1 = l1 - 1) ∨
        (r1 = d.nx1 ∧ x.1 = l1 + 1)) ∧
      (x.2.2 = l3 ∨ (r3 = 0 ∧ x.2.2 = l3 - 1) ∨
        (r3 = d.nx3 ∧ x.2.2 = l3 + 1)) ∧
      x.2.1 = l2) := by
    intro x
    rw [hS, ← across (by omega) u1 v1, ← across (by omega) u3 v3, ← along u2 v2]
    unfold Holds
    simp only [Fin.isValue, if_true, show (1 : Fin 3) ≠ 2 by decide, show (1 : Fin 3) ≠ 0 by decide,
      if_false, sub_zero]
    tauto
  clear hS hh
  have hcl := closed_1 (d := d) h1 h2 h3 M E (l1, l2, l3)
    (k := d.nx3 * l3 + r3 - d.nx3 * l3 + d.ks) (j := d.nx2 * l2 + r2 - d.nx2 * l2 + d.js)
    (i := d.nx1 * l1 + r1 - d.nx1 * l1 + d.is) (by omega) (by omega) (by omega) (by omega)
    (by omega) (by omega)
  refine hcl.trans ?_
  clear hcl
  have pl : ∀ x : Loc, move d x (1, d.nx3 * l3 + r3 - d.nx3 * l3 + d.ks,
      d.nx2 * l2 + r2 - d.nx2 * l2 + d.js, d.nx1 * l1 + r1 - d.nx1 * l1 + d.is) =
      place d 1 (d.nx3 * l3 + r3, d.nx2 * l2 + r2, d.nx1 * l1 + r1) (shiftLoc (l1, l2, l3) x) :=
    fun x => place_shift 1 (d.nx3 * l3 + r3, d.nx2 * l2 + r2, d.nx1 * l1 + r1) (l1, l2, l3) x
  simp only [pl]
  by_cases p1 : r1 = 0
  · rw [if_pos (by omega)]
    by_cases q1 : r3 = 0
    · rw [if_pos (by omega)]
      rw [count_4]
      exact mean4 M (fun x => E x (place d 1 (d.nx3 * l3 + r3, d.nx2 * l2 + r2, d.nx1 * l1 + r1) x)) (l1, l2, l3) (shiftLoc (l1, l2, l3) (off (.face 0))) (shiftLoc (l1, l2, l3) (off (.face 4))) (shiftLoc (l1, l2, l3) (off (.edge 4))) hl
          (by simp [off_f0, off_f4, off_e4, shiftLoc]) (by simp [off_f0, off_f4, off_e4, shiftLoc])
          (by simp [off_f0, off_f4, off_e4, shiftLoc]) (by simp [off_f0, off_f4, off_e4, shiftLoc])
          (by simp [off_f0, off_f4, off_e4, shiftLoc]) (by simp [off_f0, off_f4, off_e4, shiftLoc]) S (fun x => (hS' x).trans (and_congr_right fun _ => by
            obtain ⟨x1, x2, x3⟩ := x
            simp only [off_f0, off_f4, off_e4, shiftLoc, Prod.mk.injEq]
            omega))
    · rw [if_neg (by omega)]
      by_cases q2 : r3 = d.nx3
      · rw [if_pos (by omega)]
        rw [count_6]
        exact mean4 M (fun x => E x (place d 1 (d.nx3 * l3 + r3, d.nx2 * l2 + r2, d.nx1 * l1 + r1) x)) (l1, l2, l3) (shiftLoc (l1, l2, l3) (off (.face 0))) (shiftLoc (l1, l2, l3) (off (.face 5))) (shiftLoc (l1, l2, l3) (off (.edge 6))) hl
            (by simp [off_f0, off_f5, off_e6, shiftLoc]) (by simp [off_f0, off_f5, off_e6, shiftLoc])
            (by simp [off_f0, off_f5, off_e6, shiftLoc]) (by simp [off_f0, off_f5, off_e6, shiftLoc])
            (by simp [off_f0, off_f5, off_e6, shiftLoc]) (by simp [off_f0, off_f5, off_e6, shiftLoc]) S (fun x => (hS' x).trans (and_congr_right fun _ => by
              obtain ⟨x1, x2, x3⟩ := x
              simp only [off_f0, off_f5, off_e6, shiftLoc, Prod.mk.injEq]
              omega))
      · rw [if_neg (by omega)]
        exact mean2 M (fun x => E x (place d 1 (d.nx3 * l3 + r3, d.nx2 * l2 + r2, d.nx1 * l1 + r1) x)) (l1, l2, l3) (shiftLoc (l1, l2, l3) (off (.face 0))) hl
            (by simp [off_f0, shiftLoc]) S (fun x => (hS' x).trans (and_congr_right fun _ => by
              obtain ⟨x1, x2, x3⟩ := x
              simp only [off_f0, shiftLoc, Prod.mk.injEq]
              omega))
  · rw [if_neg (by omega)]
    by_cases p2 : r1 = d.nx1
    · rw [if_pos (by omega)]
      by_cases q1 : r3 = 0
      · rw [if_pos (by omega)]
        rw [count_5]
        exact mean4 M (fun x => E x (place d 1 (d.nx3 * l3 + r3, d.nx2 * l2 + r2, d.nx1 * l1 + r1) x)) (l1, l2, l3) (shiftLoc (l1, l2, l3) (off (.face 1))) (shiftLoc (l1, l2, l3) (off (.face 4))) (shiftLoc (l1, l2, l3) (off (.edge 5))) hl
            (by simp [off_f1, off_f4, off_e5, shiftLoc]) (by simp [off_f1, off_f4, off_e5, shiftLoc])
            (by simp [off_f1, off_f4, off_e5, shiftLoc]) (by simp [off_f1, off_f4, off_e5, shiftLoc])
            (by simp [off_f1, off_f4, off_e5, shiftLoc]) (by simp [off_f1, off_f4, off_e5, shiftLoc]) S (fun x => (hS' x).trans (and_congr_right fun _ => by
              obtain ⟨x1, x2, x3⟩ := x
              simp only [off_f1, off_f4, off_e5, shiftLoc, Prod.mk.injEq]
              omega))
      · rw [if_neg (by omega)]
        by_cases q2 : r3 = d.nx3
        · rw [if_pos (by omega)]
          rw [count_7]
          exact mean4 M (fun x => E x (place d 1 (d.nx3 * l3 + r3, d.nx2 * l2 + r2, d.nx1 * l1 + r1) x)) (l1, l2, l3) (shiftLoc (l1, l2, l3) (off (.face 1))) (shiftLoc (l1, l2, l3) (off (.face 5))) (shiftLoc (l1, l2, l3) (off (.edge 7))) hl
              (by simp [off_f1, off_f5, off_e7, shiftLoc]) (by simp [off_f1, off_f5, off_e7, shiftLoc])
              (by simp [off_f1, off_f5, off_e7, shiftLoc]) (by simp [off_f1, off_f5, off_e7, shiftLoc])
              (by simp [off_f1, off_f5, off_e7, shiftLoc]) (by simp [off_f1, off_f5, off_e7, shiftLoc]) S (fun x => (hS' x).trans (and_congr_right fun _ => by
                obtain ⟨x1, x2, x3⟩ := x
                simp only [off_f1, off_f5, off_e7, shiftLoc, Prod.mk.injEq]
                omega))
        · rw [if_neg (by omega)]
          exact mean2 M (fun x => E x (place d 1 (d.nx3 * l3 + r3, d.nx2 * l2 + r2, d.nx1 * l1 + r1) x)) (l1, l2, l3) (shiftLoc (l1, l2, l3) (off (.face 1))) hl
              (by simp [off_f1, shiftLoc]) S (fun x => (hS' x).trans (and_congr_right fun _ => by
                obtain ⟨x1, x2, x3⟩ := x
                simp only [off_f1, shiftLoc, Prod.mk.injEq]
                omega))
    · rw [if_neg (by omega)]
      by_cases q1 : r3 = 0
      · rw [if_pos (by omega)]
        exact mean2 M (fun x => E x (place d 1 (d.nx3 * l3 + r3, d.nx2 * l2 + r2, d.nx1 * l1 + r1) x)) (l1, l2, l3) (shiftLoc (l1, l2, l3) (off (.face 4))) hl
            (by simp [off_f4, shiftLoc]) S (fun x => (hS' x).trans (and_congr_right fun _ => by
              obtain ⟨x1, x2, x3⟩ := x
              simp only [off_f4, shiftLoc, Prod.mk.injEq]
              omega))
      · rw [if_neg (by omega)]
        by_cases q2 : r3 = d.nx3
        · rw [if_pos (by omega)]
          exact mean2 M (fun x => E x (place d 1 (d.nx3 * l3 + r3, d.nx2 * l2 + r2, d.nx1 * l1 + r1) x)) (l1, l2, l3) (shiftLoc (l1, l2, l3) (off (.face 5))) hl
              (by simp [off_f5, shiftLoc]) S (fun x => (hS' x).trans (and_congr_right fun _ => by
                obtain ⟨x1, x2, x3⟩ := x
                simp only [off_f5, shiftLoc, Prod.mk.injEq]
                omega))
        · rw [if_neg (by omega)]
          exact mean1 M (fun x => E x (place d 1 (d.nx3 * l3 + r3, d.nx2 * l2 + r2, d.nx1 * l1 + r1) x)) (l1, l2, l3) hl S (fun x => (hS' x).trans (and_congr_right fun _ => by
                obtain ⟨x1, x2, x3⟩ := x
                simp only [shiftLoc, Prod.mk.injEq]
                omega))

theorem mean_2 (h1 : 0 < d.nx1) (h2 : 1 < d.nx2) (h3 : 1 < d.nx3) (M : Mesh) (E : Loc → EField K) (l : Loc)
    (hl : M l = true) (g : Int × Int × Int) (hh : Holds d 2 g l) (S : Finset Loc)
    (hS : ∀ x, x ∈ S ↔ M x = true ∧ Holds d 2 g x) :
    exchange d M E l (place d 2 g l) = (∑ x ∈ S, E x (place d 2 g x)) / (S.card : K) := by
  obtain ⟨g3, g2, g1⟩ := g
  obtain ⟨l1, l2, l3⟩ := l
  obtain ⟨r1, rfl⟩ : ∃ r, g1 = d.nx1 * l1 + r := ⟨g1 - d.nx1 * l1, by ring⟩
  obtain ⟨r2, rfl⟩ : ∃ r, g2 = d.nx2 * l2 + r := ⟨g2 - d.nx2 * l2, by ring⟩
  obtain ⟨r3, rfl⟩ : ∃ r, g3 = d.nx3 * l3 + r := ⟨g3 - d.nx3 * l3, by ring⟩
  have e1 := ie_eq d
  have e2 := je_eq h2
  have e3 := ke_eq h3
  have hr : 0 ≤ r1 ∧ r1 ≤ d.nx1 - (if (2 : Fin 3) = 0 then 1 else 0) ∧
      0 ≤ r2 ∧ r2 ≤ d.nx2 - (if (2 : Fin 3) = 1 then 1 else 0) ∧
      0 ≤ r3 ∧ r3 ≤ d.nx3 - (if (2 : Fin 3) = 2 then 1 else 0) := by
    unfold Holds at hh
    dsimp only at hh
    omega
  simp only [Fin.isValue, if_true, show (2 : Fin 3) ≠ 0 by decide, show (2 : Fin 3) ≠ 1 by decide, if_false,
    sub_zero] at hr
  obtain ⟨u1, v1, u2, v2, u3, v3⟩ := hr
  have hS' : ∀ x : Loc, x ∈ S ↔ M x = true ∧
      ((x.1 = l1 ∨ (r1 = 0 ∧ x.1 = l1 - 1) ∨
        (r1 = d.nx1 ∧ x.1 = l1 + 1)) ∧
      (x.2.1 = l2 ∨ (r2 = 0 ∧ x.2.1 = l2 - 1) ∨
        (r2 = d.nx2 ∧ x.2.1 = l2 + 1)) ∧
      x.2.2 = l3) := by
    intro x
    rw [hS, ← across (by omega) u1 v1, ← across (by omega) u2 v2, ← along u3 v3]
    unfold Holds
    simp only [Fin.isValue, if_true, show (2 : Fin 3) ≠ 0 by decide, show (2 : Fin 3) ≠ 1 by decide,
      if_false, sub_zero]
  clear hS hh
  have hcl := closed_2 (d := d) h1 h2 h3 M E (l1, l2, l3)
    (k := d.nx3 * l3 + r3 - d.nx3 * l3 + d.ks) (j := d.nx2 * l2 + r2 - d.nx2 * l2 + d.js)
    (i := d.nx1 * l1 + r1 - d.nx1 * l1 + d.is) (by omega) (by omega) (by omega) (by omega)
    (by omega) (by omega)
  refine hcl.trans ?_
  clear hcl
  have pl : ∀ x : Loc, move d x (2, d.nx3 * l3 + r3 - d.nx3 * l3 + d.ks,
      d.nx2 * l2 + r2 - d.nx2 * l2 + d.js, d.nx1 * l1 + r1 - d.nx1 * l1 + d.is) =
      place d 2 (d.nx3 * l3 + r3, d.nx2 * l2 + r2, d.nx1 * l1 + r1) (shiftLoc (l1, l2, l3) x) :=
    fun x => place_shift 2 (d.nx3 * l3 + r3, d.nx2 * l2 + r2, d.nx1 * l1 + r1) (l1, l2, l3) x
  simp only [pl]
  by_cases p1 : r1 = 0
  · rw [if_pos (by omega)]
    by_cases q1 : r2 = 0
    · rw [if_pos (by omega)]
      rw [count_0]
      exact mean4 M (fun x => E x (place d 2 (d.nx3 * l3 + r3, d.nx2 * l2 + r2, d.nx1 * l1 + r1) x)) (l1, l2, l3) (shiftLoc (l1, l2, l3) (off (.face 0))) (shiftLoc (l1, l2, l3) (off (.face 2))) (shiftLoc (l1, l2, l3) (off (.edge 0))) hl
          (by simp [off_f0, off_f2, off_e0, shiftLoc]) (by simp [off_f0, off_f2, off_e0, shiftLoc])
          (by simp [off_f0, off_f2, off_e0, shiftLoc]) (by simp [off_f0, off_f2, off_e0, shiftLoc])
          (by simp [off_f0, off_f2, off_e0, shiftLoc]) (by simp [off_f0, off_f2, off_e0, shiftLoc]) S (fun x => (hS' x).trans (and_congr_right fun _ => by
            obtain ⟨x1, x2, x3⟩ := x
            simp only [off_f0, off_f2, off_e0, shiftLoc, Prod.mk.injEq]
            omega))
    · rw [if_neg (by omega)]
      by_cases q2 : r2 = d.nx2
      · rw [if_pos (by omega)]
        rw [count_2]
        exact mean4 M (fun x => E x (place d 2 (d.nx3 * l3 + r3, d.nx2 * l2 + r2, d.nx1 * l1 + r1) x)) (l1, l2, l3) (shiftLoc (l1, l2, l3) (off (.face 0))) (shiftLoc (l1, l2, l3) (off (.face 3))) (shiftLoc (l1, l2, l3) (off (.edge 2))) hl
            (by simp [off_f0, off_f3, off_e2, shiftLoc]) (by simp [off_f0, off_f3, off_e2, shiftLoc])
            (by simp [off_f0, off_f3, off_e2, shiftLoc]) (by simp [off_f0, off_f3, off_e2, shiftLoc])
            (by simp [off_f0, off_f3, off_e2, shiftLoc]) (by simp [off_f0, off_f3, off_e2, shiftLoc]) S (fun x => (hS' x).trans (and_congr_right fun _ => by
              obtain ⟨x1, x2, x3⟩ := x
              simp only [off_f0, off_f3, off_e2, shiftLoc, Prod.mk.injEq]
              omega))
      · rw [if_neg (by omega)]
        exact mean2 M (fun x => E x (place d 2 (d.nx3 * l3 + r3, d.nx2 * l2 + r2, d.nx1 * l1 + r1) x)) (l1, l2, l3) (shiftLoc (l1, l2, l3) (off (.face 0))) hl
            (by simp [off_f0, shiftLoc]) S (fun x => (hS' x).trans (and_congr_right fun _ => by
              obtain ⟨x1, x2, x3⟩ := x
              simp only [off_f0, shiftLoc, Prod.mk.injEq]
              omega))
  · rw [if_neg (by omega)]
    by_cases p2 : r1 = d.nx1
    · rw [if_pos (by omega)]
      by_cases q1 : r2 = 0
      · rw [if_pos (by omega)]
        rw [count_1]
        exact mean4 M (fun x => E x (place d 2 (d.nx3 * l3 + r3, d.nx2 * l2 + r2, d.nx1 * l1 + r1) x)) (l1, l2, l3) (shiftLoc (l1, l2, l3) (off (.face 1))) (shiftLoc (l1, l2, l3) (off (.face 2))) (shiftLoc (l1, l2, l3) (off (.edge 1))) hl
            (by simp [off_f1, off_f2, off_e1, shiftLoc]) (by simp [off_f1, off_f2, off_e1, shiftLoc])
            (by simp [off_f1, off_f2, off_e1, shiftLoc]) (by simp [off_f1, off_f2, off_e1, shiftLoc])
            (by simp [off_f1, off_f2, off_e1, shiftLoc]) (by simp [off_f1, off_f2, off_e1, shiftLoc]) S (fun x => (hS' x).trans (and_congr_right fun _ => by
              obtain ⟨x1, x2, x3⟩ := x
              simp only [off_f1, off_f2, off_e1, shiftLoc, Prod.mk.injEq]
              omega))
      · rw [if_neg (by omega)]
        by_cases q2 : r2 = d.nx2
        · rw [if_pos (by omega)]
          rw [count_3]
          exact mean4 M (fun x => E x (place d 2 (d.nx3 * l3 + r3, d.nx2 * l2 + r2, d.nx1 * l1 + r1) x)) (l1, l2, l3) (shiftLoc (l1, l2, l3) (off (.face 1))) (shiftLoc (l1, l2, l3) (off (.face 3))) (shiftLoc (l1, l2, l3) (off (.edge 3))) hl
              (by simp [off_f1, off_f3, off_e3, shiftLoc]) (by simp [off_f1, off_f3, off_e3, shiftLoc])
              (by simp [off_f1, off_f3, off_e3, shiftLoc]) (by simp [off_f1, off_f3, off_e3, shiftLoc])
              (by simp [off_f1, off_f3, off_e3, shiftLoc]) (by simp [off_f1, off_f3, off_e3, shiftLoc]) S (fun x => (hS' x).trans (and_congr_right fun _ => by
                obtain ⟨x1, x2, x3⟩ := x
                simp only [off_f1, off_f3, off_e3, shiftLoc, Prod.mk.injEq]
                omega))
        · rw [if_neg (by omega)]
          exact mean2 M (fun x => E x (place d 2 (d.nx3 * l3 + r3, d.nx2 * l2 + r2, d.nx1 * l1 + r1) x)) (l1, l2, l3) (shiftLoc (l1, l2, l3) (off (.face 1))) hl
              (by simp [off_f1, shiftLoc]) S (fun x => (hS' x).trans (and_congr_right fun _ => by
                obtain ⟨x1, x2, x3⟩ := x
                simp only [off_f1, shiftLoc, Prod.mk.injEq]
                omega))
    · rw [if_neg (by omega)]
      by_cases q1 : r2 = 0
      · rw [if_pos (by omega)]
        exact mean2 M (fun x => E x (place d 2 (d.nx3 * l3 + r3, d.nx2 * l2 + r2, d.nx1 * l1 + r1) x)) (l1, l2, l3) (shiftLoc (l1, l2, l3) (off (.face 2))) hl
            (by simp [off_f2, shiftLoc]) S (fun x => (hS' x).trans (and_congr_right fun _ => by
              obtain ⟨x1, x2, x3⟩ := x
              simp only [off_f2, shiftLoc, Prod.mk.injEq]
              omega))
      · rw [if_neg (by omega)]
        by_cases q2 : r2 = d.nx2
        · rw [if_pos (by omega)]
          exact mean2 M (fun x => E x (place d 2 (d.nx3 * l3 + r3, d.nx2 * l2 + r2, d.nx1 * l1 + r1) x)) (l1, l2, l3) (shiftLoc (l1, l2, l3) (off (.face 3))) hl
              (by simp [off_f3, shiftLoc]) S (fun x => (hS' x).trans (and_congr_right fun _ => by
                obtain ⟨x1, x2, x3⟩ := x
                simp only [off_f3, shiftLoc, Prod.mk.injEq]
                omega))
        · rw [if_neg (by omega)]
          exact mean1 M (fun x => E x (place d 2 (d.nx3 * l3 + r3, d.nx2 * l2 + r2, d.nx1 * l1 + r1) x)) (l1, l2, l3) hl S (fun x => (hS' x).trans (and_congr_right fun _ => by
                obtain ⟨x1, x2, x3⟩ := x
                simp only [shiftLoc, Prod.mk.injEq]
                omega))

end Verif.Emf
