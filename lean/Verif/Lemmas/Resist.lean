import Verif.Spec.Resist
import Verif.Spec.Flux
import Mathlib.Algebra.Order.Field.Rat
import Mathlib.Tactic.Linarith
import Mathlib.Tactic.NormNum
import Mathlib.Tactic.Ring

/-! Helper lemmas for resistivity: the current at the edges of the active cells. -/
namespace Verif.Resist
open Verif.Grid
variable {K : Type} [Field K] [LinearOrder K]

theorem cur1_at (d : Dims) (G : VC K) (b : FF K) (old : A3 K) {k j i : Int} (h2 : d.nx2 > 1) (hk : Row3 d k)
    (hj : Row2 d j) (hi : d.is ≤ i ∧ i ≤ d.ie + 1) :
    cur1 d G b old (k, j, i) =
      (G.l3 (k - ext3 d, j, i) * b.x3f (k, j, i) - G.l3 (k - ext3 d, j - 1, i) * b.x3f (k, j - 1, i)) / G.a1 (k - ext3 d, j - 1, i)
        - if d.nx3 > 1 then (G.l2 (k, j - 1, i) * b.x2f (k, j, i) - G.l2 (k - 1, j - 1, i) * b.x2f (k - 1, j, i)) / G.a1 (k - 1, j - 1, i)
          else 0 := by
  unfold Row3 at hk
  unfold Row2 at hj
  by_cases m3 : d.nx3 > 1
  · have e3 : ext3 d = 1 := if_pos m3
    simp only [cur1, e3, if_pos (show d.nx2 > 1 ∧ (d.ks - 1 ≤ k ∧ k ≤ d.ke + 2 * 1) ∧ (d.js - 1 ≤ j ∧ j ≤ d.je + 2) ∧ d.is - 2 ≤ i ∧ i ≤ d.ie + 2 by omega),
      if_pos (show d.nx3 > 1 ∧ (d.ks - 1 ≤ k ∧ k ≤ d.ke + 2) ∧ (d.js - 1 ≤ j ∧ j ≤ d.je + 2) ∧ d.is - 2 ≤ i ∧ i ≤ d.ie + 2 by omega), if_pos m3]
  · have e3 : ext3 d = 0 := if_neg m3
    simp only [cur1, e3, sub_zero, mul_zero, add_zero, m3, false_and, if_false,
      if_pos (show d.nx2 > 1 ∧ (d.ks ≤ k ∧ k ≤ d.ke) ∧ (d.js - 1 ≤ j ∧ j ≤ d.je + 2) ∧ d.is - 2 ≤ i ∧ i ≤ d.ie + 2 by omega)]

theorem cur2_at (d : Dims) (hd : d.nx3 > 1 → d.nx2 > 1) (G : VC K) (b : FF K) (old : A3 K) {k j i : Int} (hk : Row3 d k)
    (hj : Row2 d j) (hi : d.is ≤ i ∧ i ≤ d.ie + 1) :
    cur2 d G b old (k, j, i) =
      -(G.l3 (k - ext3 d, j, i) * b.x3f (k, j, i) - G.l3 (k - ext3 d, j, i - 1) * b.x3f (k, j, i - 1)) / G.a2 (k - ext3 d, j, i - 1)
        + if d.nx3 > 1 then (G.l1 (k, j, i - 1) * b.x1f (k, j, i) - G.l1 (k - 1, j, i - 1) * b.x1f (k - 1, j, i)) / G.a2 (k - 1, j, i - 1)
          else 0 := by
  unfold Row3 at hk
  unfold Row2 at hj
  have x2 : (d.nx2 > 1 ∧ ext2 d = 1) ∨ (¬ d.nx2 > 1 ∧ ext2 d = 0) := by
    unfold ext2; split <;> simp_all
  by_cases m3 : d.nx3 > 1
  · have e3 : ext3 d = 1 := if_pos m3
    have e2 : ext2 d = 1 := if_pos (hd m3)
    simp only [cur2, e2, e3, if_pos (show (d.ks - 1 ≤ k ∧ k ≤ d.ke + 2 * 1) ∧ (d.js - 2 * 1 ≤ j ∧ j ≤ d.je + 2 * 1) ∧ d.is - 1 ≤ i ∧ i ≤ d.ie + 2 by omega),
      if_pos (show d.nx3 > 1 ∧ (d.ks - 1 ≤ k ∧ k ≤ d.ke + 2) ∧ (d.js - 2 ≤ j ∧ j ≤ d.je + 2) ∧ d.is - 1 ≤ i ∧ i ≤ d.ie + 2 by omega), if_pos m3]
  · have e3 : ext3 d = 0 := if_neg m3
    simp only [cur2, e3, sub_zero, mul_zero, add_zero, m3, false_and, if_false, if_pos (show (d.ks ≤ k ∧ k ≤ d.ke) ∧ (d.js - 2 * ext2 d ≤ j ∧ j ≤ d.je + 2 * ext2 d) ∧ d.is - 1 ≤ i ∧ i ≤ d.ie + 2 by omega)]

theorem cur3_at (d : Dims) (G : VC K) (b : FF K) (old : A3 K) {k j i : Int} (hk : Row3 d k)
    (hj : Row2 d j) (hi : d.is ≤ i ∧ i ≤ d.ie + 1) :
    cur3 d G b old (k, j, i) =
      (G.l2 (k, j - ext2 d, i) * b.x2f (k, j, i) - G.l2 (k, j - ext2 d, i - 1) * b.x2f (k, j, i - 1)) / G.a3 (k, j - ext2 d, i - 1)
        - if d.nx2 > 1 then (G.l1 (k, j, i - 1) * b.x1f (k, j, i) - G.l1 (k, j - 1, i - 1) * b.x1f (k, j - 1, i)) / G.a3 (k, j - 1, i - 1)
          else 0 := by
  unfold Row3 at hk
  unfold Row2 at hj
  have x3 : (d.nx3 > 1 ∧ ext3 d = 1) ∨ (¬ d.nx3 > 1 ∧ ext3 d = 0) := by
    unfold ext3; split <;> simp_all
  by_cases m2 : d.nx2 > 1
  · have e2 : ext2 d = 1 := if_pos m2
    simp only [cur3, e2, if_pos (show (d.ks - 2 * ext3 d ≤ k ∧ k ≤ d.ke + 2 * ext3 d) ∧ (d.js - 1 ≤ j ∧ j ≤ d.je + 2 * 1) ∧ d.is - 1 ≤ i ∧ i ≤ d.ie + 2 by omega),
      if_pos (show d.nx2 > 1 ∧ (d.ks - 2 * ext3 d ≤ k ∧ k ≤ d.ke + 2 * ext3 d) ∧ (d.js - 1 ≤ j ∧ j ≤ d.je + 2) ∧ d.is - 1 ≤ i ∧ i ≤ d.ie + 2 by omega), if_pos m2]
  · have e2 : ext2 d = 0 := if_neg m2
    simp only [cur3, e2, sub_zero, mul_zero, add_zero, m2, false_and, if_false, if_pos (show (d.ks - 2 * ext3 d ≤ k ∧ k ≤ d.ke + 2 * ext3 d) ∧ (d.js ≤ j ∧ j ≤ d.je) ∧ d.is - 1 ≤ i ∧ i ≤ d.ie + 2 by omega)]

theorem current_x1 (d : Dims) (G : VC K) (b : FF K) (old : EF K) : (current d G b old).x1e = cur1 d G b old.x1e := rfl
theorem current_x2 (d : Dims) (G : VC K) (b : FF K) (old : EF K) : (current d G b old).x2e = cur2 d G b old.x2e := rfl
theorem current_x3 (d : Dims) (G : VC K) (b : FF K) (old : EF K) : (current d G b old).x3e = cur3 d G b old.x3e := rfl

/-- The values added by `addEdges` at the edges of the active cells. -/
theorem addEdges1 (d : Dims) (hd : d.nx3 > 1 → d.nx2 > 1) (f1 f2 f3 : Int → Int → Int → K) (e : EF K) {k j i : Int} (h2 : d.nx2 > 1)
    (hk : Row3 d k) (hj : Row2 d j) (hi : d.is ≤ i ∧ i ≤ d.ie + 1) (h3 : d.nx3 = 1 ∨ d.nx3 > 1) :
    (addEdges d f1 f2 f3 e).x1e (k, j, i) = e.x1e (k, j, i) + f1 k j i := by
  unfold Row3 at hk
  unfold Row2 at hj
  by_cases m3 : d.nx3 > 1
  · simp only [addEdges, if_neg (show ¬ d.nx2 = 1 by omega), if_neg (show ¬ d.nx3 = 1 by omega)]
    rw [if_pos (by omega)]
  · simp only [addEdges, if_neg (show ¬ d.nx2 = 1 by omega), if_pos (show d.nx3 = 1 by omega)]
    have : k = d.ks := by
      have : d.ks = d.ke := by simp [Dims.ks, Dims.ke, m3]
      omega
    subst this
    rw [if_pos (by omega)]

theorem addEdges2 (d : Dims) (hd : d.nx3 > 1 → d.nx2 > 1) (f1 f2 f3 : Int → Int → Int → K) (e : EF K) {k j i : Int}
    (hk : Row3 d k) (hj : Row2 d j) (hi : d.is ≤ i ∧ i ≤ d.ie + 1) (h2 : d.nx2 = 1 ∨ d.nx2 > 1) (h3 : d.nx3 = 1 ∨ d.nx3 > 1) :
    (addEdges d f1 f2 f3 e).x2e (k, j, i) = e.x2e (k, j, i) + f2 k j i := by
  unfold Row3 at hk
  unfold Row2 at hj
  have kk : ¬ d.nx3 > 1 → k = d.ks := by
    intro m3
    have : d.ks = d.ke := by simp [Dims.ks, Dims.ke, m3]
    omega
  have jj : ¬ d.nx2 > 1 → j = d.js := by
    intro m3
    have : d.js = d.je := by simp [Dims.js, Dims.je, m3]
    omega
  by_cases m2 : d.nx2 > 1
  · by_cases m3 : d.nx3 > 1
    · simp only [addEdges, if_neg (show ¬ d.nx2 = 1 by omega), if_neg (show ¬ d.nx3 = 1 by omega)]
      rw [if_pos (by omega)]
    · simp only [addEdges, if_neg (show ¬ d.nx2 = 1 by omega), if_pos (show d.nx3 = 1 by omega)]
      rw [if_pos (by omega), kk m3]
  · simp only [addEdges, if_pos (show d.nx2 = 1 by omega)]
    rw [if_pos (by omega), kk (by omega), jj m2]

theorem addEdges3 (d : Dims) (hd : d.nx3 > 1 → d.nx2 > 1) (f1 f2 f3 : Int → Int → Int → K) (e : EF K) {k j i : Int}
    (hk : d.ks ≤ k ∧ k ≤ d.ke) (hj : Row2 d j) (hi : d.is ≤ i ∧ i ≤ d.ie + 1) (h2 : d.nx2 = 1 ∨ d.nx2 > 1) (h3 : d.nx3 = 1 ∨ d.nx3 > 1) :
    (addEdges d f1 f2 f3 e).x3e (k, j, i) = e.x3e (k, j, i) + f3 k j i := by
  unfold Row2 at hj
  have kk : ¬ d.nx3 > 1 → k = d.ks := by
    intro m3
    have : d.ks = d.ke := by simp [Dims.ks, Dims.ke, m3]
    omega
  have jj : ¬ d.nx2 > 1 → j = d.js := by
    intro m3
    have : d.js = d.je := by simp [Dims.js, Dims.je, m3]
    omega
  by_cases m2 : d.nx2 > 1
  · by_cases m3 : d.nx3 > 1
    · simp only [addEdges, if_neg (show ¬ d.nx2 = 1 by omega), if_neg (show ¬ d.nx3 = 1 by omega)]
      rw [if_pos (by omega)]
    · simp only [addEdges, if_neg (show ¬ d.nx2 = 1 by omega), if_pos (show d.nx3 = 1 by omega)]
      rw [if_pos (by omega), kk m3]
  · simp only [addEdges, if_pos (show d.nx2 = 1 by omega)]
    rw [if_pos (by omega), kk (by omega), jj m2]

end Verif.Resist
