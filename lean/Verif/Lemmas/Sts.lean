import Verif.Spec.Sts
import Mathlib.Tactic.LinearCombination
import Mathlib.Tactic.Module
import Mathlib.Tactic.Positivity
import Mathlib.Algebra.Polynomial.AlgebraMap
import Mathlib.LinearAlgebra.Eigenspace.Basic

/-!
# Super-time-stepping: coefficients, Legendre polynomials, closed form of the stages
-/
namespace Verif.Sts
open Polynomial
set_option linter.unusedSectionVars false

section
variable {K : Type} [Field K] [LinearOrder K] [IsStrictOrderedRing K]
variable {V : Type} [AddCommGroup V] [Module K V]

/-- `b_j`. -/
def bj (j : Nat) : K := if j ≤ 2 then 1 / 3 else bFormula (j : K)

/-- `w` of the method. -/
def ww (rkl2 : Bool) (s : Nat) : K := if rkl2 then 4 / ((s : K) ^ 2 + s - 2) else 2 / ((s : K) ^ 2 + s)

/-- Weight of the Legendre polynomial. -/
def bb (rkl2 : Bool) (j : Nat) : K := if rkl2 then bj j else 1

theorem bj_pos (j : Nat) : (0 : K) < bj j := by
  unfold bj
  split
  · norm_num
  · rename_i h
    have : (3 : K) ≤ j := by exact_mod_cast (by omega : 3 ≤ j)
    unfold bFormula
    apply div_pos <;> nlinarith

theorem bj_le (j : Nat) : bj j ≤ (1 / 2 : K) := by
  unfold bj
  split
  · norm_num
  · rename_i h
    have : (3 : K) ≤ j := by exact_mod_cast (by omega : 3 ≤ j)
    unfold bFormula
    rw [div_le_div_iff₀ (by nlinarith) (by norm_num)]
    nlinarith

theorem bb_pos (rkl2 : Bool) (j : Nat) : (0 : K) < bb rkl2 j := by
  cases rkl2
  · simp [bb]
  · simpa [bb] using bj_pos j

theorem bb_le (rkl2 : Bool) (j : Nat) : bb rkl2 j ≤ (1 : K) := by
  cases rkl2
  · simp [bb]
  · have := bj_le (K := K) j
    simp only [bb, if_true]; linarith

theorem bj_ge2 {j : Nat} (hj : 2 ≤ j) : (bj j : K) = bFormula (j : K) := by
  unfold bj
  split
  · obtain rfl : j = 2 := by omega
    unfold bFormula; norm_num
  · rfl

theorem coef_rkl2 {s j : Nat} (hj : 2 ≤ j) :
    coef (K := K) true s j = ⟨(2 * j - 1) / j * bj j / bj (j - 1), -1 * (j - 1) / j * bj j / bj (j - 2),
      (2 * j - 1) / j * bj j / bj (j - 1) * ww true s,
      -1 * (1 - bj (j - 1)) * ((2 * j - 1) / j * bj j / bj (j - 1) * ww true s)⟩ := by
  have e0 : (if j = 1 ∨ j = 2 then (1 / 3 : K) else bFormula (j : K)) = bj j := by
    unfold bj; split <;> split <;> first | rfl | omega
  have e1 : (if j = 1 ∨ j = 2 ∨ j = 3 then (1 / 3 : K) else bFormula ((j : K) - 1)) = bj (j - 1) := by
    unfold bj; split <;> split
    · rfl
    · omega
    · omega
    · rw [Nat.cast_sub (by omega)]; simp
  have e2 : (if j = 1 ∨ j = 2 ∨ j = 3 ∨ j = 4 then (1 / 3 : K) else bFormula ((j : K) - 2)) = bj (j - 2) := by
    unfold bj; split <;> split
    · rfl
    · omega
    · omega
    · rw [Nat.cast_sub (by omega)]; simp
  have hj1 : j ≠ 1 := by omega
  unfold coef ww
  simp only [if_true, e0, e1, e2, if_neg hj1, mul_div_assoc]

/-- All stages after the first, both methods. -/
theorem coef_next (rkl2 : Bool) (s n : Nat) :
    let c : Coef K := coef rkl2 s (n + 2)
    let g := if rkl2 then c.gat else 0
    let N : K := n
    c.mu * bb rkl2 (n + 1) = (2 * N + 3) / (N + 2) * bb rkl2 (n + 2) ∧
    c.nu * bb rkl2 n = -(N + 1) / (N + 2) * bb rkl2 (n + 2) ∧
    c.mt = c.mu * ww rkl2 s ∧ g = -(1 - bb rkl2 (n + 1)) * c.mt ∧ (rkl2 = false → c.mu + c.nu = 1) := by
  intro c g N
  have h2 : N + 2 ≠ 0 := by show (n : K) + 2 ≠ 0; positivity
  cases rkl2
  · have hc : c = coef false s (n + 2) := rfl
    unfold coef at hc
    simp only [Bool.false_eq_true, if_false] at hc
    have hg : g = 0 := rfl
    rw [hg, hc]
    push_cast
    simp only [bb, Bool.false_eq_true, if_false, mul_one, ww]
    refine ⟨?_, ?_, ?_, ?_, ?_⟩
    · congr 1; ring
    · congr 1; ring
    · ring
    · ring
    · intro _; rw [← add_div]; rw [div_eq_one_iff_eq h2]; show _ = (n : K) + 2; ring
  · have hc : c = coef true s (n + 2) := rfl
    rw [coef_rkl2 (by omega)] at hc
    have hg : g = c.gat := rfl
    have e1 : n + 2 - 1 = n + 1 := by omega
    have e2 : n + 2 - 2 = n := by omega
    rw [e1, e2] at hc
    have p1 := (bj_pos (K := K) (n + 1)).ne'
    have p0 := (bj_pos (K := K) n).ne'
    rw [hg, hc]
    push_cast
    simp only [bb, if_true]
    refine ⟨?_, ?_, ?_, ?_, fun h => by simp at h⟩
    · show ((2 * (N + 2) - 1) / (N + 2) * bj (n + 2) / bj (n + 1)) * bj (n + 1) = _
      field_simp; ring
    · show (-1 * (N + 2 - 1) / (N + 2) * bj (n + 2) / bj n) * bj n = _
      field_simp; ring
    · first | rfl | trivial
    · ring

theorem coef_first (rkl2 : Bool) (s : Nat) :
    let c : Coef K := coef rkl2 s 1
    c.mu = 1 ∧ c.nu = 0 ∧ c.mt = bb rkl2 1 * ww rkl2 s ∧ (rkl2 = true → c.gat = 0) := by
  intro c
  have hc : c = coef rkl2 s 1 := rfl
  cases rkl2
  · unfold coef at hc
    rw [hc]
    simp [bb, ww]
    norm_num
  · unfold coef at hc
    rw [hc]
    simp [bb, ww, bj]
    norm_num
    ring

/-! ## Legendre polynomials -/

theorem legendre_rec (n : Nat) (x : K) :
    ((n : K) + 2) * legendre (n + 2) x = (2 * n + 3) * x * legendre (n + 1) x - (n + 1) * legendre n x := by
  have : (n : K) + 2 ≠ 0 := by positivity
  rw [legendre]
  field_simp

/-- `|P_n| ≤ 1` on `[-1, 1]`: the quantity `(1-x²) P_{n+1}² + (P_n - x P_{n+1})²` does not grow with `n`. -/
theorem legendre_energy (n : Nat) (x : K) :
    (1 - x ^ 2) * legendre (n + 1) x ^ 2 + (legendre n x - x * legendre (n + 1) x) ^ 2 ≤ 1 - x ^ 2 := by
  induction n with
  | zero => simp only [legendre]; apply le_of_eq; ring
  | succ n ih =>
    set u := legendre (n + 1) x
    set v := legendre n x - x * u with hv
    have h2 : (n : K) + 2 ≠ 0 := by positivity
    set c : K := ((n : K) + 1) / (n + 2) with hc
    have hc0 : 0 ≤ c := by rw [hc]; positivity
    have hc1 : c ≤ 1 := by rw [hc, div_le_one (by positivity)]; linarith
    have e : legendre (n + 2) x = x * u - c * v := by
      have := legendre_rec n x
      rw [hc, hv]
      field_simp
      linear_combination this
    rw [e]
    have : (1 - x ^ 2) * (x * u - c * v) ^ 2 + (u - x * (x * u - c * v)) ^ 2 = (1 - x ^ 2) * u ^ 2 + c ^ 2 * v ^ 2 := by ring
    rw [this]
    have hc2 : c ^ 2 ≤ 1 := by nlinarith
    nlinarith [sq_nonneg v]

theorem legendre_one (n : Nat) : legendre n (1 : K) = 1 ∧ legendre (n + 1) (1 : K) = 1 := by
  induction n with
  | zero => simp [legendre]
  | succ n ih =>
    refine ⟨ih.2, ?_⟩
    have h := legendre_rec n (1 : K)
    rw [ih.1, ih.2] at h
    have h2 : (n : K) + 2 ≠ 0 := by positivity
    apply mul_left_cancel₀ h2
    rw [h]; ring

theorem legendre_neg_one (n : Nat) : legendre n (-1 : K) = (-1) ^ n ∧ legendre (n + 1) (-1 : K) = (-1) ^ (n + 1) := by
  induction n with
  | zero => simp [legendre]
  | succ n ih =>
    refine ⟨ih.2, ?_⟩
    have h := legendre_rec n (-1 : K)
    rw [ih.1, ih.2] at h
    have h2 : (n : K) + 2 ≠ 0 := by positivity
    apply mul_left_cancel₀ h2
    rw [h]; ring

theorem legendre_bound (n : Nat) {x : K} (h1 : -1 ≤ x) (h2 : x ≤ 1) : |legendre n x| ≤ 1 := by
  rcases eq_or_lt_of_le h2 with rfl | hlt
  · rw [(legendre_one n).1]; simp
  rcases eq_or_lt_of_le h1 with rfl | hgt
  · rw [(legendre_neg_one n).1]; simp
  cases n with
  | zero => simp [legendre]
  | succ n =>
    have hx : x ^ 2 < 1 := by nlinarith
    have h := legendre_energy n x
    have : legendre (n + 1) x ^ 2 ≤ 1 := by
      by_contra hn
      push Not at hn
      nlinarith [sq_nonneg (legendre n x - x * legendre (n + 1) x)]
    exact abs_le_one_iff_mul_self_le_one.2 (by nlinarith)

/-- `P_n(1 + w X)` as a polynomial. -/
noncomputable def legP (w : K) : Nat → K[X]
  | 0 => 1
  | 1 => 1 + C w * X
  | n + 2 => C (1 / ((n : K) + 2)) * (C (2 * (n : K) + 3) * (1 + C w * X) * legP w (n + 1) - C ((n : K) + 1) * legP w n)

theorem legP_eval (w z : K) (n : Nat) : (legP w n).eval z = legendre n (1 + w * z) ∧
    (legP w (n + 1)).eval z = legendre (n + 1) (1 + w * z) := by
  induction n with
  | zero => simp [legP, legendre]
  | succ n ih =>
    refine ⟨ih.2, ?_⟩
    rw [legP, legendre]
    simp only [eval_mul, eval_C, eval_sub, eval_add, eval_one, eval_X, ih.1, ih.2]
    ring

/-- Expansion at 1 to third order. -/
theorem legP_expand (w : K) (n : Nat) :
    (∃ q : K[X], legP w n = 1 + C ((n : K) * (n + 1) / 2 * w) * X + C (((n : K) - 1) * n * (n + 1) * (n + 2) / 16 * w ^ 2) * X ^ 2 + X ^ 3 * q) ∧
    (∃ q : K[X], legP w (n + 1) = 1 + C (((n : K) + 1) * (n + 2) / 2 * w) * X
      + C ((n : K) * (n + 1) * (n + 2) * (n + 3) / 16 * w ^ 2) * X ^ 2 + X ^ 3 * q) := by
  induction n with
  | zero =>
    refine ⟨⟨0, by simp [legP]⟩, ⟨0, ?_⟩⟩
    simp [legP]
  | succ n ih =>
    obtain ⟨⟨q0, h0⟩, ⟨q1, h1⟩⟩ := ih
    refine ⟨⟨q1, ?_⟩, ?_⟩
    · rw [h1]; push_cast
      congr 4
      · ring
      · ring_nf
    · have h2 : (n : K) + 2 ≠ 0 := by positivity
      refine ⟨C (1 / ((n : K) + 2)) * (C (2 * (n : K) + 3) * q1 + C ((2 * (n : K) + 3) * w) * X * q1
        + C ((2 * (n : K) + 3) * w * ((n : K) * (n + 1) * (n + 2) * (n + 3) / 16 * w ^ 2)) - C ((n : K) + 1) * q0), ?_⟩
      rw [legP, h0, h1]
      push_cast
      have k0 : (C (1 / ((n : K) + 2)) : K[X]) * C ((n : K) + 2) = 1 := by rw [← C_mul]; simp [h2]
      have e1 : (C (((n : K) + 1 + 1) * (n + 1 + 2) / 2 * w) : K[X])
          = C (1 / ((n : K) + 2)) * C ((2 * n + 3) * (((n : K) + 1) * (n + 2) / 2 * w) + (2 * n + 3) * w - (n + 1) * ((n : K) * (n + 1) / 2 * w)) := by
        rw [← C_mul]; congr 1; field_simp; ring
      have e2 : (C (((n : K) + 1) * (n + 1 + 1) * (n + 1 + 2) * (n + 1 + 3) / 16 * w ^ 2) : K[X])
          = C (1 / ((n : K) + 2)) * C ((2 * n + 3) * ((n : K) * (n + 1) * (n + 2) * (n + 3) / 16 * w ^ 2)
            + (2 * n + 3) * w * (((n : K) + 1) * (n + 2) / 2 * w) - (n + 1) * (((n : K) - 1) * n * (n + 1) * (n + 2) / 16 * w ^ 2)) := by
        rw [← C_mul]; congr 1; field_simp; ring
      rw [e1, e2]
      have e3 : (1 : K[X]) = C (1 / ((n : K) + 2)) * C ((2 * n + 3) - ((n : K) + 1)) := by
        rw [← C_mul, ← C_1]; congr 1; field_simp; ring
      conv_rhs => rw [e3]
      simp only [C_add, C_sub, C_mul]
      ring

/-! ## Closed form of the stages -/

/-- Growth of stage `j` minus one, divided by the argument. -/
noncomputable def grow (rkl2 : Bool) (s : Nat) : Nat → K[X]
  | 0 => 0
  | 1 => C (coef rkl2 s 1 : Coef K).mt
  | n + 2 =>
    C (coef rkl2 s (n + 2) : Coef K).mu * grow rkl2 s (n + 1) + C (coef rkl2 s (n + 2) : Coef K).nu * grow rkl2 s n
      + C (if rkl2 then (coef rkl2 s (n + 2) : Coef K).gat else 0)
      + C (coef rkl2 s (n + 2) : Coef K).mt * (1 + X * grow rkl2 s (n + 1))

theorem grow_eq (rkl2 : Bool) (s n : Nat) :
    (1 + X * grow rkl2 s n = C (1 - bb (K := K) rkl2 n) + C (bb rkl2 n) * legP (ww rkl2 s) n) ∧
    (1 + X * grow rkl2 s (n + 1) = C (1 - bb (K := K) rkl2 (n + 1)) + C (bb rkl2 (n + 1)) * legP (ww rkl2 s) (n + 1)) := by
  induction n with
  | zero =>
    obtain ⟨-, -, h, -⟩ := coef_first (K := K) rkl2 s
    refine ⟨?_, ?_⟩
    · simp [grow, legP]
    · simp only [grow, legP, h, C_mul, C_sub, C_1, zero_add]
      ring
  | succ n ih =>
    refine ⟨ih.2, ?_⟩
    obtain ⟨h0, h1⟩ := ih
    obtain ⟨c1, c2, c3, c4, -⟩ := coef_next (K := K) rkl2 s n
    set c : Coef K := coef rkl2 s (n + 2) with hc
    have h2 : (n : K) + 2 ≠ 0 := by positivity
    set B1 : K := bb rkl2 (n + 1)
    set B0 : K := bb rkl2 n
    set B2 : K := bb rkl2 (n + 2) with hB2
    set W : K := ww rkl2 s
    show 1 + X * grow rkl2 s (n + 2) = C (1 - B2) + C B2 * legP W (n + 2)
    rw [grow, legP, ← hc, c4]
    -- the two products with the weights
    have k1 : (C c.mu * C B1 : K[X]) = C (1 / ((n : K) + 2)) * C (2 * (n : K) + 3) * C B2 := by
      simp only [← C_mul]; congr 1; rw [c1]; ring
    have k2 : (C c.nu * C B0 : K[X]) = - (C (1 / ((n : K) + 2)) * C ((n : K) + 1) * C B2) := by
      simp only [← C_mul, ← C_neg]; congr 1; rw [c2]; ring
    have k3 : (C c.mt : K[X]) = C c.mu * C W := by rw [← C_mul, c3]
    have k5 : (C (1 / ((n : K) + 2)) : K[X]) * (C (2 * (n : K) + 3) - C ((n : K) + 1)) = 1 := by
      rw [← C_sub, ← C_mul, ← C_1]; congr 1; field_simp; ring
    simp only [C_sub, C_1] at h0 h1
    simp only [C_mul, C_neg, C_sub, C_1]
    linear_combination (C c.mu + X * C c.mt) * h1 + C c.nu * h0 + X * C B1 * legP W (n + 1) * k3
      + (-1 + (1 + C W * X) * legP W (n + 1)) * k1 + (-1 + legP W n) * k2 - C B2 * k5

theorem grow_eval (rkl2 : Bool) (s n : Nat) (z : K) :
    1 + z * (grow rkl2 s n).eval z = 1 - bb rkl2 n + bb rkl2 n * legendre n (1 + ww rkl2 s * z) := by
  have := congrArg (eval z) (grow_eq (K := K) rkl2 s n).1
  simpa [(legP_eval (ww rkl2 s) z n).1] using this

end
end Verif.Sts
