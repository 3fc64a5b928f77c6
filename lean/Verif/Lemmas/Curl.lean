import Mathlib.Algebra.BigOperators.Ring.Finset
import Mathlib.Algebra.Order.BigOperators.Group.Finset
import Mathlib.Algebra.Order.Field.Basic
import Mathlib.Algebra.Group.End
import Mathlib.Data.Fintype.BigOperators
import Mathlib.Tactic.Linarith
import Mathlib.Tactic.Positivity
import Mathlib.Tactic.Ring

/-! Helper lemmas: the curl on a periodic mesh, given by commuting permutations of the cells, and its norm. -/
namespace Verif.Resist
open Finset
variable {K : Type} [Field K] [LinearOrder K] [IsStrictOrderedRing K] {P : Type} [Fintype P]

/-- Forward and backward differences. -/
def fw (c : K) (s : Equiv.Perm P) (f : P → K) (p : P) : K := c * (f (s p) - f p)
@[inherit_doc fw] def bw (c : K) (s : Equiv.Perm P) (f : P → K) (p : P) : K := c * (f p - f (s⁻¹ p))

omit [Fintype P] in
theorem inv_self (s : Equiv.Perm P) (p : P) : s⁻¹ (s p) = p := s.symm_apply_apply p

omit [LinearOrder K] [IsStrictOrderedRing K] in
theorem sum_shift (s : Equiv.Perm P) (f : P → K) : ∑ p, f (s p) = ∑ p, f p := Equiv.sum_comp s f

omit [LinearOrder K] [IsStrictOrderedRing K] in
theorem by_parts (c : K) (s : Equiv.Perm P) (f g : P → K) : ∑ p, f p * fw c s g p = -∑ p, bw c s f p * g p := by
  have h := sum_shift s fun p => f (s⁻¹ p) * g p
  simp only [inv_self] at h
  unfold fw bw
  have e1 : ∀ p, f p * (c * (g (s p) - g p)) = c * (f p * g (s p)) - c * (f p * g p) := fun p => by ring
  have e2 : ∀ p, c * (f p - f (s⁻¹ p)) * g p = c * (f p * g p) - c * (f (s⁻¹ p) * g p) := fun p => by ring
  simp only [e1, e2, sum_sub_distrib, ← mul_sum]
  rw [h]; ring

omit [LinearOrder K] [IsStrictOrderedRing K] in
theorem cross (a b : K) (s t : Equiv.Perm P) (hc : s * t = t * s) (f g : P → K) :
    ∑ p, fw a s g p * fw b t f p = ∑ p, bw b t g p * bw a s f p := by
  have h1 := sum_shift t fun p => f p * g (t⁻¹ p)
  have h2 := sum_shift s fun p => f (s⁻¹ p) * g p
  have h3 := sum_shift (s * t) fun p => f (s⁻¹ p) * g (t⁻¹ p)
  have c1 : ∀ p, s⁻¹ (s (t p)) = t p := fun p => inv_self s _
  have c2 : ∀ p, t⁻¹ (s (t p)) = s p := by
    intro p
    have : s (t p) = t (s p) := congrArg (fun x => x p) hc
    rw [this]; exact inv_self t _
  simp only [inv_self, Equiv.Perm.mul_apply, c1, c2] at h1 h2 h3
  unfold fw bw
  have e1 : ∀ p, a * (g (s p) - g p) * (b * (f (t p) - f p)) =
      a * b * (f (t p) * g (s p)) - a * b * (f p * g (s p)) - a * b * (f (t p) * g p) + a * b * (f p * g p) := fun p => by ring
  have e2 : ∀ p, b * (g p - g (t⁻¹ p)) * (a * (f p - f (s⁻¹ p))) =
      a * b * (f (s⁻¹ p) * g (t⁻¹ p)) - a * b * (f (s⁻¹ p) * g p) - a * b * (f p * g (t⁻¹ p)) + a * b * (f p * g p) := fun p => by ring
  simp only [e1, e2, sum_sub_distrib, sum_add_distrib, ← mul_sum]
  rw [h1, h2, h3]

theorem fw_le (c : K) (s : Equiv.Perm P) (f : P → K) : ∑ p, fw c s f p ^ 2 ≤ 4 * c ^ 2 * ∑ p, f p ^ 2 := by
  have h := sum_shift s fun p => f p ^ 2
  have : ∑ p, fw c s f p ^ 2 ≤ ∑ p, (2 * c ^ 2 * f (s p) ^ 2 + 2 * c ^ 2 * f p ^ 2) := by
    apply sum_le_sum
    intro p _
    unfold fw
    nlinarith [sq_nonneg (c * (f (s p) + f p))]
  rw [sum_add_distrib, ← mul_sum, ← mul_sum, h] at this
  linarith

omit [LinearOrder K] [IsStrictOrderedRing K] in
theorem bw_eq (c : K) (s : Equiv.Perm P) (f : P → K) : ∑ p, bw c s f p ^ 2 = ∑ p, fw c s f p ^ 2 := by
  rw [← sum_shift s fun p => bw c s f p ^ 2]
  apply sum_congr rfl
  intro p _
  unfold fw bw
  rw [inv_self]

section
variable (c1 c2 c3 : K) (s1 s2 s3 : Equiv.Perm P)

theorem curl_le (h12 : s1 * s2 = s2 * s1) (h13 : s1 * s3 = s3 * s1) (h23 : s2 * s3 = s3 * s2) (e1 e2 e3 : P → K) :
    ∑ p, ((fw c2 s2 e3 p - fw c3 s3 e2 p) ^ 2 + (fw c3 s3 e1 p - fw c1 s1 e3 p) ^ 2 + (fw c1 s1 e2 p - fw c2 s2 e1 p) ^ 2)
      ≤ 4 * (c1 ^ 2 + c2 ^ 2 + c3 ^ 2) * ∑ p, (e1 p ^ 2 + e2 p ^ 2 + e3 p ^ 2) := by
  have d0 : 0 ≤ ∑ p, (bw c1 s1 e1 p + bw c2 s2 e2 p + bw c3 s3 e3 p) ^ 2 := sum_nonneg fun p _ => sq_nonneg _
  have ex : ∀ p, (bw c1 s1 e1 p + bw c2 s2 e2 p + bw c3 s3 e3 p) ^ 2 = bw c1 s1 e1 p ^ 2 + bw c2 s2 e2 p ^ 2 + bw c3 s3 e3 p ^ 2
      + 2 * (bw c3 s3 e3 p * bw c2 s2 e2 p) + 2 * (bw c3 s3 e3 p * bw c1 s1 e1 p) + 2 * (bw c2 s2 e2 p * bw c1 s1 e1 p) := fun p => by ring
  have ey : ∀ p, (fw c2 s2 e3 p - fw c3 s3 e2 p) ^ 2 + (fw c3 s3 e1 p - fw c1 s1 e3 p) ^ 2 + (fw c1 s1 e2 p - fw c2 s2 e1 p) ^ 2 =
      fw c2 s2 e3 p ^ 2 + fw c3 s3 e2 p ^ 2 + fw c3 s3 e1 p ^ 2 + fw c1 s1 e3 p ^ 2 + fw c1 s1 e2 p ^ 2 + fw c2 s2 e1 p ^ 2
      - 2 * (fw c2 s2 e3 p * fw c3 s3 e2 p) - 2 * (fw c1 s1 e3 p * fw c3 s3 e1 p) - 2 * (fw c1 s1 e2 p * fw c2 s2 e1 p) := fun p => by ring
  simp only [ex, ey, sum_add_distrib, sum_sub_distrib, ← mul_sum, bw_eq] at d0 ⊢
  have y23 : ∑ p, fw c2 s2 e3 p * fw c3 s3 e2 p = ∑ p, bw c3 s3 e3 p * bw c2 s2 e2 p := cross c2 c3 s2 s3 h23 e2 e3
  have y13 : ∑ p, fw c1 s1 e3 p * fw c3 s3 e1 p = ∑ p, bw c3 s3 e3 p * bw c1 s1 e1 p := cross c1 c3 s1 s3 h13 e1 e3
  have y12 : ∑ p, fw c1 s1 e2 p * fw c2 s2 e1 p = ∑ p, bw c2 s2 e2 p * bw c1 s1 e1 p := cross c1 c2 s1 s2 h12 e1 e2
  rw [y23, y13, y12]
  have a1 := fw_le c1 s1 e1
  have a2 := fw_le c1 s1 e2
  have a3 := fw_le c1 s1 e3
  have b1 := fw_le c2 s2 e1
  have b2 := fw_le c2 s2 e2
  have b3 := fw_le c2 s2 e3
  have g1 := fw_le c3 s3 e1
  have g2 := fw_le c3 s3 e2
  have g3 := fw_le c3 s3 e3
  linarith

omit [LinearOrder K] [IsStrictOrderedRing K] in
theorem curl_adjoint (b1 b2 b3 e1 e2 e3 : P → K) :
    ∑ p, (b1 p * (fw c2 s2 e3 p - fw c3 s3 e2 p) + b2 p * (fw c3 s3 e1 p - fw c1 s1 e3 p) + b3 p * (fw c1 s1 e2 p - fw c2 s2 e1 p)) =
      ∑ p, ((bw c2 s2 b3 p - bw c3 s3 b2 p) * e1 p + (bw c3 s3 b1 p - bw c1 s1 b3 p) * e2 p + (bw c1 s1 b2 p - bw c2 s2 b1 p) * e3 p) := by
  simp only [mul_sub, sub_mul, sum_add_distrib, sum_sub_distrib, by_parts]
  ring

/-- Explicit diffusion with the edge values `n1`, `n2`, `n3` of the diffusivity does not increase the energy of the field, if the time
step is limited. -/
theorem decay (h12 : s1 * s2 = s2 * s1) (h13 : s1 * s3 = s3 * s1) (h23 : s2 * s3 = s3 * s2) (b1 b2 b3 n1 n2 n3 : P → K) {dt : K}
    (hdt : 0 ≤ dt) (hn : ∀ p, 0 ≤ n1 p ∧ 0 ≤ n2 p ∧ 0 ≤ n3 p)
    (hl : ∀ p, 2 * (c1 ^ 2 + c2 ^ 2 + c3 ^ 2) * (dt * n1 p) ≤ 1 ∧ 2 * (c1 ^ 2 + c2 ^ 2 + c3 ^ 2) * (dt * n2 p) ≤ 1 ∧
      2 * (c1 ^ 2 + c2 ^ 2 + c3 ^ 2) * (dt * n3 p) ≤ 1) {e1 e2 e3 : P → K}
    (q1 : ∀ p, e1 p = n1 p * (bw c2 s2 b3 p - bw c3 s3 b2 p)) (q2 : ∀ p, e2 p = n2 p * (bw c3 s3 b1 p - bw c1 s1 b3 p))
    (q3 : ∀ p, e3 p = n3 p * (bw c1 s1 b2 p - bw c2 s2 b1 p)) :
    ∑ p, ((b1 p - dt * (fw c2 s2 e3 p - fw c3 s3 e2 p)) ^ 2 + (b2 p - dt * (fw c3 s3 e1 p - fw c1 s1 e3 p)) ^ 2
        + (b3 p - dt * (fw c1 s1 e2 p - fw c2 s2 e1 p)) ^ 2) ≤ ∑ p, (b1 p ^ 2 + b2 p ^ 2 + b3 p ^ 2) := by
  have ad := curl_adjoint c1 c2 c3 s1 s2 s3 b1 b2 b3 e1 e2 e3
  have le := curl_le c1 c2 c3 s1 s2 s3 h12 h13 h23 e1 e2 e3
  have ex : ∀ p, (b1 p - dt * (fw c2 s2 e3 p - fw c3 s3 e2 p)) ^ 2 + (b2 p - dt * (fw c3 s3 e1 p - fw c1 s1 e3 p)) ^ 2
        + (b3 p - dt * (fw c1 s1 e2 p - fw c2 s2 e1 p)) ^ 2 = (b1 p ^ 2 + b2 p ^ 2 + b3 p ^ 2)
      - 2 * dt * (b1 p * (fw c2 s2 e3 p - fw c3 s3 e2 p) + b2 p * (fw c3 s3 e1 p - fw c1 s1 e3 p) + b3 p * (fw c1 s1 e2 p - fw c2 s2 e1 p))
      + dt ^ 2 * ((fw c2 s2 e3 p - fw c3 s3 e2 p) ^ 2 + (fw c3 s3 e1 p - fw c1 s1 e3 p) ^ 2 + (fw c1 s1 e2 p - fw c2 s2 e1 p) ^ 2) :=
    fun p => by ring
  rw [sum_congr rfl fun p _ => ex p, sum_add_distrib, sum_sub_distrib, ← mul_sum, ← mul_sum, ad]
  have le2 := mul_le_mul_of_nonneg_left le (sq_nonneg dt)
  have pt : dt ^ 2 * (4 * (c1 ^ 2 + c2 ^ 2 + c3 ^ 2) * ∑ p, (e1 p ^ 2 + e2 p ^ 2 + e3 p ^ 2)) ≤
      2 * dt * ∑ p, ((bw c2 s2 b3 p - bw c3 s3 b2 p) * e1 p + (bw c3 s3 b1 p - bw c1 s1 b3 p) * e2 p + (bw c1 s1 b2 p - bw c2 s2 b1 p) * e3 p) := by
    rw [mul_sum, mul_sum, mul_sum]
    apply sum_le_sum
    intro p _
    rw [q1, q2, q3]
    have one : ∀ {n J C : K}, 0 ≤ n → 2 * C * (dt * n) ≤ 1 → dt ^ 2 * (4 * C * (n * J) ^ 2) ≤ 2 * dt * (J * (n * J)) := by
      intro n J C h0 h1
      have : 0 ≤ 2 * dt * n * J ^ 2 := by positivity
      nlinarith [mul_le_mul_of_nonneg_left h1 this]
    have r1 := one (J := bw c2 s2 b3 p - bw c3 s3 b2 p) (hn p).1 (hl p).1
    have r2 := one (J := bw c3 s3 b1 p - bw c1 s1 b3 p) (hn p).2.1 (hl p).2.1
    have r3 := one (J := bw c1 s1 b2 p - bw c2 s2 b1 p) (hn p).2.2 (hl p).2.2
    linarith
  linarith

end
end Verif.Resist
