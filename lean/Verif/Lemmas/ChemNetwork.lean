import Verif.Model.ChemNetwork
import Mathlib.Algebra.BigOperators.Ring.Finset
import Mathlib.Algebra.BigOperators.Fin
import Mathlib.Algebra.Order.BigOperators.Group.Finset
import Mathlib.Tactic.Ring
import Mathlib.Tactic.Linarith

/-!
# Linear functionals of the loops over reactions
-/

namespace Verif.ChemNet

open Finset

variable {n : ℕ}

/-- Weighted sum. -/
noncomputable def ws (w : Fin n → ℤ) (d : Fin n → ℝ) : ℝ := ∑ j, (w j : ℝ) * d j

theorem ws_add (w : Fin n → ℤ) (d : Fin n → ℝ) (i : Fin n) (x : ℝ) :
    ws w (add d i x) = ws w d + w i * x := by
  unfold ws add
  have e : ∀ j, (w j : ℝ) * Function.update d i (d i + x) j
      = w j * d j + if j = i then (w i : ℝ) * x else 0 := by
    intro j
    by_cases h : j = i
    · subst h; rw [Function.update_self, if_pos rfl]; ring
    · rw [Function.update_of_ne h, if_neg h]; ring
  rw [Finset.sum_congr rfl fun j _ => e j, Finset.sum_add_distrib, Finset.sum_ite_eq' univ i]
  simp

theorem ws_one (w : Fin n → ℤ) (yp : Fin n → ℝ) (k : ℝ) (a b : Fin n) (d : Fin n → ℝ) :
    ws w (one yp k a b d) = ws w d + ((w b - w a : ℤ) : ℝ) * (k * yp a) := by
  unfold one
  dsimp only
  rw [ws_add, ws_add]; push_cast; ring

theorem ws_two (w : Fin n → ℤ) (yp : Fin n → ℝ) (k : ℝ) (a b p q : Fin n) (sa sb sp sq : ℤ)
    (d : Fin n → ℝ) : ws w (two yp k a b p q sa sb sp sq d)
      = ws w d + ((sp * w p + sq * w q - sa * w a - sb * w b : ℤ) : ℝ) * rate2 yp k a b := by
  unfold two
  dsimp only
  rw [ws_add, ws_add, ws_add, ws_add]; push_cast; ring

/-- A loop whose body adds to the sum. -/
theorem ws_loop {m : ℕ} (w : Fin n → ℤ) (f : (Fin n → ℝ) → Fin m → (Fin n → ℝ)) (c : Fin m → ℝ)
    (h : ∀ d i, ws w (f d i) = ws w d + c i) (d : Fin n → ℝ) :
    ws w ((List.finRange m).foldl f d) = ws w d + ∑ i, c i := by
  have gen : ∀ (l : List (Fin m)) (d : Fin n → ℝ),
      ws w (l.foldl f d) = ws w d + (l.map c).sum := by
    intro l
    induction l with
    | nil => intro d; simp
    | cons a l ih => intro d; rw [List.foldl_cons, ih, h, List.map_cons, List.sum_cons]; ring
  rw [gen]
  congr 1

theorem ws_zero (w : Fin n → ℤ) : ws w (fun _ => 0) = 0 := by unfold ws; simp

theorem rate2_nonneg {yp : Fin n → ℝ} (h : ∀ i, 0 ≤ yp i) (k : ℝ) (a b : Fin n) :
    rate2 yp k a b = k * yp a * yp b := by
  unfold rate2
  rw [if_neg]
  rintro ⟨h1, -⟩
  exact absurd (h a) (not_le.mpr h1)

/-- Weighted sum of the right hand side of gow17. -/
theorem gow_ws (w : Fin 18 → ℤ) (hw : ∀ j : Fin 18, 12 ≤ j.val → w j = 0) (X : Gow.Elem)
    (K : Gow.Coef) (tu : ℝ) (y : Fin 12 → ℝ) :
    ∑ i, (w (Gow.kept i) : ℝ) * Gow.rhs X K tu y i = tu * (
      ∑ r, ((w (Gow.outcr r) - w (Gow.incr r) : ℤ) : ℝ) * (K.cr r * Gow.ghost X y (Gow.incr r)) +
      ∑ r, ((w (Gow.out1 r) + w (Gow.out2 r) - w (Gow.in1 r) - w (Gow.in2 r) : ℤ) : ℝ) *
        rate2 (Gow.ghost X y) (K.b2 r) (Gow.in1 r) (Gow.in2 r) +
      ∑ r, ((w (Gow.outph r) - w (Gow.inph r) : ℤ) : ℝ) * (K.ph r * Gow.ghost X y (Gow.inph r)) +
      ∑ r, ((w (Gow.outgr r) - w (Gow.ingr r) : ℤ) : ℝ) * (K.gr r * Gow.ghost X y (Gow.ingr r))) := by
  have hk : ∀ d : Fin 18 → ℝ, ∑ i, (w (Gow.kept i) : ℝ) * (d (Gow.kept i) * tu) = tu * ws w d := by
    intro d
    have h1 : ws w d = ∑ i : Fin 12, (w (Gow.kept i) : ℝ) * d (Gow.kept i) := by
      unfold ws
      rw [show (∑ j : Fin 18, (w j : ℝ) * d j) = ∑ j : Fin (12 + 6), (w j : ℝ) * d j from rfl,
        Fin.sum_univ_add]
      have h2 : ∑ i : Fin 6, (w (Fin.natAdd 12 i) : ℝ) * d (Fin.natAdd 12 i) = 0 := by
        refine Finset.sum_eq_zero fun i _ => ?_
        rw [hw _ (by simp)]; simp
      rw [h2, add_zero]
      rfl
    rw [h1, Finset.mul_sum]
    exact Finset.sum_congr rfl fun i _ => by ring
  unfold Gow.rhs
  rw [hk]
  congr 1
  rw [ws_loop w _ _ fun d i => ws_one w (Gow.ghost X y) (K.gr i) (Gow.ingr i) (Gow.outgr i) d,
    ws_loop w _ _ fun d i => ws_one w (Gow.ghost X y) (K.ph i) (Gow.inph i) (Gow.outph i) d,
    ws_loop w _ _ fun d i => ws_two w (Gow.ghost X y) (K.b2 i) (Gow.in1 i) (Gow.in2 i)
      (Gow.out1 i) (Gow.out2 i) 1 1 1 1 d,
    ws_loop w _ _ fun d i => ws_one w (Gow.ghost X y) (K.cr i) (Gow.incr i) (Gow.outcr i) d,
    ws_zero]
  simp only [one_mul, zero_add]

/-- Weighted sum of the right hand side of G14Sod. -/
theorem g14_ws (w : Fin 9 → ℤ) (hw : w 8 = 0) (k : Fin 20 → ℝ) (nH tu : ℝ) (y : Fin 8 → ℝ) :
    ∑ i, (w (G14.kept i) : ℝ) * G14.rhs k nH tu y i = tu * nH *
      ∑ r, ((G14.arr G14.so1 r * w (G14.out1 r) + G14.arr G14.so2 r * w (G14.out2 r)
        - G14.arr G14.si1 r * w (G14.in1 r) - G14.arr G14.si2 r * w (G14.in2 r) : ℤ) : ℝ) *
        rate2 (G14.clip (G14.ghost y)) (k r) (G14.in1 r) (G14.in2 r) := by
  have hk : ∀ d : Fin 9 → ℝ, ∑ i, (w (G14.kept i) : ℝ) * (d (G14.kept i) * tu * nH)
      = tu * nH * ws w d := by
    intro d
    have h1 : ws w d = ∑ i : Fin 8, (w (G14.kept i) : ℝ) * d (G14.kept i) := by
      unfold ws
      rw [Fin.sum_univ_castSucc]
      have : (w (Fin.last 8) : ℝ) = 0 := by exact_mod_cast hw
      rw [this, zero_mul, add_zero]
      rfl
    rw [h1, Finset.mul_sum]
    exact Finset.sum_congr rfl fun i _ => by ring
  unfold G14.rhs
  rw [hk]
  congr 1
  rw [ws_loop w _ _ fun d i => ws_two w (G14.clip (G14.ghost y)) (k i) (G14.in1 i) (G14.in2 i)
      (G14.out1 i) (G14.out2 i)
      (G14.arr G14.si1 i) (G14.arr G14.si2 i) (G14.arr G14.so1 i) (G14.arr G14.so2 i) d, ws_zero, zero_add]

end Verif.ChemNet
