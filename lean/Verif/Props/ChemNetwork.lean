import Verif.Lemmas.ChemNetwork
import Verif.Spec.ChemNetwork
import Mathlib.Tactic.FinCases
import Mathlib.Tactic.NormNum
import Mathlib.Tactic.Positivity

/-!
# C88: chemical networks do what their list of reactions says
-/

namespace Verif.ChemNet

open Finset

/-! ### gow17 -/

/-- Weight one on a single species. -/
def unit {n : ℕ} (i : Fin n) : Fin n → ℤ := fun j => if j = i then 1 else 0

theorem gow_unit (i : Fin 12) (f : Fin 12 → ℝ) :
    ∑ j, ((unit (Gow.kept i) (Gow.kept j) : ℤ) : ℝ) * f j = f i := by
  have e : ∀ j, ((unit (Gow.kept i) (Gow.kept j) : ℤ) : ℝ) * f j = if j = i then f i else 0 := by
    intro j
    unfold unit
    by_cases h : j = i
    · subst h; simp
    · rw [if_neg h, if_neg]
      · simp
      · intro h2
        apply h
        have := congrArg Fin.val h2
        exact Fin.ext this
  rw [Finset.sum_congr rfl fun j _ => e j, Finset.sum_ite_eq' univ i]
  simp

theorem gow_unit_ghost (i : Fin 12) : ∀ j : Fin 18, 12 ≤ j.val → unit (Gow.kept i) j = 0 := by
  revert i; decide

/-- Every reaction of gow17 runs as it is listed: its speed is the coefficient times the
abundances of the reactants listed first (one for cosmic rays, photons and grains, two
otherwise), and it changes the twelve species as listed. -/
theorem gow_listed (X : Gow.Elem) (K : Gow.Coef) (tu : ℝ) (y : Fin 12 → ℝ)
    (hy : ∀ j, 0 ≤ Gow.ghost X y j) (i : Fin 12) :
    Gow.rhs X K tu y i = tu * (
      ∑ r, (Spec.gain (Spec.Gow.cr r) (Gow.kept i) : ℝ) *
        (K.cr r * Gow.ghost X y (Spec.r1 (Spec.Gow.cr r))) +
      ∑ r, (Spec.gain (Spec.Gow.body2 r) (Gow.kept i) : ℝ) *
        (K.b2 r * Gow.ghost X y (Spec.r1 (Spec.Gow.body2 r)) *
          Gow.ghost X y (Spec.r2 (Spec.Gow.body2 r))) +
      ∑ r, (Spec.gain (Spec.Gow.ph r) (Gow.kept i) : ℝ) *
        (K.ph r * Gow.ghost X y (Spec.r1 (Spec.Gow.ph r))) +
      ∑ r, (Spec.gain (Spec.Gow.gr r) (Gow.kept i) : ℝ) *
        (K.gr r * Gow.ghost X y (Spec.r1 (Spec.Gow.gr r)))) := by
  have h := gow_ws (unit (Gow.kept i)) (gow_unit_ghost i) X K tu y
  rw [gow_unit] at h
  rw [h]
  have c1 : ∀ (i : Fin 12) r, Gow.incr r = Spec.r1 (Spec.Gow.cr r) ∧
      unit (Gow.kept i) (Gow.outcr r) - unit (Gow.kept i) (Gow.incr r)
        = Spec.gain (Spec.Gow.cr r) (Gow.kept i) := by decide +kernel
  have c2 : ∀ (i : Fin 12) r, Gow.in1 r = Spec.r1 (Spec.Gow.body2 r) ∧
      Gow.in2 r = Spec.r2 (Spec.Gow.body2 r) ∧
      unit (Gow.kept i) (Gow.out1 r) + unit (Gow.kept i) (Gow.out2 r)
        - unit (Gow.kept i) (Gow.in1 r) - unit (Gow.kept i) (Gow.in2 r)
        = Spec.gain (Spec.Gow.body2 r) (Gow.kept i) := by decide +kernel
  have c3 : ∀ (i : Fin 12) r, Gow.inph r = Spec.r1 (Spec.Gow.ph r) ∧
      unit (Gow.kept i) (Gow.outph r) - unit (Gow.kept i) (Gow.inph r)
        = Spec.gain (Spec.Gow.ph r) (Gow.kept i) := by decide +kernel
  have c4 : ∀ (i : Fin 12) r, Gow.ingr r = Spec.r1 (Spec.Gow.gr r) ∧
      unit (Gow.kept i) (Gow.outgr r) - unit (Gow.kept i) (Gow.ingr r)
        = Spec.gain (Spec.Gow.gr r) (Gow.kept i) := by decide +kernel
  congr 1
  congr 1
  · congr 1
    · congr 1
      · refine Finset.sum_congr rfl fun r _ => ?_
        rw [← (c1 i r).1, ← (c1 i r).2]
      · refine Finset.sum_congr rfl fun r _ => ?_
        rw [← (c2 i r).1, ← (c2 i r).2.1, ← (c2 i r).2.2, rate2_nonneg hy]
    · refine Finset.sum_congr rfl fun r _ => ?_
      rw [← (c3 i r).1, ← (c3 i r).2]
  · refine Finset.sum_congr rfl fun r _ => ?_
    rw [← (c4 i r).1, ← (c4 i r).2]

/-- The listed reactions keep every element, except for the schematic reaction (5) with cosmic
rays, which makes a hydrogen nucleus. -/
theorem gow_balanced :
    (∀ c ∈ [Spec.Gow.hydrogen, Spec.Gow.helium, Spec.Gow.carbon, Spec.Gow.oxygen,
        Spec.Gow.silicon],
      (∀ r, r ≠ 5 → Spec.Balanced c (Spec.Gow.cr r)) ∧ (∀ r, Spec.Balanced c (Spec.Gow.body2 r)) ∧
      (∀ r, Spec.Balanced c (Spec.Gow.ph r)) ∧ ∀ r, Spec.Balanced c (Spec.Gow.gr r)) ∧
    Spec.content Spec.Gow.hydrogen (Spec.Gow.cr 5).2
      = Spec.content Spec.Gow.hydrogen (Spec.Gow.cr 5).1 + 1 := by
  decide +kernel

/-- With the six species that are not evolved, the elements have their totals and the gas is
neutral. -/
theorem gow_elements (X : Gow.Elem) (y : Fin 12 → ℝ) :
    ∑ i, (Spec.Gow.hydrogen i : ℝ) * Gow.ghost X y i = 1 ∧
    ∑ i, (Spec.Gow.helium i : ℝ) * Gow.ghost X y i = X.xHe ∧
    ∑ i, (Spec.Gow.carbon i : ℝ) * Gow.ghost X y i = X.xC ∧
    ∑ i, (Spec.Gow.oxygen i : ℝ) * Gow.ghost X y i = X.xO ∧
    ∑ i, (Spec.Gow.silicon i : ℝ) * Gow.ghost X y i = X.xSi ∧
    ∑ i, (Spec.Gow.charge i : ℝ) * Gow.ghost X y i = 0 := by
  refine ⟨?_, ?_, ?_, ?_, ?_, ?_⟩ <;>
    simp [Fin.sum_univ_succ, Gow.ghost, Spec.Gow.hydrogen, Spec.Gow.helium, Spec.Gow.carbon,
      Spec.Gow.oxygen, Spec.Gow.silicon, Spec.Gow.charge] <;> ring

/-- Coefficients that are not negative. -/
structure Gow.Coef.Pos (K : Gow.Coef) : Prop where
  cr : ∀ r, 0 ≤ K.cr r
  b2 : ∀ r, 0 ≤ K.b2 r
  ph : ∀ r, 0 ≤ K.ph r
  gr : ∀ r, 0 ≤ K.gr r

/-- No reaction lowers the weighted sum unless it uses up `g`. -/
def Gow.Guard (w : Fin 18 → ℤ) (g : Fin 18) : Prop :=
  (∀ r, 0 ≤ w (Gow.outcr r) - w (Gow.incr r) ∨ Gow.incr r = g) ∧
  (∀ r, 0 ≤ w (Gow.out1 r) + w (Gow.out2 r) - w (Gow.in1 r) - w (Gow.in2 r) ∨
    Gow.in1 r = g ∨ Gow.in2 r = g) ∧
  (∀ r, 0 ≤ w (Gow.outph r) - w (Gow.inph r) ∨ Gow.inph r = g) ∧
  (∀ r, 0 ≤ w (Gow.outgr r) - w (Gow.ingr r) ∨ Gow.ingr r = g)

instance (w : Fin 18 → ℤ) (g : Fin 18) : Decidable (Gow.Guard w g) :=
  inferInstanceAs (Decidable (_ ∧ _ ∧ _ ∧ _))

theorem gow_guard (w : Fin 18 → ℤ) (hw : ∀ j : Fin 18, 12 ≤ j.val → w j = 0) (g : Fin 18)
    (hg : Gow.Guard w g) (X : Gow.Elem) (K : Gow.Coef) (hK : K.Pos) (tu : ℝ) (htu : 0 ≤ tu)
    (y : Fin 12 → ℝ) (hy : ∀ j, 0 ≤ Gow.ghost X y j) (h0 : Gow.ghost X y g = 0) :
    0 ≤ ∑ i, (w (Gow.kept i) : ℝ) * Gow.rhs X K tu y i := by
  rw [gow_ws w hw]
  refine mul_nonneg htu (add_nonneg (add_nonneg (add_nonneg ?_ ?_) ?_) ?_)
  · refine Finset.sum_nonneg fun r _ => ?_
    rcases hg.1 r with h | h
    · exact mul_nonneg (by exact_mod_cast h) (mul_nonneg (hK.cr r) (hy _))
    · rw [h, h0]; simp
  · refine Finset.sum_nonneg fun r _ => ?_
    rw [rate2_nonneg hy]
    rcases hg.2.1 r with h | h | h
    · exact mul_nonneg (by exact_mod_cast h) (mul_nonneg (mul_nonneg (hK.b2 r) (hy _)) (hy _))
    · rw [h, h0]; simp
    · rw [h, h0]; simp
  · refine Finset.sum_nonneg fun r _ => ?_
    rcases hg.2.2.1 r with h | h
    · exact mul_nonneg (by exact_mod_cast h) (mul_nonneg (hK.ph r) (hy _))
    · rw [h, h0]; simp
  · refine Finset.sum_nonneg fun r _ => ?_
    rcases hg.2.2.2 r with h | h
    · exact mul_nonneg (by exact_mod_cast h) (mul_nonneg (hK.gr r) (hy _))
    · rw [h, h0]; simp

/-- An abundance that is zero is not made negative by a step: for the twelve species, and for
all the others but atomic hydrogen. -/
theorem gow_positive (X : Gow.Elem) (K : Gow.Coef) (hK : K.Pos) (tu : ℝ) (htu : 0 ≤ tu)
    (y : Fin 12 → ℝ) (hy : ∀ j, 0 ≤ Gow.ghost X y j) (g : Fin 18) (hg : g ≠ Gow.igH)
    (h0 : Gow.ghost X y g = 0) (t : ℝ) (ht : 0 ≤ t) :
    0 ≤ Gow.ghost X (fun i => y i + t * Gow.rhs X K tu y i) g := by
  have key : ∀ i : Fin 12, Gow.ghost X y (Gow.kept i) = 0 → 0 ≤ Gow.rhs X K tu y i := by
    intro i hi
    have hgd : ∀ i : Fin 12, Gow.Guard (unit (Gow.kept i)) (Gow.kept i) := by decide +kernel
    have := gow_guard (unit (Gow.kept i)) (gow_unit_ghost i) _ (hgd i) X K hK tu htu y hy hi
    rwa [gow_unit] at this
  have hyk : ∀ i : Fin 12, Gow.ghost X y (Gow.kept i) = y i := by
    intro i; fin_cases i <;> rfl
  have hy0 : ∀ i : Fin 12, 0 ≤ y i := fun i => by rw [← hyk i]; exact hy _
  have hstep : ∀ i : Fin 12, y i = 0 → 0 ≤ y i + t * Gow.rhs X K tu y i := by
    intro i hi
    rw [hi, zero_add]
    exact mul_nonneg ht (key i (by rw [hyk, hi]))
  -- a ghost `x - Σ y`: its rate is minus the sum
  have hgh : ∀ w : Fin 18 → ℤ, (∀ j : Fin 18, 12 ≤ j.val → w j = 0) → Gow.Guard w g →
      0 ≤ ∑ i, (w (Gow.kept i) : ℝ) * Gow.rhs X K tu y i :=
    fun w hw hgw => gow_guard w hw g hgw X K hK tu htu y hy h0
  generalize Gow.rhs X K tu y = d at *
  fin_cases g
  · exact hstep 0 h0
  · exact hstep 1 h0
  · exact hstep 2 h0
  · exact hstep 3 h0
  · exact hstep 4 h0
  · exact hstep 5 h0
  · exact hstep 6 h0
  · exact hstep 7 h0
  · exact hstep 8 h0
  · exact hstep 9 h0
  · exact hstep 10 h0
  · exact hstep 11 h0
  · have h1 := hgh ![0,0,0,0,0,0,0,0,0,0,0,-1,0,0,0,0,0,0] (by decide) (by decide +kernel)
    simp [Fin.sum_univ_succ, Gow.kept] at h1
    change X.xSi - y 11 = 0 at h0
    change 0 ≤ X.xSi - (y 11 + t * d 11)
    have := mul_nonneg ht (neg_nonneg.mpr h1)
    linarith
  · have h1 := hgh ![0,0,-1,-1,-1,-1,0,0,0,0,0,0,0,0,0,0,0,0] (by decide) (by decide +kernel)
    simp [Fin.sum_univ_succ, Gow.kept] at h1
    change X.xC - y 5 - y 2 - y 3 - y 4 = 0 at h0
    change 0 ≤ X.xC - (y 5 + t * d 5) - (y 2 + t * d 2) - (y 3 + t * d 3) - (y 4 + t * d 4)
    have := mul_nonneg ht (show 0 ≤ -(d 5 + d 2 + d 3 + d 4) by linarith)
    linarith
  · have h1 := hgh ![0,-1,0,-1,0,-1,0,0,0,0,-1,0,0,0,0,0,0,0] (by decide) (by decide +kernel)
    simp [Fin.sum_univ_succ, Gow.kept] at h1
    change X.xO - y 5 - y 1 - y 3 - y 10 = 0 at h0
    change 0 ≤ X.xO - (y 5 + t * d 5) - (y 1 + t * d 1) - (y 3 + t * d 3) - (y 10 + t * d 10)
    have := mul_nonneg ht (show 0 ≤ -(d 5 + d 1 + d 3 + d 10) by linarith)
    linarith
  · have h1 := hgh ![-1,0,0,0,0,0,0,0,0,0,0,0,0,0,0,0,0,0] (by decide) (by decide +kernel)
    simp [Fin.sum_univ_succ, Gow.kept] at h1
    change X.xHe - y 0 = 0 at h0
    change 0 ≤ X.xHe - (y 0 + t * d 0)
    have := mul_nonneg ht (neg_nonneg.mpr h1)
    linarith
  · change y 0 + y 4 + y 5 + y 8 + y 9 + y 7 + y 10 + y 11 = 0 at h0
    have a0 := hy0 0
    have a4 := hy0 4
    have a5 := hy0 5
    have a8 := hy0 8
    have a9 := hy0 9
    have a7 := hy0 7
    have a10 := hy0 10
    have a11 := hy0 11
    have b0 := hstep 0 (by linarith)
    have b4 := hstep 4 (by linarith)
    have b5 := hstep 5 (by linarith)
    have b8 := hstep 8 (by linarith)
    have b9 := hstep 9 (by linarith)
    have b7 := hstep 7 (by linarith)
    have b10 := hstep 10 (by linarith)
    have b11 := hstep 11 (by linarith)
    change 0 ≤ (y 0 + t * d 0) + (y 4 + t * d 4) + (y 5 + t * d 5) + (y 8 + t * d 8)
      + (y 9 + t * d 9) + (y 7 + t * d 7) + (y 10 + t * d 10) + (y 11 + t * d 11)
    positivity
  · exact absurd rfl hg

/-- Weights of the hydrogen bound in the twelve species, negative. -/
def Gow.wH : Fin 18 → ℤ := ![0, -1, -1, 0, 0, -1, -2, -1, -3, -2, 0, 0, 0, 0, 0, 0, 0, 0]

theorem gow_hydrogen_guard :
    (∀ r, r ≠ 5 → 0 ≤ Gow.wH (Gow.outcr r) - Gow.wH (Gow.incr r) ∨ Gow.incr r = Gow.igH) ∧
    Gow.wH (Gow.outcr 5) - Gow.wH (Gow.incr 5) = -1 ∧ Gow.incr 5 = Gow.iCO ∧
    (∀ r, 0 ≤ Gow.wH (Gow.out1 r) + Gow.wH (Gow.out2 r) - Gow.wH (Gow.in1 r) - Gow.wH (Gow.in2 r) ∨
      Gow.in1 r = Gow.igH ∨ Gow.in2 r = Gow.igH) ∧
    (∀ r, 0 ≤ Gow.wH (Gow.outph r) - Gow.wH (Gow.inph r) ∨ Gow.inph r = Gow.igH) ∧
    (∀ r, 0 ≤ Gow.wH (Gow.outgr r) - Gow.wH (Gow.ingr r) ∨ Gow.ingr r = Gow.igH) := by
  decide +kernel

/-- Atomic hydrogen that is used up falls below zero by no more than the schematic reaction (5)
with cosmic rays takes: it binds a hydrogen nucleus that is not among its reactants. -/
theorem gow_hydrogen_bound (X : Gow.Elem) (K : Gow.Coef) (hK : K.Pos) (tu : ℝ) (htu : 0 ≤ tu)
    (y : Fin 12 → ℝ) (hy : ∀ j, 0 ≤ Gow.ghost X y j) (h0 : Gow.ghost X y Gow.igH = 0) (t : ℝ)
    (ht : 0 ≤ t) : -(t * tu * (K.cr 5 * y 3))
      ≤ Gow.ghost X (fun i => y i + t * Gow.rhs X K tu y i) Gow.igH := by
  obtain ⟨g1, g2, g3, g4, g5, g6⟩ := gow_hydrogen_guard
  have hw := gow_ws Gow.wH (by decide) X K tu y
  have hc3 : Gow.ghost X y Gow.iCO = y 3 := rfl
  have s1 : -(K.cr 5 * y 3) ≤ ∑ r, ((Gow.wH (Gow.outcr r) - Gow.wH (Gow.incr r) : ℤ) : ℝ) *
      (K.cr r * Gow.ghost X y (Gow.incr r)) := by
    rw [← Finset.add_sum_erase univ _ (Finset.mem_univ (5 : Fin 7)), g2, g3, hc3]
    have : 0 ≤ ∑ r ∈ univ.erase (5 : Fin 7), ((Gow.wH (Gow.outcr r) - Gow.wH (Gow.incr r) : ℤ) : ℝ) *
        (K.cr r * Gow.ghost X y (Gow.incr r)) := by
      refine Finset.sum_nonneg fun r hr => ?_
      rcases g1 r (Finset.ne_of_mem_erase hr) with h | h
      · exact mul_nonneg (by exact_mod_cast h) (mul_nonneg (hK.cr r) (hy _))
      · rw [h, h0]; simp
    rw [show ((-1 : ℤ) : ℝ) = -1 by norm_num]
    linarith
  have s2 : 0 ≤ ∑ r, ((Gow.wH (Gow.out1 r) + Gow.wH (Gow.out2 r) - Gow.wH (Gow.in1 r)
      - Gow.wH (Gow.in2 r) : ℤ) : ℝ) *
        rate2 (Gow.ghost X y) (K.b2 r) (Gow.in1 r) (Gow.in2 r) := by
    refine Finset.sum_nonneg fun r _ => ?_
    rw [rate2_nonneg hy]
    rcases g4 r with h | h | h
    · exact mul_nonneg (by exact_mod_cast h) (mul_nonneg (mul_nonneg (hK.b2 r) (hy _)) (hy _))
    · rw [h, h0]; simp
    · rw [h, h0]; simp
  have s3 : 0 ≤ ∑ r, ((Gow.wH (Gow.outph r) - Gow.wH (Gow.inph r) : ℤ) : ℝ) *
      (K.ph r * Gow.ghost X y (Gow.inph r)) := by
    refine Finset.sum_nonneg fun r _ => ?_
    rcases g5 r with h | h
    · exact mul_nonneg (by exact_mod_cast h) (mul_nonneg (hK.ph r) (hy _))
    · rw [h, h0]; simp
  have s4 : 0 ≤ ∑ r, ((Gow.wH (Gow.outgr r) - Gow.wH (Gow.ingr r) : ℤ) : ℝ) *
      (K.gr r * Gow.ghost X y (Gow.ingr r)) := by
    refine Finset.sum_nonneg fun r _ => ?_
    rcases g6 r with h | h
    · exact mul_nonneg (by exact_mod_cast h) (mul_nonneg (hK.gr r) (hy _))
    · rw [h, h0]; simp
  have hsum : -(tu * (K.cr 5 * y 3)) ≤ ∑ i, (Gow.wH (Gow.kept i) : ℝ) * Gow.rhs X K tu y i := by
    rw [hw]
    have := mul_le_mul_of_nonneg_left (add_le_add (add_le_add (add_le_add s1 s2) s3) s4) htu
    rw [add_zero, add_zero, add_zero, mul_neg] at this
    exact this
  generalize Gow.rhs X K tu y = d at *
  simp [Fin.sum_univ_succ, Gow.kept, Gow.wH] at hsum
  change 1 - (y 1 + y 2 + y 5 + 3 * y 8 + 2 * y 9 + y 7 + 2 * y 6) = 0 at h0
  change _ ≤ 1 - ((y 1 + t * d 1) + (y 2 + t * d 2) + (y 5 + t * d 5) + 3 * (y 8 + t * d 8)
    + 2 * (y 9 + t * d 9) + (y 7 + t * d 7) + 2 * (y 6 + t * d 6))
  have := mul_le_mul_of_nonneg_left (show -(tu * (K.cr 5 * y 3)) ≤
    -(d 1 + d 2 + d 5 + 3 * d 8 + 2 * d 9 + d 7 + 2 * d 6) by linarith) ht
  linarith

/-- Coefficients with reaction (5) of the cosmic rays only. -/
def Gow.K5 : Gow.Coef := ⟨fun r => if r = 5 then 1 else 0, fun _ => 0, fun _ => 0, fun _ => 0⟩

/-- Molecular gas with carbon monoxide. -/
noncomputable def Gow.mol : Fin 12 → ℝ := ![0, 0, 0, 1 / 10000, 0, 0, 1 / 2, 0, 0, 0, 0, 0]

noncomputable def Gow.X0 : Gow.Elem := ⟨1 / 10000, 1 / 10000, 1 / 10, 0⟩

theorem gow_mol_CO : Gow.ghost Gow.X0 Gow.mol Gow.iCO = 1 / 10000 := rfl

theorem gow_mol_sum : Gow.mol 1 + Gow.mol 2 + Gow.mol 5 + 3 * Gow.mol 8 + 2 * Gow.mol 9
    + Gow.mol 7 + 2 * Gow.mol 6 = 1 := by simp [Gow.mol]

theorem gow_K5_sum : ∑ i, (Gow.wH (Gow.kept i) : ℝ) * Gow.rhs Gow.X0 Gow.K5 1 Gow.mol i
    = -(1 / 10000) := by
  rw [gow_ws Gow.wH (by decide) Gow.X0 Gow.K5 1 Gow.mol]
  have b2 : ∀ r a b, rate2 (Gow.ghost Gow.X0 Gow.mol) (Gow.K5.b2 r) a b = 0 := by
    intro r a b
    have : Gow.K5.b2 r = 0 := rfl
    unfold rate2; rw [this]; simp
  have ph : ∀ r, Gow.K5.ph r = 0 := fun r => rfl
  have gr : ∀ r, Gow.K5.gr r = 0 := fun r => rfl
  have cr : ∀ r, r ≠ 5 → Gow.K5.cr r = 0 := fun r hr => if_neg hr
  have cr5 : Gow.K5.cr 5 = 1 := by simp [Gow.K5]
  simp only [b2, ph, gr, zero_mul, mul_zero, Finset.sum_const_zero, add_zero, one_mul]
  rw [Finset.sum_eq_single (5 : Fin 7)]
  · rw [gow_hydrogen_guard.2.1, gow_hydrogen_guard.2.2.1, cr5, gow_mol_CO]
    norm_num
  · intro r _ hr; rw [cr r hr, zero_mul, mul_zero]
  · intro h; exact absurd (Finset.mem_univ _) h

/-- The bound is met: atomic hydrogen does become negative. -/
theorem gow_hydrogen_negative : Gow.K5.Pos ∧ (∀ j, 0 ≤ Gow.ghost Gow.X0 Gow.mol j) ∧
    Gow.ghost Gow.X0 Gow.mol Gow.igH = 0 ∧ ∀ t > 0,
      Gow.ghost Gow.X0 (fun i => Gow.mol i + t * Gow.rhs Gow.X0 Gow.K5 1 Gow.mol i) Gow.igH < 0 := by
  have hg : ∀ j, 0 ≤ Gow.ghost Gow.X0 Gow.mol j := by
    intro j
    fin_cases j <;> simp [Gow.ghost, Gow.mol, Gow.X0]
  refine ⟨⟨?_, ?_, ?_, ?_⟩, hg, ?_, fun t ht => ?_⟩
  · intro r; simp only [Gow.K5]; split_ifs <;> norm_num
  · intro r; exact le_rfl
  · intro r; exact le_rfl
  · intro r; exact le_rfl
  · change 1 - (Gow.mol 1 + Gow.mol 2 + Gow.mol 5 + 3 * Gow.mol 8 + 2 * Gow.mol 9 + Gow.mol 7
      + 2 * Gow.mol 6) = 0
    rw [gow_mol_sum, sub_self]
  · have hw := gow_K5_sum
    have hm := gow_mol_sum
    generalize Gow.rhs Gow.X0 Gow.K5 1 Gow.mol = d at *
    generalize Gow.mol = y at *
    simp [Fin.sum_univ_succ, Gow.kept, Gow.wH] at hw
    change 1 - ((y 1 + t * d 1) + (y 2 + t * d 2) + (y 5 + t * d 5) + 3 * (y 8 + t * d 8)
      + 2 * (y 9 + t * d 9) + (y 7 + t * d 7) + 2 * (y 6 + t * d 6)) < 0
    have e : d 1 + d 2 + d 5 + 3 * d 8 + 2 * d 9 + d 7 + 2 * d 6 = 1 / 10000 := by linarith
    have e2 : t * (d 1 + d 2 + d 5 + 3 * d 8 + 2 * d 9 + d 7 + 2 * d 6) = t * (1 / 10000) := by
      rw [e]
    linarith

/-- The hypotheses of the theorems above hold for this gas; silicon, among others, is used up. -/
example : Gow.K5.Pos ∧ (∀ j, 0 ≤ Gow.ghost Gow.X0 Gow.mol j) ∧
    Gow.ghost Gow.X0 Gow.mol Gow.igSi = 0 ∧ Gow.igSi ≠ Gow.igH :=
  ⟨gow_hydrogen_negative.1, gow_hydrogen_negative.2.1, by
    change (0 : ℝ) - 0 = 0
    ring, by decide⟩

/-! ### G14Sod -/

theorem g14_unit (i : Fin 8) (f : Fin 8 → ℝ) :
    ∑ j, ((unit (G14.kept i) (G14.kept j) : ℤ) : ℝ) * f j = f i := by
  have e : ∀ j, ((unit (G14.kept i) (G14.kept j) : ℤ) : ℝ) * f j = if j = i then f i else 0 := by
    intro j
    unfold unit
    by_cases h : j = i
    · subst h; simp
    · rw [if_neg h, if_neg]
      · simp
      · intro h2
        apply h
        have := congrArg Fin.val h2
        exact Fin.ext this
  rw [Finset.sum_congr rfl fun j _ => e j, Finset.sum_ite_eq' univ i]
  simp

theorem g14_clip (y : Fin 8 → ℝ) : ∀ j, 0 ≤ G14.clip (G14.ghost y) j := by
  intro j; unfold G14.clip; split_ifs with h
  · exact le_rfl
  · exact not_lt.mp h

/-- The listed reactions keep hydrogen, helium and charge. -/
theorem g14_balanced (r : Fin 20) : Spec.Balanced Spec.G14.hydrogen (Spec.G14.listed r) ∧
    Spec.Balanced Spec.G14.helium (Spec.G14.listed r) ∧
    Spec.Balanced Spec.G14.charge (Spec.G14.listed r) := by
  revert r; decide +kernel

/-- With the electrons, which are not evolved, the gas of G14Sod is neutral. -/
theorem g14_neutral (y : Fin 8 → ℝ) :
    ∑ i, (Spec.G14.charge i : ℝ) * G14.ghost y i = 0 ∧ ∀ i, G14.ghost y (G14.kept i) = y i := by
  refine ⟨?_, ?_⟩
  · simp [Fin.sum_univ_succ, G14.ghost, Spec.G14.charge]
    ring
  · intro i
    fin_cases i <;> rfl

/-- The network runs as it is listed if the reactions (12), (13), (19) and (20) do not run. -/
theorem g14_listed_partial (k : Fin 20 → ℝ)
    (hk : k 11 = 0 ∧ k 12 = 0 ∧ k 18 = 0 ∧ k 19 = 0) (nH tu : ℝ) (y : Fin 8 → ℝ)
    (hy : ∀ j, 0 ≤ G14.ghost y j) (i : Fin 8) :
    G14.rhs k nH tu y i = tu * nH * ∑ r, (Spec.gain (Spec.G14.listed r) (G14.kept i) : ℝ) *
      (k r * G14.ghost y (Spec.r1 (Spec.G14.listed r)) *
        G14.ghost y (Spec.r2 (Spec.G14.listed r))) := by
  have h := g14_ws (unit (G14.kept i)) (by revert i; decide) k nH tu y
  rw [g14_unit] at h
  have hc : G14.clip (G14.ghost y) = G14.ghost y := by
    funext j; unfold G14.clip; rw [if_neg (not_lt.mpr (hy j))]
  rw [h, hc]
  have c : ∀ (i : Fin 8) (r : Fin 20), r = 11 ∨ r = 12 ∨ r = 18 ∨ r = 19 ∨
      (G14.in1 r = Spec.r1 (Spec.G14.listed r) ∧ G14.in2 r = Spec.r2 (Spec.G14.listed r) ∧
      G14.arr G14.so1 r * unit (G14.kept i) (G14.out1 r)
        + G14.arr G14.so2 r * unit (G14.kept i) (G14.out2 r)
        - G14.arr G14.si1 r * unit (G14.kept i) (G14.in1 r)
        - G14.arr G14.si2 r * unit (G14.kept i) (G14.in2 r)
        = Spec.gain (Spec.G14.listed r) (G14.kept i)) := by decide +kernel
  congr 1
  refine Finset.sum_congr rfl fun r _ => ?_
  rw [rate2_nonneg hy]
  rcases c i r with h | h | h | h | ⟨h1, h2, h3⟩
  · rw [h, hk.1]; simp
  · rw [h, hk.2.1]; simp
  · rw [h, hk.2.2.1]; simp
  · rw [h, hk.2.2.2]; simp
  · rw [← h1, ← h2, ← h3]

/-- Helium is kept. -/
theorem g14_helium (k : Fin 20 → ℝ) (nH tu : ℝ) (y : Fin 8 → ℝ) :
    G14.rhs k nH tu y 2 + G14.rhs k nH tu y 3 + G14.rhs k nH tu y 4 = 0 := by
  have h := g14_ws Spec.G14.helium (by decide) k nH tu y
  have c : ∀ r : Fin 20, G14.arr G14.so1 r * Spec.G14.helium (G14.out1 r)
      + G14.arr G14.so2 r * Spec.G14.helium (G14.out2 r)
      - G14.arr G14.si1 r * Spec.G14.helium (G14.in1 r)
      - G14.arr G14.si2 r * Spec.G14.helium (G14.in2 r) = 0 := by decide +kernel
  rw [Finset.sum_eq_zero (s := (univ : Finset (Fin 20))) (fun r _ => by rw [c r]; simp), mul_zero] at h
  generalize G14.rhs k nH tu y = d at *
  simp [Fin.sum_univ_succ, G14.kept, Spec.G14.helium] at h
  linarith

/-- What the network does to the number of hydrogen nuclei. -/
theorem g14_hydrogen (k : Fin 20 → ℝ) (nH tu : ℝ) (y : Fin 8 → ℝ)
    (hy : ∀ j, 0 ≤ G14.ghost y j) :
    G14.rhs k nH tu y 0 + G14.rhs k nH tu y 1 + G14.rhs k nH tu y 5
      + 2 * G14.rhs k nH tu y 6 + 2 * G14.rhs k nH tu y 7
      = tu * nH * (2 * (k 11 * y 6 * G14.ghost y 8) + k 12 * y 5 * G14.ghost y 8
        - 2 * (k 18 * y 6 * y 0) + k 19 * y 6 * y 0) := by
  have h := g14_ws Spec.G14.hydrogen (by decide) k nH tu y
  have hc : G14.clip (G14.ghost y) = G14.ghost y := by
    funext j; unfold G14.clip; rw [if_neg (not_lt.mpr (hy j))]
  rw [hc] at h
  have c : ∀ r : Fin 20, G14.arr G14.so1 r * Spec.G14.hydrogen (G14.out1 r)
      + G14.arr G14.so2 r * Spec.G14.hydrogen (G14.out2 r)
      - G14.arr G14.si1 r * Spec.G14.hydrogen (G14.in1 r)
      - G14.arr G14.si2 r * Spec.G14.hydrogen (G14.in2 r)
      = (if r = 11 then 2 else 0) + (if r = 12 then 1 else 0) + (if r = 18 then -2 else 0)
        + if r = 19 then 1 else 0 := by decide +kernel
  have e : ∀ r, ((G14.arr G14.so1 r * Spec.G14.hydrogen (G14.out1 r)
      + G14.arr G14.so2 r * Spec.G14.hydrogen (G14.out2 r)
      - G14.arr G14.si1 r * Spec.G14.hydrogen (G14.in1 r)
      - G14.arr G14.si2 r * Spec.G14.hydrogen (G14.in2 r) : ℤ) : ℝ) *
        rate2 (G14.ghost y) (k r) (G14.in1 r) (G14.in2 r)
      = (if r = 11 then 2 * (k 11 * y 6 * G14.ghost y 8) else 0)
      + (if r = 12 then k 12 * y 5 * G14.ghost y 8 else 0)
      + (if r = 18 then -2 * (k 18 * y 6 * y 0) else 0)
      + (if r = 19 then k 19 * y 6 * y 0 else 0) := by
    intro r
    rw [c r, rate2_nonneg hy]
    by_cases h1 : r = 11
    · subst h1; simp [show (11 : Fin 20) ≠ 12 by decide, show (11 : Fin 20) ≠ 18 by decide,
        show (11 : Fin 20) ≠ 19 by decide]; rfl
    by_cases h2 : r = 12
    · subst h2; simp [show (12 : Fin 20) ≠ 11 by decide, show (12 : Fin 20) ≠ 18 by decide,
        show (12 : Fin 20) ≠ 19 by decide]; rfl
    by_cases h3 : r = 18
    · subst h3; simp [show (18 : Fin 20) ≠ 11 by decide, show (18 : Fin 20) ≠ 12 by decide,
        show (18 : Fin 20) ≠ 19 by decide]; rfl
    by_cases h4 : r = 19
    · subst h4; simp [show (19 : Fin 20) ≠ 11 by decide, show (19 : Fin 20) ≠ 12 by decide,
        show (19 : Fin 20) ≠ 18 by decide]; rfl
    simp [h1, h2, h3, h4]
  rw [Finset.sum_congr rfl fun r _ => e r] at h
  simp only [Finset.sum_add_distrib, Finset.sum_ite_eq', Finset.mem_univ, if_true] at h
  generalize G14.rhs k nH tu y = d at *
  simp [Fin.sum_univ_succ, G14.kept, Spec.G14.hydrogen] at h
  linarith

/-- Half molecular gas, collisional dissociation by atoms only. -/
noncomputable def G14.half : Fin 8 → ℝ := ![1 / 2, 0, 0, 0, 0, 0, 1 / 4, 0]
def G14.k20 : Fin 20 → ℝ := fun r => if r = 19 then 1 else 0

/-- Hydrogen is not kept: collisional dissociation of molecules by atoms makes hydrogen nuclei. -/
theorem g14_hydrogen_made : (∀ j, 0 ≤ G14.ghost G14.half j) ∧
    0 < G14.rhs G14.k20 1 1 G14.half 0 + G14.rhs G14.k20 1 1 G14.half 1
      + G14.rhs G14.k20 1 1 G14.half 5 + 2 * G14.rhs G14.k20 1 1 G14.half 6
      + 2 * G14.rhs G14.k20 1 1 G14.half 7 := by
  have hy : ∀ j, 0 ≤ G14.ghost G14.half j := by
    intro j; fin_cases j <;> simp [G14.ghost, G14.half]
  refine ⟨hy, ?_⟩
  rw [g14_hydrogen _ _ _ _ hy]
  simp [G14.k20, G14.half]

/-- The hypotheses of `g14_listed_partial` hold with all the other reactions running. -/
example : ∃ k : Fin 20 → ℝ, (k 11 = 0 ∧ k 12 = 0 ∧ k 18 = 0 ∧ k 19 = 0) ∧ k 0 = 1 ∧
    (∀ j, 0 ≤ G14.ghost G14.half j) :=
  ⟨fun r => if r = 11 ∨ r = 12 ∨ r = 18 ∨ r = 19 then 0 else 1, by simp, by simp,
    g14_hydrogen_made.1⟩

/-- An abundance that is zero (or negative) is not lowered. -/
theorem g14_positive (k : Fin 20 → ℝ) (hk : ∀ r, 0 ≤ k r) (nH tu : ℝ) (hn : 0 ≤ nH) (ht : 0 ≤ tu)
    (y : Fin 8 → ℝ) (i : Fin 8) (hi : y i ≤ 0) : 0 ≤ G14.rhs k nH tu y i := by
  have hu : ∀ i : Fin 8, unit (G14.kept i) 8 = 0 := by decide
  have h := g14_ws (unit (G14.kept i)) (hu i) k nH tu y
  rw [g14_unit] at h
  rw [h]
  have hyk : ∀ i : Fin 8, G14.ghost y (G14.kept i) = y i := by intro i; fin_cases i <;> rfl
  have h0 : G14.clip (G14.ghost y) (G14.kept i) = 0 := by
    unfold G14.clip
    rw [hyk]
    split_ifs with h
    · rfl
    · exact le_antisymm hi (not_lt.mp h)
  have c : ∀ (i : Fin 8) (r : Fin 20), G14.in1 r = G14.kept i ∨ G14.in2 r = G14.kept i ∨
      0 ≤ G14.arr G14.so1 r * unit (G14.kept i) (G14.out1 r)
        + G14.arr G14.so2 r * unit (G14.kept i) (G14.out2 r)
        - G14.arr G14.si1 r * unit (G14.kept i) (G14.in1 r)
        - G14.arr G14.si2 r * unit (G14.kept i) (G14.in2 r) := by decide +kernel
  refine mul_nonneg (mul_nonneg ht hn) (Finset.sum_nonneg fun r _ => ?_)
  rw [rate2_nonneg (g14_clip y)]
  rcases c i r with h | h | h
  · rw [h, h0]; simp
  · rw [h, h0]; simp
  · exact mul_nonneg (by exact_mod_cast h)
      (mul_nonneg (mul_nonneg (hk r) (g14_clip y _)) (g14_clip y _))

/-- The coefficient of recombination of He+, gow17.cpp:863, is positive above one kelvin. -/
theorem he_recombination_pos (L : ℝ) (hL : 0 ≤ L) :
    0 < 11.19 + (-1.676 + (-0.2852 + 0.04433 * L) * L) * L := by
  nlinarith [mul_nonneg hL (sq_nonneg (L - 6.29)), sq_nonneg (L - 6.29)]

end Verif.ChemNet
