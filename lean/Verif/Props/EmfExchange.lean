import Verif.Lemmas.EmfClosed
import Verif.Lemmas.CT
import Mathlib.Order.Interval.Finset.Defs
import Mathlib.Data.Int.Interval
import Mathlib.Data.Finset.Prod
import Mathlib.Data.Rat.Defs
import Mathlib.Algebra.Order.Ring.Rat

/-!
# C89: electric fields on edges shared by blocks
-/

namespace Verif.Emf

open Verif.Grid (Dims Geom EF FF ct ctB1_eq ctB2_eq ctB3_eq)
open Spec

variable {K : Type} [Field K] {d : Dims}

/-- **C89** After the exchange the electric field at any edge of a block is the mean of what all the
blocks around the edge had computed, each counted once; `S` is the set of these blocks, whatever
blocks exist and wherever the mesh ends.  An edge inside the block keeps its value. -/
theorem edge_mean (h1 : 0 < d.nx1) (h2 : 1 < d.nx2) (h3 : 1 < d.nx3) (M : Mesh)
    (E : Loc → EField K) (l : Loc) (hl : M l = true) (c : Fin 3) (g : Int × Int × Int)
    (hh : Holds d c g l) (S : Finset Loc) (hS : ∀ x, x ∈ S ↔ M x = true ∧ Holds d c g x) :
    exchange d M E l (place d c g l) = (∑ x ∈ S, E x (place d c g x)) / (S.card : K) := by
  match c, hh, hS with
  | 0, hh, hS => exact mean_0 h1 h2 h3 M E l hl g hh S hS
  | 1, hh, hS => exact mean_1 h1 h2 h3 M E l hl g hh S hS
  | 2, hh, hS => exact mean_2 h1 h2 h3 M E l hl g hh S hS

/-- An edge is held by finitely many blocks. -/
theorem holders_finite (h1 : 0 < d.nx1) (h2 : 1 < d.nx2) (h3 : 1 < d.nx3) (M : Mesh) (c : Fin 3)
    (g : Int × Int × Int) : ∃ S : Finset Loc, ∀ x, x ∈ S ↔ M x = true ∧ Holds d c g x := by
  classical
  refine ⟨((Finset.Icc (-|g.2.2| - d.nx1) (|g.2.2| + d.nx1)) ×ˢ
    ((Finset.Icc (-|g.2.1| - d.nx2) (|g.2.1| + d.nx2)) ×ˢ
      (Finset.Icc (-|g.1| - d.nx3) (|g.1| + d.nx3)))).filter
      (fun x => M x = true ∧ Holds d c g x), fun x => ?_⟩
  have bound : ∀ n y z : Int, 0 < n → n * y ≤ z → z ≤ n * y + n → -|z| - n ≤ y ∧ y ≤ |z| + n := by
    intro n y z hn p q
    have az := neg_abs_le z
    have bz := le_abs_self z
    constructor
    · by_contra h
      have : y ≤ -|z| - n - 1 := by omega
      have t : n * y ≤ n * (-|z| - n - 1) := Int.mul_le_mul_of_nonneg_left this hn.le
      have u : 0 ≤ (n - 1) * |z| := mul_nonneg (by omega) (abs_nonneg z)
      nlinarith
    · by_contra h
      have : |z| + n + 1 ≤ y := by omega
      have t : n * (|z| + n + 1) ≤ n * y := Int.mul_le_mul_of_nonneg_left this hn.le
      have u : 0 ≤ (n - 1) * |z| := mul_nonneg (by omega) (abs_nonneg z)
      nlinarith
  rw [Finset.mem_filter]
  refine ⟨fun h => h.2, fun h => ⟨?_, h⟩⟩
  obtain ⟨⟨a1, a2⟩, ⟨b1, b2⟩, ⟨c1, c2⟩⟩ := h.2
  have b1' := bound _ _ _ h1 a1 (a2.trans (by split_ifs <;> omega))
  have b2' := bound _ _ _ (by omega : 0 < d.nx2) b1 (b2.trans (by split_ifs <;> omega))
  have b3' := bound _ _ _ (by omega : 0 < d.nx3) c1 (c2.trans (by split_ifs <;> omega))
  simp only [Finset.mem_product, Finset.mem_Icc]
  exact ⟨b1', b2', b3'⟩

/-- **C89** All the blocks that share an edge hold the same electric field on it. -/
theorem edges_agree (h1 : 0 < d.nx1) (h2 : 1 < d.nx2) (h3 : 1 < d.nx3) (M : Mesh)
    (E : Loc → EField K) : EdgesAgree d M (exchange d M E) := by
  intro c g l l' hl hl' hh hh'
  obtain ⟨S, hS⟩ := holders_finite h1 h2 h3 M c g
  rw [edge_mean h1 h2 h3 M E l hl c g hh S hS, edge_mean h1 h2 h3 M E l' hl' c g hh' S hS]

/-- **C89** Where the blocks around an edge had the same value, it stays. -/
theorem edge_kept [CharZero K] (h1 : 0 < d.nx1) (h2 : 1 < d.nx2) (h3 : 1 < d.nx3) (M : Mesh)
    (E : Loc → EField K) (l : Loc) (hl : M l = true) (c : Fin 3) (g : Int × Int × Int)
    (hh : Holds d c g l)
    (he : ∀ x, M x = true → Holds d c g x → E x (place d c g x) = E l (place d c g l)) :
    exchange d M E l (place d c g l) = E l (place d c g l) := by
  obtain ⟨S, hS⟩ := holders_finite h1 h2 h3 M c g
  rw [edge_mean h1 h2 h3 M E l hl c g hh S hS,
    Finset.sum_congr rfl (fun x hx => he x ((hS x).mp hx).1 ((hS x).mp hx).2), Finset.sum_const,
    nsmul_eq_mul]
  have : (S.card : K) ≠ 0 := by
    rw [Nat.cast_ne_zero]
    exact Finset.card_ne_zero_of_mem ((hS l).mpr ⟨hl, hh⟩)
  rw [mul_div_cancel_left₀ _ this]

/-- **C89** The step of the magnetic field that uses the exchanged electric fields leaves blocks with
the same field on the faces that they share, if they had so before and their areas and lengths are
the same there. -/
theorem faces_agree (h1 : 0 < d.nx1) (h2 : 1 < d.nx2) (h3 : 1 < d.nx3) (M : Mesh)
    (E : Loc → EField K) (G : Loc → Geom K) (len : Loc → EField K) (b : Loc → FF K) (w : K)
    (hG : FacesAgree d M (fun l => ⟨(G l).a1, (G l).a2, (G l).a3⟩)) (hlen : EdgesAgree d M len)
    (hb : FacesAgree d M b) :
    FacesAgree d M (fun l =>
      ct d false false (G l) (arrays (len l)) (arrays (exchange d M E l)) w (b l)) := by
  have hE := edges_agree h1 h2 h3 M E
  have e1 := ie_eq d
  have e2 := je_eq h2
  have e3 := ke_eq h3
  have hLE : ∀ c g l l', M l = true → M l' = true → Holds d c g l → Holds d c g l' →
      len l (place d c g l) * exchange d M E l (place d c g l) =
      len l' (place d c g l') * exchange d M E l' (place d c g l') := by
    intro c g l l' p q r s
    rw [hlen c g l l' p q r s, hE c g l l' p q r s]
  have pk : ∀ c a bb cc l, place d c (a + 1, bb, cc) l =
      (c, (place d c (a, bb, cc) l).2.1 + 1, (place d c (a, bb, cc) l).2.2) := by
    intro c a bb cc l
    unfold place; simp only [Prod.mk.injEq, true_and, and_true]; ring
  have pj : ∀ c a bb cc l, place d c (a, bb + 1, cc) l =
      (c, (place d c (a, bb, cc) l).2.1, (place d c (a, bb, cc) l).2.2.1 + 1,
        (place d c (a, bb, cc) l).2.2.2) := by
    intro c a bb cc l
    unfold place; simp only [Prod.mk.injEq, true_and, and_true]; ring
  have pi : ∀ c a bb cc l, place d c (a, bb, cc + 1) l =
      (c, (place d c (a, bb, cc) l).2.1, (place d c (a, bb, cc) l).2.2.1,
        (place d c (a, bb, cc) l).2.2.2 + 1) := by
    intro c a bb cc l
    unfold place; simp only [Prod.mk.injEq, true_and]; ring
  intro c g l l' hl hl' hh hh'
  have hbb := hb c g l l' hl hl' hh hh'
  have hgg := hG c g l l' hl hl' hh hh'
  obtain ⟨gk, gj, gi⟩ := g
  match c, hh, hh', hbb, hgg with
  | 0, hh, hh', hbb, hgg =>
    have a1 := hLE 2 (gk, gj, gi) l l' hl hl' (by simp [Holds, HoldsFace] at hh ⊢; omega)
      (by simp [Holds, HoldsFace] at hh' ⊢; omega)
    have a2 := hLE 2 (gk, gj + 1, gi) l l' hl hl' (by simp [Holds, HoldsFace] at hh ⊢; omega)
      (by simp [Holds, HoldsFace] at hh' ⊢; omega)
    have a3 := hLE 1 (gk, gj, gi) l l' hl hl' (by simp [Holds, HoldsFace] at hh ⊢; omega)
      (by simp [Holds, HoldsFace] at hh' ⊢; omega)
    have a4 := hLE 1 (gk + 1, gj, gi) l l' hl hl' (by simp [Holds, HoldsFace] at hh ⊢; omega)
      (by simp [Holds, HoldsFace] at hh' ⊢; omega)
    rw [pj, pj] at a2
    rw [pk, pk] at a4
    change (ct d false false (G l) (arrays (len l)) (arrays (exchange d M E l)) w (b l)).x1f
      (place d 0 (gk, gj, gi) l).2 =
      (ct d false false (G l') (arrays (len l')) (arrays (exchange d M E l')) w (b l')).x1f
      (place d 0 (gk, gj, gi) l').2
    simp only [ct, ctB1_eq, if_pos h3]
    rw [if_pos (by simp [HoldsFace, place] at hh ⊢; omega),
      if_pos (by simp [HoldsFace, place] at hh' ⊢; omega)]
    have hbb' : (b l).x1f (place d 0 (gk, gj, gi) l).2 = (b l').x1f (place d 0 (gk, gj, gi) l').2 := hbb
    have hgg' : (G l).a1 (place d 0 (gk, gj, gi) l).2 = (G l').a1 (place d 0 (gk, gj, gi) l').2 := hgg
    rw [hbb', hgg']
    unfold EF.line3 EF.line2 arrays
    exact congrArg₂ (fun x y => _ + _ * (-x + y)) (congrArg₂ (· - ·) a2 a1) (congrArg₂ (· - ·) a4 a3)
  | 1, hh, hh', hbb, hgg =>
    have a1 := hLE 2 (gk, gj, gi) l l' hl hl' (by simp [Holds, HoldsFace] at hh ⊢; omega)
      (by simp [Holds, HoldsFace] at hh' ⊢; omega)
    have a2 := hLE 2 (gk, gj, gi + 1) l l' hl hl' (by simp [Holds, HoldsFace] at hh ⊢; omega)
      (by simp [Holds, HoldsFace] at hh' ⊢; omega)
    have a3 := hLE 0 (gk, gj, gi) l l' hl hl' (by simp [Holds, HoldsFace] at hh ⊢; omega)
      (by simp [Holds, HoldsFace] at hh' ⊢; omega)
    have a4 := hLE 0 (gk + 1, gj, gi) l l' hl hl' (by simp [Holds, HoldsFace] at hh ⊢; omega)
      (by simp [Holds, HoldsFace] at hh' ⊢; omega)
    rw [pi, pi] at a2
    rw [pk, pk] at a4
    change (ct d false false (G l) (arrays (len l)) (arrays (exchange d M E l)) w (b l)).x2f
      (place d 1 (gk, gj, gi) l).2 =
      (ct d false false (G l') (arrays (len l')) (arrays (exchange d M E l')) w (b l')).x2f
      (place d 1 (gk, gj, gi) l').2
    simp only [ct, ctB2_eq, if_pos h3]
    rw [if_pos (by simp [HoldsFace, place] at hh ⊢; omega),
      if_pos (by simp [HoldsFace, place] at hh' ⊢; omega)]
    have hbb' : (b l).x2f (place d 1 (gk, gj, gi) l).2 = (b l').x2f (place d 1 (gk, gj, gi) l').2 := hbb
    have hgg' : (G l).a2 (place d 1 (gk, gj, gi) l).2 = (G l').a2 (place d 1 (gk, gj, gi) l').2 := hgg
    rw [hbb', hgg']
    unfold EF.line3 EF.line1 arrays
    exact congrArg₂ (fun x y => _ + _ * (x - y)) (congrArg₂ (· - ·) a2 a1) (congrArg₂ (· - ·) a4 a3)
  | 2, hh, hh', hbb, hgg =>
    have a1 := hLE 1 (gk, gj, gi) l l' hl hl' (by simp [Holds, HoldsFace] at hh ⊢; omega)
      (by simp [Holds, HoldsFace] at hh' ⊢; omega)
    have a2 := hLE 1 (gk, gj, gi + 1) l l' hl hl' (by simp [Holds, HoldsFace] at hh ⊢; omega)
      (by simp [Holds, HoldsFace] at hh' ⊢; omega)
    have a3 := hLE 0 (gk, gj, gi) l l' hl hl' (by simp [Holds, HoldsFace] at hh ⊢; omega)
      (by simp [Holds, HoldsFace] at hh' ⊢; omega)
    have a4 := hLE 0 (gk, gj + 1, gi) l l' hl hl' (by simp [Holds, HoldsFace] at hh ⊢; omega)
      (by simp [Holds, HoldsFace] at hh' ⊢; omega)
    rw [pi, pi] at a2
    rw [pj, pj] at a4
    change (ct d false false (G l) (arrays (len l)) (arrays (exchange d M E l)) w (b l)).x3f
      (place d 2 (gk, gj, gi) l).2 =
      (ct d false false (G l') (arrays (len l')) (arrays (exchange d M E l')) w (b l')).x3f
      (place d 2 (gk, gj, gi) l').2
    simp only [ct, ctB3_eq, if_pos h2]
    rw [if_pos (by simp [HoldsFace, place] at hh ⊢; omega),
      if_pos (by simp [HoldsFace, place] at hh' ⊢; omega)]
    have hbb' : (b l).x3f (place d 2 (gk, gj, gi) l).2 = (b l').x3f (place d 2 (gk, gj, gi) l').2 := hbb
    have hgg' : (G l).a3 (place d 2 (gk, gj, gi) l).2 = (G l').a3 (place d 2 (gk, gj, gi) l').2 := hgg
    rw [hbb', hgg']
    unfold EF.line2 EF.line1 arrays
    exact congrArg₂ (fun x y => _ + _ * (-x + y)) (congrArg₂ (· - ·) a2 a1) (congrArg₂ (· - ·) a4 a3)

/-! A case: two by two by one blocks of `4 × 4 × 2` cells; the edge in the middle is held by four
blocks with the values 1, 2, 3 and 6. -/

section Case

def caseMesh : Mesh := fun l => (l.1 == 0 || l.1 == 1) && (l.2.1 == 0 || l.2.1 == 1) && (l.2.2 == 0)

def caseField : Loc → EField ℚ := fun l _ =>
  if l.1 = 0 then (if l.2.1 = 0 then 1 else 2) else (if l.2.1 = 0 then 3 else 6)

example : caseMesh (0, 0, 0) = true ∧ Holds ⟨2, 4, 4, 2⟩ 2 (1, 4, 4) (0, 0, 0) ∧
    Holds ⟨2, 4, 4, 2⟩ 2 (1, 4, 4) (1, 1, 0) ∧
    exchange ⟨2, 4, 4, 2⟩ caseMesh caseField (0, 0, 0) (place ⟨2, 4, 4, 2⟩ 2 (1, 4, 4) (0, 0, 0)) = 3 ∧
    exchange ⟨2, 4, 4, 2⟩ caseMesh caseField (1, 1, 0) (place ⟨2, 4, 4, 2⟩ 2 (1, 4, 4) (1, 1, 0)) = 3 := by
  refine ⟨by decide, by unfold Holds; decide, by unfold Holds; decide, by decide +kernel, by decide +kernel⟩

end Case

end Verif.Emf
