import Verif.Spec.FaceExchange
import Verif.Lemmas.EmfExchange

namespace Verif.FaceEx

open Verif.Arr (rng mem_rng length_rng rng_shift)
open Verif.Grid (Dims)
open Verif.Emf (Pos Loc Mesh shiftLoc move ie_eq je_eq ke_eq)
open Verif.Emf.Spec (HoldsFace place)
open Spec

variable {K : Type}

theorem mem_box {c c' : Fin 3} {k j i : Iv} {z y x : Int} :
    (c', z, y, x) ∈ box c k j i ↔
      c' = c ∧ (k.1 ≤ z ∧ z ≤ k.2) ∧ (j.1 ≤ y ∧ y ≤ j.2) ∧ (i.1 ≤ x ∧ x ≤ i.2) := by
  unfold box
  simp only [List.mem_flatMap, List.mem_map, mem_rng, Prod.mk.injEq]
  constructor
  · rintro ⟨z', hz, y', hy, x', hx, rfl, rfl, rfl, rfl⟩
    exact ⟨rfl, hz, hy, hx⟩
  · rintro ⟨rfl, hz, hy, hx⟩
    exact ⟨z, hz, y, hy, x, hx, rfl, rfl, rfl, rfl⟩

theorem box_shift (c : Fin 3) (k j i : Iv) (a b e : Int) :
    box c (k.1 + a, k.2 + a) (j.1 + b, j.2 + b) (i.1 + e, i.2 + e) =
      (box c k j i).map (fun p => (p.1, p.2.1 + a, p.2.2.1 + b, p.2.2.2 + e)) := by
  unfold box
  simp only [rng_shift, List.flatMap_map, List.map_flatMap, List.map_map]
  rfl

theorem write_map (ps : List Pos) (f : Pos → K) (b : Faces K) (p : Pos) :
    write ps (ps.map f) b p = if p ∈ ps then f p else b p := by
  induction ps generalizing b with
  | nil => simp [write]
  | cons q ps ih =>
    have e : write (q :: ps) ((q :: ps).map f) b = write ps (ps.map f) (Function.update b q (f q)) :=
      rfl
    rw [e, ih]
    by_cases hp : p = q
    · subst hp
      by_cases h : p ∈ ps <;> simp [h]
    · simp [hp]

/-- Offsets along a direction. -/
def Step (o : Int) : Prop := o = -1 ∨ o = 0 ∨ o = 1

theorem mem_offsets {o : Loc} :
    o ∈ offsets ↔ Step o.1 ∧ Step o.2.1 ∧ Step o.2.2 ∧ o ≠ (0, 0, 0) := by
  obtain ⟨a, b, c⟩ := o
  simp only [offsets, List.mem_flatMap, List.mem_filterMap, List.mem_cons, List.not_mem_nil,
    or_false, Step, ne_eq, Prod.mk.injEq]
  constructor
  · rintro ⟨z, hz, y, hy, x, hx, h⟩
    split_ifs at h with h0
    simp only [Option.some.injEq, Prod.mk.injEq] at h
    obtain ⟨rfl, rfl, rfl⟩ := h
    exact ⟨hx, hy, hz, h0⟩
  · rintro ⟨ha, hb, hc, h⟩
    exact ⟨c, hc, b, hb, a, ha, by rw [if_neg h]⟩

theorem cell_pair {s e n ng o : Int} (h : e + 1 = s + n) (ho : Step o) :
    cellLoad s e ng (-o) = ((cellSet s e ng o).1 + -(n * o), (cellSet s e ng o).2 + -(n * o)) := by
  rcases ho with rfl | rfl | rfl <;> simp [cellLoad, cellSet] <;> omega

theorem face_pair {s e n ng o : Int} (h : e + 1 = s + n) (x : Bool) (ho : Step o) :
    faceLoad s e ng x (-o) =
      ((faceSet s e ng x o).1 + -(n * o), (faceSet s e ng x o).2 + -(n * o)) := by
  rcases ho with rfl | rfl | rfl <;> cases x <;> simp [faceLoad, faceSet] <;> omega

theorem notFace_opp (o : Loc) : notFace (opp o) = notFace o := by
  have h : ∀ a : Int, (-a != 0) = (a != 0) := by
    intro a
    rw [Bool.eq_iff_iff]; simp
  simp only [notFace, opp, h]

variable {d : Dims}

theorem load_eq (h2 : 1 < d.nx2) (h3 : 1 < d.nx3) (ml : Bool) {o : Loc} (ho : o ∈ offsets) :
    loadPos d ml (opp o) = (setPos d ml o).map (move d o) := by
  obtain ⟨o1, o2, o3, _⟩ := mem_offsets.mp ho
  have e1 := ie_eq d
  have e2 := je_eq h2
  have e3 := ke_eq h3
  have hm : move d o = fun p => (p.1, p.2.1 + -(d.nx3 * o.2.2), p.2.2.1 + -(d.nx2 * o.2.1),
      p.2.2.2 + -(d.nx1 * o.1)) := by
    funext p
    simp only [move, sub_eq_add_neg]
  unfold loadPos setPos
  rw [notFace_opp]
  simp only [opp, cell_pair e1 o1, cell_pair e2 o2, cell_pair e3 o3, face_pair e1 _ o1,
    face_pair e2 _ o2, face_pair e3 _ o3, List.map_append, hm]
  rw [box_shift, box_shift, box_shift]

/-- The range of a direction. -/
def iv (nrm : Bool) (s e ng : Int) (x : Bool) (o : Int) : Iv :=
  if nrm then faceSet s e ng x o else cellSet s e ng o

theorem mem_setPos {ml : Bool} {o : Loc} {c : Fin 3} {z y x : Int} :
    (c, z, y, x) ∈ setPos d ml o ↔
      ((iv (c == 2) d.ks d.ke d.ng (ml && notFace o) o.2.2).1 ≤ z ∧
        z ≤ (iv (c == 2) d.ks d.ke d.ng (ml && notFace o) o.2.2).2) ∧
      ((iv (c == 1) d.js d.je d.ng (ml && notFace o) o.2.1).1 ≤ y ∧
        y ≤ (iv (c == 1) d.js d.je d.ng (ml && notFace o) o.2.1).2) ∧
      ((iv (c == 0) d.is d.ie d.ng (ml && notFace o) o.1).1 ≤ x ∧
        x ≤ (iv (c == 0) d.is d.ie d.ng (ml && notFace o) o.1).2) := by
  unfold setPos
  simp only [List.mem_append, mem_box]
  match c with
  | 0 => simp [iv]
  | 1 => simp [iv]
  | 2 => simp [iv]

/-- What is written lies in the block it comes from. -/
theorem iv_in {nrm x : Bool} {s e n ng o r : Int} (h : e + 1 = s + n) (hn : ng ≤ n) (ho : Step o)
    (h1 : (iv nrm s e ng x o).1 ≤ r + s) (h2 : r + s ≤ (iv nrm s e ng x o).2) :
    n * o ≤ r ∧ r ≤ n * o + n - (if nrm then 0 else 1) := by
  rcases ho with rfl | rfl | rfl <;> cases nrm <;> cases x <;>
    simp [iv, faceSet, cellSet] at h1 h2 ⊢ <;> omega

/-- There is a block along the way that writes. -/
theorem iv_choice (nrm x : Bool) {s e n ng y r : Int} (h : e + 1 = s + n) (hn : 0 < n)
    (h1 : -ng ≤ r) (h2 : r ≤ n + ng - (if nrm then 0 else 1))
    (h3 : n * y ≤ r) (h4 : r ≤ n * y + n - (if nrm then 0 else 1)) :
    ∃ o, Step o ∧ (iv nrm s e ng x o).1 ≤ r + s ∧ r + s ≤ (iv nrm s e ng x o).2 ∧
      (0 ≤ o ∧ o ≤ y ∨ y ≤ o ∧ o ≤ 0) ∧
      (o = 0 → 0 ≤ r ∧ r ≤ n - (if nrm then 0 else 1)) := by
  have hd : (0 : Int) ≤ (if nrm then 0 else 1) ∧ (if nrm then (0 : Int) else 1) ≤ 1 := by
    cases nrm <;> simp
  by_cases a : r < 0
  · have hy : y ≤ -1 := by
      by_contra q
      have : 0 ≤ n * y := mul_nonneg hn.le (by omega)
      omega
    refine ⟨-1, Or.inl rfl, ?_, ?_, Or.inr ⟨hy, by omega⟩, by omega⟩ <;>
      cases nrm <;> cases x <;> simp [iv, faceSet, cellSet] <;> omega
  · by_cases b : r ≤ n - (if nrm then 0 else 1)
    · refine ⟨0, Or.inr (Or.inl rfl), ?_, ?_, ?_, fun _ => ⟨by omega, b⟩⟩
      · cases nrm <;> cases x <;> simp [iv, faceSet, cellSet] <;> omega
      · cases nrm <;> cases x <;> simp [iv, faceSet, cellSet] at b ⊢ <;> omega
      · omega
    · have hy : 1 ≤ y := by
        by_contra q
        have : 0 ≤ n * (-y) := mul_nonneg hn.le (by omega)
        have e : n * (-y) = -(n * y) := by ring
        omega
      refine ⟨1, Or.inr (Or.inr rfl), ?_, ?_, Or.inl ⟨by omega, hy⟩, by omega⟩ <;>
        cases nrm <;> cases x <;> simp [iv, faceSet, cellSet] at b h2 ⊢ <;> omega

theorem exchange_eq (h2 : 1 < d.nx2) (h3 : 1 < d.nx3) (ml : Bool) (M : Mesh) (order : List Loc)
    (ho : ∀ o ∈ order, o ∈ offsets) (b : Loc → Faces K) (l : Loc) (p : Pos) (v : K)
    (hv : ∀ o ∈ order, M (shiftLoc l o) = true → p ∈ setPos d ml o →
      b (shiftLoc l o) (move d o p) = v) :
    ((∃ o ∈ order, M (shiftLoc l o) = true ∧ p ∈ setPos d ml o) → exchange d ml M order b l p = v) ∧
    ((¬ ∃ o ∈ order, M (shiftLoc l o) = true ∧ p ∈ setPos d ml o) →
      exchange d ml M order b l p = b l p) := by
  unfold exchange
  generalize b l = e0
  induction order generalizing e0 with
  | nil => simp
  | cons o L ih =>
    rw [List.foldl_cons]
    obtain ⟨i1, i2⟩ := ih (fun o h => ho o (List.mem_cons_of_mem _ h))
      (fun o h => hv o (List.mem_cons_of_mem _ h))
      (if M (shiftLoc l o) then
        write (setPos d ml o) ((loadPos d ml (opp o)).map (b (shiftLoc l o))) e0 else e0)
    have step : (if M (shiftLoc l o) then
        write (setPos d ml o) ((loadPos d ml (opp o)).map (b (shiftLoc l o))) e0 else e0) p =
        if M (shiftLoc l o) = true ∧ p ∈ setPos d ml o then v else e0 p := by
      by_cases hM : M (shiftLoc l o) = true
      · rw [if_pos hM, load_eq h2 h3 ml (ho o List.mem_cons_self), List.map_map, write_map]
        by_cases hp : p ∈ setPos d ml o
        · rw [if_pos hp, if_pos ⟨hM, hp⟩]
          exact hv o List.mem_cons_self hM hp
        · rw [if_neg hp, if_neg (fun h => hp h.2)]
      · rw [if_neg hM, if_neg (fun h => hM h.1)]
    constructor
    · rintro ⟨q, hq, hq1, hq2⟩
      by_cases hL : ∃ o ∈ L, M (shiftLoc l o) = true ∧ p ∈ setPos d ml o
      · exact i1 hL
      · rw [i2 hL, step, if_pos]
        rcases List.mem_cons.mp hq with rfl | hq
        · exact ⟨hq1, hq2⟩
        · exact absurd ⟨q, hq, hq1, hq2⟩ hL
    · intro hn
      have hL : ¬ ∃ o ∈ L, M (shiftLoc l o) = true ∧ p ∈ setPos d ml o :=
        fun ⟨q, hq, h⟩ => hn ⟨q, List.mem_cons_of_mem _ hq, h⟩
      rw [i2 hL, step, if_neg]
      exact fun h => hn ⟨o, List.mem_cons_self, h⟩

end Verif.FaceEx
