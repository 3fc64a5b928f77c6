import Verif.Lemmas.Flux
import Verif.Spec.CT

/-! Helper lemmas for constrained transport. -/
namespace Verif.Grid
open Verif.Arr
variable {K : Type} [Field K]

theorem row_add (k j s e : Int) (δ : Int × Int × Int → K) (b : A3 K) (q : Int × Int × Int) :
    (loop s e fun i b => Function.update b (k, j, i) (b (k, j, i) + δ (k, j, i))) b q =
      if q.1 = k ∧ q.2.1 = j ∧ s ≤ q.2.2 ∧ q.2.2 ≤ e then b q + δ q else b q := by
  rw [loop_eq]
  by_cases h : q.1 = k ∧ q.2.1 = j ∧ s ≤ q.2.2 ∧ q.2.2 ≤ e
  · obtain ⟨q1, q2, q3⟩ := q
    simp only at h
    obtain ⟨rfl, rfl, h3, h4⟩ := h
    rw [if_pos ⟨rfl, rfl, h3, h4⟩]
    have := fold_in (rng s e) (fun i => (q1, q2, i)) (fun i b => b (q1, q2, i) + δ (q1, q2, i)) b
      ((nodup_rng s e).map (fun a b h => by simpa using h)) (by
        intro x _ st hst _; simp only [hst]) q3 (mem_rng.2 ⟨h3, h4⟩)
    exact this
  · rw [if_neg h]
    apply fold_out (rng s e) (fun i => (k, j, i)) (fun i b => b (k, j, i) + δ (k, j, i))
    intro hm
    obtain ⟨i, hi, rfl⟩ := List.mem_map.1 hm
    rw [mem_rng] at hi
    exact h ⟨rfl, rfl, hi.1, hi.2⟩

theorem addRow_eq (k j s e : Int) (w : K) (area : A3 K) (c : Int → K) (b : A3 K) (q : Int × Int × Int) :
    addRow k j s e w area c b q =
      if q.1 = k ∧ q.2.1 = j ∧ s ≤ q.2.2 ∧ q.2.2 ≤ e then b q + (w / area q) * c q.2.2 else b q :=
  row_add k j s e (fun q => (w / area q) * c q.2.2) b q

theorem subRow_eq (k j s e : Int) (w : K) (area : A3 K) (c : Int → K) (b : A3 K) (q : Int × Int × Int) :
    subRow k j s e w area c b q =
      if q.1 = k ∧ q.2.1 = j ∧ s ≤ q.2.2 ∧ q.2.2 ≤ e then b q - (w / area q) * c q.2.2 else b q := by
  have := row_add k j s e (fun q => -((w / area q) * c q.2.2)) b q
  simp only [← sub_eq_add_neg] at this
  exact this

/-- Loops over rows, each adding its own increments. -/
theorem rows_add (l : List (Int × Int)) (hnd : l.Nodup) (R : Int → Int → A3 K → A3 K) (s e : Int)
    (δ : Int × Int × Int → K)
    (hR : ∀ k j b q, R k j b q = if q.1 = k ∧ q.2.1 = j ∧ s ≤ q.2.2 ∧ q.2.2 ≤ e then b q + δ q else b q)
    (b : A3 K) (q : Int × Int × Int) :
    (l.foldl (fun b x => R x.1 x.2 b) b) q =
      if (q.1, q.2.1) ∈ l ∧ s ≤ q.2.2 ∧ q.2.2 ≤ e then b q + δ q else b q := by
  induction l generalizing b with
  | nil => simp
  | cons a l ih =>
    rw [List.nodup_cons] at hnd
    rw [List.foldl_cons, ih hnd.2, hR]
    by_cases h1 : (q.1, q.2.1) ∈ l
    · have h2 : ¬ (q.1 = a.1 ∧ q.2.1 = a.2) := by
        rintro ⟨h, h'⟩; apply hnd.1; rwa [h, h'] at h1
      have h3 : ¬ (q.1 = a.1 ∧ q.2.1 = a.2 ∧ s ≤ q.2.2 ∧ q.2.2 ≤ e) := fun h => h2 ⟨h.1, h.2.1⟩
      simp only [h1, List.mem_cons, or_true, true_and, if_neg h3]
    · simp only [h1, List.mem_cons, or_false, false_and, if_false]
      have : (q.1, q.2.1) = a ↔ q.1 = a.1 ∧ q.2.1 = a.2 := by
        rw [Prod.ext_iff]
      simp only [this, and_assoc]

theorem rows_loop (k0 k1 j0 j1 s e : Int) (R : Int → Int → A3 K → A3 K) (δ : Int × Int × Int → K)
    (hR : ∀ k j b q, R k j b q = if q.1 = k ∧ q.2.1 = j ∧ s ≤ q.2.2 ∧ q.2.2 ≤ e then b q + δ q else b q)
    (b : A3 K) (q : Int × Int × Int) :
    (loop k0 k1 fun k => loop j0 j1 fun j => R k j) b q =
      if k0 ≤ q.1 ∧ q.1 ≤ k1 ∧ j0 ≤ q.2.1 ∧ q.2.1 ≤ j1 ∧ s ≤ q.2.2 ∧ q.2.2 ≤ e then b q + δ q else b q := by
  have h := rows_add (prodL (rng k0 k1) (rng j0 j1)) (nodup_prodL (nodup_rng _ _) (nodup_rng _ _)) R s e δ hR b q
  rw [foldl_prodL] at h
  simp only [mem_prodL, mem_rng, and_assoc] at h
  exact h

variable (d : Dims) (G : Geom K) (len e : EF K) (w : K)

theorem ctB1_eq (b : A3 K) (q : Int × Int × Int) :
    ctB1 d G len e w b q =
      if 1 < d.nx2 ∧ d.ks ≤ q.1 ∧ q.1 ≤ d.ke ∧ d.js ≤ q.2.1 ∧ q.2.1 ≤ d.je ∧ d.is ≤ q.2.2 ∧ q.2.2 ≤ d.ie + 1 then
        b q + (w / G.a1 q) * (-(e.line3 len q.1 (q.2.1+1) q.2.2 - e.line3 len q.1 q.2.1 q.2.2) +
          if 1 < d.nx3 then e.line2 len (q.1+1) q.2.1 q.2.2 - e.line2 len q.1 q.2.1 q.2.2 else 0)
      else b q := by
  unfold ctB1
  by_cases h2 : d.nx2 > 1
  · rw [rows_loop d.ks d.ke d.js d.je d.is (d.ie+1) _ (fun q => (w / G.a1 q) *
        (-(e.line3 len q.1 (q.2.1+1) q.2.2 - e.line3 len q.1 q.2.1 q.2.2) +
          if 1 < d.nx3 then e.line2 len (q.1+1) q.2.1 q.2.2 - e.line2 len q.1 q.2.1 q.2.2 else 0))]
    · simp only [h2, true_and]
    · intro k j b q
      rw [if_pos h2]
      by_cases h3 : d.nx3 > 1
      · simp only [if_pos h3, addRow_eq, subRow_eq]
        split
        · rename_i h; obtain ⟨rfl, rfl, _⟩ := h
          simp only [EF.line3, EF.line2]; ring
        · rfl
      · simp only [if_neg h3, subRow_eq]
        split
        · rename_i h; obtain ⟨rfl, rfl, _⟩ := h
          simp only [EF.line3]; ring
        · rfl
  · have h2' : ¬ 1 < d.nx2 := h2
    simp only [h2', false_and, if_false]
    have : ∀ (l : List Int) (s e : Int) (b : A3 K), l.foldl (fun b (_ : Int) => (loop s e fun _ b => b) b) b = b := by
      intro l s e b
      have h1 : ∀ l' : List Int, ∀ b : A3 K, l'.foldl (fun b _ => b) b = b := by
        intro l'; induction l' with
        | nil => intro b; rfl
        | cons a l' ih => intro b; rw [List.foldl_cons]; exact ih b
      induction l generalizing b with
      | nil => rfl
      | cons a l ih => rw [List.foldl_cons, ih, loop_eq]; exact h1 _ b
    exact congrFun (this (rng d.ks d.ke) d.js d.je b) q

theorem ctB2_eq (pin pout : Bool) (b : A3 K) (q : Int × Int × Int) :
    ctB2 d pin pout G len e w b q =
      if d.ks ≤ q.1 ∧ q.1 ≤ d.ke ∧ (if pin then d.js + 1 else d.js) ≤ q.2.1 ∧
          q.2.1 ≤ (if pout then d.je else d.je + 1) ∧ d.is ≤ q.2.2 ∧ q.2.2 ≤ d.ie then
        b q + (w / G.a2 q) * ((e.line3 len q.1 q.2.1 (q.2.2+1) - e.line3 len q.1 q.2.1 q.2.2) -
          if 1 < d.nx3 then e.line1 len (q.1+1) q.2.1 q.2.2 - e.line1 len q.1 q.2.1 q.2.2 else 0)
      else b q := by
  unfold ctB2
  apply rows_loop _ _ _ _ _ _ _ (fun q => (w / G.a2 q) * ((e.line3 len q.1 q.2.1 (q.2.2+1) - e.line3 len q.1 q.2.1 q.2.2) -
          if 1 < d.nx3 then e.line1 len (q.1+1) q.2.1 q.2.2 - e.line1 len q.1 q.2.1 q.2.2 else 0))
  intro k j b q
  by_cases h3 : d.nx3 > 1
  · simp only [if_pos h3, addRow_eq, subRow_eq]
    split
    · rename_i h; obtain ⟨rfl, rfl, _⟩ := h
      simp only [EF.line3, EF.line1]; ring
    · rfl
  · simp only [if_neg h3, addRow_eq]
    split
    · rename_i h; obtain ⟨rfl, rfl, _⟩ := h
      simp only [EF.line3]; ring
    · rfl

theorem ctB3_eq (b : A3 K) (q : Int × Int × Int) :
    ctB3 d G len e w b q =
      if d.ks ≤ q.1 ∧ q.1 ≤ d.ke + 1 ∧ d.js ≤ q.2.1 ∧ q.2.1 ≤ d.je ∧ d.is ≤ q.2.2 ∧ q.2.2 ≤ d.ie then
        b q + (w / G.a3 q) * (-(e.line2 len q.1 q.2.1 (q.2.2+1) - e.line2 len q.1 q.2.1 q.2.2) +
          if 1 < d.nx2 then e.line1 len q.1 (q.2.1+1) q.2.2 - e.line1 len q.1 q.2.1 q.2.2 else 0)
      else b q := by
  unfold ctB3
  apply rows_loop _ _ _ _ _ _ _ (fun q => (w / G.a3 q) * (-(e.line2 len q.1 q.2.1 (q.2.2+1) - e.line2 len q.1 q.2.1 q.2.2) +
          if 1 < d.nx2 then e.line1 len q.1 (q.2.1+1) q.2.2 - e.line1 len q.1 q.2.1 q.2.2 else 0))
  intro k j b q
  by_cases h3 : d.nx2 > 1
  · simp only [if_pos h3, addRow_eq, subRow_eq]
    split
    · rename_i h; obtain ⟨rfl, rfl, _⟩ := h
      simp only [EF.line2, EF.line1]; ring
    · rfl
  · simp only [if_neg h3, subRow_eq]
    split
    · rename_i h; obtain ⟨rfl, rfl, _⟩ := h
      simp only [EF.line2]; ring
    · rfl

end Verif.Grid
