import Verif.Spec.CornerE
import Verif.Lemmas.Refine
import Verif.Lemmas.CT

/-! Helper lemmas for the electric field at edges. -/
namespace Verif.Grid
open Verif.Arr

theorem fill_at (k0 k1 j0 j1 i0 i1 : ℤ) (f : ℤ → ℤ → ℤ → ℝ) (a : A3 ℝ) (k j i : ℤ) :
    fill k0 k1 j0 j1 i0 i1 f a (k, j, i) =
      if (k0 ≤ k ∧ k ≤ k1) ∧ (j0 ≤ j ∧ j ≤ j1) ∧ (i0 ≤ i ∧ i ≤ i1) then f k j i else a (k, j, i) := by
  unfold fill
  split
  · next h =>
    refine loop3_hit (fun st : A3 ℝ => st (k, j, i)) _ _ _ _ _ _ _ _ k j i h.1 h.2.1 h.2.2 ?_ ?_ a
    · intro st; exact Function.update_self ..
    · intro k' j' i' hne st
      refine Function.update_of_ne ?_ _ _
      intro h; exact hne h.symm
  · next h =>
    refine loop3_keep (fun st : A3 ℝ => st (k, j, i)) _ _ _ _ _ _ _ ?_ a
    intro k' j' i' hk hj hi st
    refine Function.update_of_ne ?_ _ _
    intro e; apply h; simp only [Prod.mk.injEq] at e; omega

theorem fill_in {k0 k1 j0 j1 i0 i1 : ℤ} {f : ℤ → ℤ → ℤ → ℝ} {a : A3 ℝ} {k j i : ℤ} (h1 : k0 ≤ k) (h2 : k ≤ k1)
    (h3 : j0 ≤ j) (h4 : j ≤ j1) (h5 : i0 ≤ i) (h6 : i ≤ i1) : fill k0 k1 j0 j1 i0 i1 f a (k, j, i) = f k j i := by
  rw [fill_at, if_pos ⟨⟨h1, h2⟩, ⟨h3, h4⟩, h5, h6⟩]
theorem fill_out {k0 k1 j0 j1 i0 i1 : ℤ} {f : ℤ → ℤ → ℤ → ℝ} {a : A3 ℝ} {k j i : ℤ}
    (h : k < k0 ∨ k1 < k ∨ j < j0 ∨ j1 < j ∨ i < i0 ∨ i1 < i) : fill k0 k1 j0 j1 i0 i1 f a (k, j, i) = a (k, j, i) := by
  rw [fill_at, if_neg (by omega)]

theorem cellE_eq (sr : Bool) (w bcc : A4 ℝ) (c : ℕ) (k j i : ℤ) :
    cellE sr w bcc c k j i = cellElectric sr w bcc c (k, j, i) := by
  unfold cellE cellElectric
  cases sr
  · simp only [Bool.false_eq_true, if_false]
    norm_num
  · simp only [if_true, ← add_assoc]
    norm_num
    split_ifs <;> ring

/-- What `ComputeCornerE` leaves on the edges of active cells, apart from diffusion. -/
noncomputable def baseE (d : Dims) (sr : Bool) (w bcc : A4 ℝ) (S : ℕ → ℤ → ℤ → ℤ → Solved) (c : ℕ) (q : ℤ × ℤ × ℤ) : ℝ :=
  if d.nx2 = 1 then (if c = 1 then 0 else faceE S c 1 (d.ks, d.js, q.2.2))
  else if d.nx3 = 1 then
    (if c = 1 then faceE S 1 2 (d.ks, q.2.1, q.2.2) else if c = 2 then faceE S 2 1 (d.ks, q.2.1, q.2.2) else edgeE sr w bcc S 3 1 2 q)
  else (if c = 1 then edgeE sr w bcc S 1 2 3 q else if c = 2 then edgeE sr w bcc S 2 1 3 q else edgeE sr w bcc S 3 1 2 q)

variable {d : Dims} {sr : Bool} {w bcc : A4 ℝ} {S : ℕ → ℤ → ℤ → ℤ → Solved} {dif : Option (EF ℝ)} {s : Stale}

theorem stageE_at (hd : d.Pos) {c : ℕ} (hc : c = 1 ∨ c = 2 ∨ c = 3) (h1 : c = 1 → 1 < d.nx2) {q : ℤ × ℤ × ℤ}
    (hq : EdgeOf d c q) : (stageE d sr w bcc S dif s).comp c q = baseE d sr w bcc S c q + dif.elim 0 (fun e => e.comp c q) := by
  obtain ⟨k, j, i⟩ := q
  obtain ⟨hk, hj, hi⟩ := hq
  obtain ⟨g, n1, n2, n3, ord⟩ := hd
  simp only at hk hj hi
  have fin : ∀ (e : EF ℝ), (addDif dif e).comp c (k, j, i) = e.comp c (k, j, i) + dif.elim 0 (fun e => e.comp c (k, j, i)) := by
    intro e
    cases dif with
    | none => simp [addDif]
    | some t => rcases hc with rfl | rfl | rfl <;> simp [addDif, addEMF, EF.comp]
  unfold stageE computeCornerE baseE
  by_cases c2 : d.nx2 = 1
  · have c3 : ¬ 1 < d.nx3 := fun h => by have := ord h; omega
    have c3' : d.nx3 = 1 := by omega
    have e1 : d.js = 0 := by simp [Dims.js, c2]
    have e2 : d.je = 0 := by simp [Dims.je, c2]
    have e3 : d.ks = 0 := by simp [Dims.ks, c3']
    have e4 : d.ke = 0 := by simp [Dims.ke, c3']
    simp only [if_pos c2]
    rw [fin]
    congr 1
    rcases hc with rfl | rfl | rfl
    · exact absurd (h1 rfl) (by omega)
    · simp only [EF.comp] at *
      norm_num at *
      have hj' : j = d.js := by omega
      subst hj'
      rcases (by omega : k = d.ks ∨ k = d.ke + 1) with rfl | rfl
      · rw [fill_out (by omega), fill_in (by omega) (by omega) (by omega) (by omega) (by omega) (by omega)]
        simp only [calcFaceE, c2, c3', faceE]
        norm_num
        rw [fill_in (by omega) (by omega) (by omega) (by omega) (by omega) (by omega)]
      · rw [fill_in (by omega) (by omega) (by omega) (by omega) (by omega) (by omega)]
        simp only [calcFaceE, c2, c3', faceE]
        norm_num
        rw [fill_in (by omega) (by omega) (by omega) (by omega) (by omega) (by omega)]
    · simp only [EF.comp] at *
      norm_num at *
      have hk' : k = d.ks := by omega
      subst hk'
      rcases (by omega : j = d.js ∨ j = d.je + 1) with rfl | rfl
      · rw [fill_out (by omega), fill_in (by omega) (by omega) (by omega) (by omega) (by omega) (by omega)]
        simp only [calcFaceE, c2, c3', faceE]
        norm_num
        rw [fill_in (by omega) (by omega) (by omega) (by omega) (by omega) (by omega)]
      · rw [fill_in (by omega) (by omega) (by omega) (by omega) (by omega) (by omega)]
        simp only [calcFaceE, c2, c3', faceE]
        norm_num
        rw [fill_in (by omega) (by omega) (by omega) (by omega) (by omega) (by omega)]
  · have c2' : d.nx2 > 1 := by omega
    simp only [if_neg c2]
    by_cases c3 : d.nx3 = 1
    · have e3 : d.ks = 0 := by simp [Dims.ks, c3]
      have e4 : d.ke = 0 := by simp [Dims.ke, c3]
      simp only [if_pos c3]
      rw [fin]
      congr 1
      have c3n : ¬ d.nx3 > 1 := by omega
      rcases hc with rfl | rfl | rfl
      · simp only [EF.comp] at *
        norm_num at hk hj hi ⊢
        simp only [calcFaceE, if_pos c2', if_pos c3, if_neg c3n, faceE]
        norm_num
        rcases (by omega : k = d.ks ∨ k = d.ke + 1) with rfl | rfl
        · simp (disch := omega) only [fill_in, fill_out]
        · simp (disch := omega) only [fill_in, fill_out]
      · simp only [EF.comp] at *
        norm_num at hk hj hi ⊢
        simp only [calcFaceE, if_pos c2', if_pos c3, if_neg c3n, faceE]
        norm_num
        rcases (by omega : k = d.ks ∨ k = d.ke + 1) with rfl | rfl
        · simp (disch := omega) only [fill_in, fill_out]
        · simp (disch := omega) only [fill_in, fill_out]
      · simp only [EF.comp] at *
        norm_num at hk hj hi ⊢
        simp (disch := omega) only [fill_in]
        simp only [corner3, calcFaceE, if_pos c2', if_pos c3, if_neg c3n]
        simp (disch := omega) only [fill_in]
        simp only [cellE_eq, edgeE, faceE, mix, down, de]
        norm_num
        ring
    · have c3' : d.nx3 > 1 := by omega
      simp only [if_neg c3]
      rw [fin]
      congr 1
      rcases hc with rfl | rfl | rfl
      · simp only [EF.comp] at *
        norm_num at hk hj hi ⊢
        simp (disch := omega) only [fill_in]
        simp only [corner1, calcFaceE, if_pos c2', if_neg c3, if_pos c3']
        simp (disch := omega) only [fill_in]
        simp only [cellE_eq, edgeE, faceE, mix, down, de]
        norm_num
        ring
      · simp only [EF.comp] at *
        norm_num at hk hj hi ⊢
        simp (disch := omega) only [fill_in]
        simp only [corner2, calcFaceE, if_pos c2', if_neg c3, if_pos c3']
        simp (disch := omega) only [fill_in]
        simp only [cellE_eq, edgeE, faceE, mix, down, de]
        norm_num
        ring
      · simp only [EF.comp] at *
        norm_num at hk hj hi ⊢
        simp (disch := omega) only [fill_in]
        simp only [corner3, calcFaceE, if_pos c2', if_neg c3, if_pos c3']
        simp (disch := omega) only [fill_in]
        simp only [cellE_eq, edgeE, faceE, mix, down, de]
        norm_num
        ring

/-- `CT` uses the edges of active cells only. -/
theorem ct_congr (hd : d.Pos) {pin pout : Bool} {G : Geom ℝ} {len e e' : EF ℝ} {wt : ℝ} {b : FF ℝ}
    (h : ∀ c q, (c = 1 ∨ c = 2 ∨ c = 3) → (c = 1 → 1 < d.nx2) → EdgeOf d c q → e.comp c q = e'.comp c q) :
    ct d pin pout G len e wt b = ct d pin pout G len e' wt b := by
  obtain ⟨g, n1, n2, n3, ord⟩ := hd
  have l1 : ∀ k j i, 1 < d.nx2 → EdgeOf d 1 (k, j, i) → e.line1 len k j i = e'.line1 len k j i := by
    intro k j i h2 hq
    have := h 1 (k, j, i) (by simp) (fun _ => h2) hq
    simp only [EF.comp, if_true] at this
    simp only [EF.line1, this]
  have l2 : ∀ k j i, EdgeOf d 2 (k, j, i) → e.line2 len k j i = e'.line2 len k j i := by
    intro k j i hq
    have := h 2 (k, j, i) (by simp) (by simp) hq
    simp only [EF.comp] at this
    norm_num at this
    simp only [EF.line2, this]
  have l3 : ∀ k j i, EdgeOf d 3 (k, j, i) → e.line3 len k j i = e'.line3 len k j i := by
    intro k j i hq
    have := h 3 (k, j, i) (by simp) (by simp) hq
    simp only [EF.comp] at this
    norm_num at this
    simp only [EF.line3, this]
  simp only [EdgeOf] at l1 l2 l3
  norm_num at l1 l2 l3
  unfold ct
  congr 1
  · funext q
    simp only [ctB1_eq]
    split
    · next hc =>
      rw [l3 _ _ _ (by omega) (by omega) (by omega) (by omega) (by omega) (by omega),
        l3 _ _ _ (by omega) (by omega) (by omega) (by omega) (by omega) (by omega)]
      split
      · rw [l2 _ _ _ (by omega) (by omega) (by omega) (by omega) (by omega) (by omega),
          l2 _ _ _ (by omega) (by omega) (by omega) (by omega) (by omega) (by omega)]
      · rfl
    · rfl
  · funext q
    simp only [ctB2_eq]
    cases pin <;> cases pout <;> simp only [Bool.false_eq_true, if_false, if_true] <;>
    · split
      · next hc =>
        rw [l3 _ _ _ (by omega) (by omega) (by omega) (by omega) (by omega) (by omega),
          l3 _ _ _ (by omega) (by omega) (by omega) (by omega) (by omega) (by omega)]
        split
        · next h3 =>
          rw [l1 _ _ _ (ord h3) (by omega) (by omega) (by omega) (by omega) (by omega) (by omega),
            l1 _ _ _ (ord h3) (by omega) (by omega) (by omega) (by omega) (by omega) (by omega)]
        · rfl
      · rfl
  · funext q
    simp only [ctB3_eq]
    split
    · next hc =>
      rw [l2 _ _ _ (by omega) (by omega) (by omega) (by omega) (by omega) (by omega),
        l2 _ _ _ (by omega) (by omega) (by omega) (by omega) (by omega) (by omega)]
      split
      · next h2 =>
        rw [l1 _ _ _ h2 (by omega) (by omega) (by omega) (by omega) (by omega) (by omega),
          l1 _ _ _ h2 (by omega) (by omega) (by omega) (by omega) (by omega) (by omega)]
      · rfl
    · rfl

theorem down1 (k j i : ℤ) : down 1 (k, j, i) = (k, j, i-1) := rfl
theorem down2 (k j i : ℤ) : down 2 (k, j, i) = (k, j-1, i) := rfl
theorem down3 (k j i : ℤ) : down 3 (k, j, i) = (k-1, j, i) := rfl

theorem edgeE_comm (a b c : ℕ) (q : ℤ × ℤ × ℤ) : edgeE sr w bcc S c a b q = edgeE sr w bcc S c b a q := by
  simp only [edgeE]; ring

/-- The value of the edge depends on cells and faces around it only. -/
theorem edgeE_congr {w' bcc' : A4 ℝ} {S' : ℕ → ℤ → ℤ → ℤ → Solved} {a b c : ℕ} {q : ℤ × ℤ × ℤ}
    (h : ∀ p, (p = q ∨ p = down a q ∨ p = down b q ∨ p = down a (down b q) ∨ p = down b (down a q)) →
      (∀ n, w (n, p) = w' (n, p) ∧ bcc (n, p) = bcc' (n, p)) ∧ ∀ a, S a p.1 p.2.1 p.2.2 = S' a p.1 p.2.1 p.2.2) :
    edgeE sr w bcc S c a b q = edgeE sr w' bcc' S' c a b q := by
  have hE : ∀ p, (p = q ∨ p = down a q ∨ p = down b q ∨ p = down a (down b q) ∨ p = down b (down a q)) →
      cellElectric sr w bcc c p = cellElectric sr w' bcc' c p := by
    intro p hp
    have := (h p hp).1
    simp only [cellElectric, this]
  have hF : ∀ p x, (p = q ∨ p = down a q ∨ p = down b q ∨ p = down a (down b q) ∨ p = down b (down a q)) →
      faceE S c x p = faceE S' c x p := by
    intro p x hp
    have := (h p hp).2 x
    simp only [faceE, this]
  have hW : ∀ p x, (p = q ∨ p = down a q ∨ p = down b q ∨ p = down a (down b q) ∨ p = down b (down a q)) →
      (S x p.1 p.2.1 p.2.2).wct = (S' x p.1 p.2.1 p.2.2).wct := by
    intro p x hp
    rw [(h p hp).2 x]
  unfold edgeE
  simp only []
  rw [hF q a (by simp), hF q b (by simp), hF (down b q) a (by simp), hF (down a q) b (by simp), hW q a (by simp), hW q b (by simp),
    hW (down b q) a (by simp), hW (down a q) b (by simp), hE q (by simp), hE (down a q) (by simp), hE (down b q) (by simp),
    hE (down a (down b q)) (by simp), hE (down b (down a q)) (by simp)]

end Verif.Grid
