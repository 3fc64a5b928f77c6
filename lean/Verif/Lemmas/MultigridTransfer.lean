import Verif.Lemmas.Multigrid
import Mathlib.Algebra.BigOperators.Ring.Finset

/-! Helper lemmas for the transfer between the levels of the multigrid solver. -/
namespace Verif.Mg
open Verif.Arr (loop)
open Verif.Grid

section
variable (bx : Box) (fkl fjl fil : ℤ) (src : A3 ℝ)

/-- Fine cell `(a, b, c)` of coarse cell `(k, j, i)`. -/
def finePt (k j i : ℤ) (a b c : ℕ) : ℤ × ℤ × ℤ := (2 * (k - bx.kl) + fkl + a, 2 * (j - bx.jl) + fjl + b, 2 * (i - bx.il) + fil + c)

theorem finePt_inj {k j i k' j' i' : ℤ} {a b c a' b' c' : ℕ} (ha : a < 2) (hb : b < 2) (hc : c < 2) (ha' : a' < 2) (hb' : b' < 2)
    (hc' : c' < 2) (h : finePt bx fkl fjl fil k j i a b c = finePt bx fkl fjl fil k' j' i' a' b' c') :
    k = k' ∧ j = j' ∧ i = i' ∧ a = a' ∧ b = b' ∧ c = c' := by
  simp only [finePt, Prod.mk.injEq] at h; omega

theorem addAt_self (q : ℤ × ℤ × ℤ) (v : ℝ) (d : A3 ℝ) : addAt q v d q = d q + v := by simp [addAt]
theorem addAt_ne {q r : ℤ × ℤ × ℤ} (h : r ≠ q) (v : ℝ) (d : A3 ℝ) : addAt q v d r = d r := by simp [addAt, h]

/-- One coarse cell of `prolongateAndCorrect`. -/
noncomputable def pacCell (cubic : Bool) (k j i : ℤ) (dst : A3 ℝ) : A3 ℝ :=
    let fk := 2 * (k - bx.kl) + fkl
    let fj := 2 * (j - bx.jl) + fjl
    let fi := 2 * (i - bx.il) + fil
    if cubic then
      let dst := addAt (fk, fj, fi) (cubic000 src k j i) dst
      let dst := addAt (fk, fj, fi+1) (cubic001 src k j i) dst
      let dst := addAt (fk, fj+1, fi) (cubic010 src k j i) dst
      let dst := addAt (fk, fj+1, fi+1) (cubic011 src k j i) dst
      let dst := addAt (fk+1, fj, fi) (cubic100 src k j i) dst
      let dst := addAt (fk+1, fj, fi+1) (cubic101 src k j i) dst
      let dst := addAt (fk+1, fj+1, fi) (cubic110 src k j i) dst
      addAt (fk+1, fj+1, fi+1) (cubic111 src k j i) dst
    else
      let dst := addAt (fk, fj, fi) (linear000 src k j i) dst
      let dst := addAt (fk, fj, fi+1) (linear001 src k j i) dst
      let dst := addAt (fk, fj+1, fi) (linear010 src k j i) dst
      let dst := addAt (fk+1, fj, fi) (linear100 src k j i) dst
      let dst := addAt (fk+1, fj+1, fi) (linear110 src k j i) dst
      let dst := addAt (fk+1, fj, fi+1) (linear101 src k j i) dst
      let dst := addAt (fk, fj+1, fi+1) (linear011 src k j i) dst
      addAt (fk+1, fj+1, fi+1) (linear111 src k j i) dst

theorem pacCell_hit (cubic : Bool) (k j i : ℤ) (a b c : ℕ) (ha : a < 2) (hb : b < 2) (hc : c < 2) (dst : A3 ℝ) :
    pacCell bx fkl fjl fil src cubic k j i dst (finePt bx fkl fjl fil k j i a b c) =
      dst (finePt bx fkl fjl fil k j i a b c) + weight cubic a b c src k j i := by
  have h2 : ∀ n : ℕ, n < 2 → n = 0 ∨ n = 1 := by intro n; omega
  rcases h2 a ha with rfl | rfl <;> rcases h2 b hb with rfl | rfl <;> rcases h2 c hc with rfl | rfl <;> cases cubic <;>
    simp [pacCell, finePt, addAt, weight, Function.update_apply, cubic000_eq, cubic001_eq, cubic010_eq, cubic011_eq, cubic100_eq, cubic101_eq,
      cubic110_eq, cubic111_eq, linear000_eq, linear001_eq, linear010_eq, linear011_eq, linear100_eq, linear101_eq, linear110_eq,
      linear111_eq]

theorem pacCell_keep (cubic : Bool) (k j i : ℤ) (q : ℤ × ℤ × ℤ)
    (h : ∀ a b c : ℕ, a < 2 → b < 2 → c < 2 → q ≠ finePt bx fkl fjl fil k j i a b c) (dst : A3 ℝ) :
    pacCell bx fkl fjl fil src cubic k j i dst q = dst q := by
  have e := fun a b c ha hb hc => h a b c ha hb hc
  have e0 := e 0 0 0 (by omega) (by omega) (by omega)
  have e1 := e 0 0 1 (by omega) (by omega) (by omega)
  have e2 := e 0 1 0 (by omega) (by omega) (by omega)
  have e3 := e 0 1 1 (by omega) (by omega) (by omega)
  have e4 := e 1 0 0 (by omega) (by omega) (by omega)
  have e5 := e 1 0 1 (by omega) (by omega) (by omega)
  have e6 := e 1 1 0 (by omega) (by omega) (by omega)
  have e7 := e 1 1 1 (by omega) (by omega) (by omega)
  simp only [finePt, Nat.cast_zero, Nat.cast_one, add_zero] at e0 e1 e2 e3 e4 e5 e6 e7
  unfold pacCell
  cases cubic
  · simp only [Bool.false_eq_true, if_false]
    rw [addAt_ne e7, addAt_ne e3, addAt_ne e5, addAt_ne e6, addAt_ne e4, addAt_ne e2, addAt_ne e1, addAt_ne e0]
  · simp only [if_true]
    rw [addAt_ne e7, addAt_ne e6, addAt_ne e5, addAt_ne e4, addAt_ne e3, addAt_ne e2, addAt_ne e1, addAt_ne e0]

theorem pac_at (cubic : Bool) (dst : A3 ℝ) (k j i : ℤ) (hin : bx.In k j i) (a b c : ℕ) (ha : a < 2) (hb : b < 2) (hc : c < 2) :
    prolongateAndCorrect cubic bx fkl fjl fil src dst (finePt bx fkl fjl fil k j i a b c) =
      dst (finePt bx fkl fjl fil k j i a b c) + weight cubic a b c src k j i := by
  have e : prolongateAndCorrect cubic bx fkl fjl fil src dst =
      (boxPts bx).foldl (fun st q => pacCell bx fkl fjl fil src cubic q.1 q.2.1 q.2.2 st) dst := by
    rw [← loops_eq bx (fun k j i => pacCell bx fkl fjl fil src cubic k j i)]; rfl
  rw [e]
  refine fold_once _ (nodup_boxPts bx) _ (fun st : A3 ℝ => st (finePt bx fkl fjl fil k j i a b c)) (fun v => v + weight cubic a b c src k j i)
    (k, j, i) ((mem_boxPts _ _ _ _).2 hin) (fun st => pacCell_hit bx fkl fjl fil src cubic k j i a b c ha hb hc st) ?_ dst
  rintro ⟨k', j', i'⟩ _ hne st
  refine pacCell_keep bx fkl fjl fil src cubic k' j' i' _ (fun a' b' c' ha' hb' hc' h => hne ?_) st
  obtain ⟨rfl, rfl, rfl, _⟩ := finePt_inj bx fkl fjl fil ha hb hc ha' hb' hc' h
  rfl

theorem pac_out (cubic : Bool) (dst : A3 ℝ) (q : ℤ × ℤ × ℤ)
    (h : ∀ k j i, bx.In k j i → ∀ a b c : ℕ, a < 2 → b < 2 → c < 2 → q ≠ finePt bx fkl fjl fil k j i a b c) :
    prolongateAndCorrect cubic bx fkl fjl fil src dst q = dst q := by
  unfold prolongateAndCorrect
  refine loop3_keep (fun st : A3 ℝ => st q) _ _ _ _ _ _ _ (fun k j i hk hj hi st => ?_) dst
  exact pacCell_keep bx fkl fjl fil src cubic k j i q (h k j i ⟨hk, hj, hi⟩) st

/-- One coarse cell of `fmgProlongate`. -/
noncomputable def fmgCell (k j i : ℤ) (dst : A3 ℝ) : A3 ℝ :=
    let fk := 2 * (k - bx.kl) + fkl
    let fj := 2 * (j - bx.jl) + fjl
    let fi := 2 * (i - bx.il) + fil
    let dst := Function.update dst (fk, fj, fi) (fmg000 src k j i)
    let dst := Function.update dst (fk, fj, fi+1) (fmg001 src k j i)
    let dst := Function.update dst (fk, fj+1, fi) (fmg010 src k j i)
    let dst := Function.update dst (fk, fj+1, fi+1) (fmg011 src k j i)
    let dst := Function.update dst (fk+1, fj, fi) (fmg100 src k j i)
    let dst := Function.update dst (fk+1, fj, fi+1) (fmg101 src k j i)
    let dst := Function.update dst (fk+1, fj+1, fi) (fmg110 src k j i)
    Function.update dst (fk+1, fj+1, fi+1) (fmg111 src k j i)

theorem fmgCell_hit (k j i : ℤ) (a b c : ℕ) (ha : a < 2) (hb : b < 2) (hc : c < 2) (dst : A3 ℝ) :
    fmgCell bx fkl fjl fil src k j i dst (finePt bx fkl fjl fil k j i a b c) = interp w3 a b c src k j i := by
  have h2 : ∀ n : ℕ, n < 2 → n = 0 ∨ n = 1 := by intro n; omega
  rcases h2 a ha with rfl | rfl <;> rcases h2 b hb with rfl | rfl <;> rcases h2 c hc with rfl | rfl <;>
    simp [fmgCell, finePt, Function.update_apply, fmg000_eq, fmg001_eq, fmg010_eq, fmg011_eq, fmg100_eq, fmg101_eq, fmg110_eq, fmg111_eq]

theorem fmgCell_keep (k j i : ℤ) (q : ℤ × ℤ × ℤ)
    (h : ∀ a b c : ℕ, a < 2 → b < 2 → c < 2 → q ≠ finePt bx fkl fjl fil k j i a b c) (dst : A3 ℝ) :
    fmgCell bx fkl fjl fil src k j i dst q = dst q := by
  have e := fun a b c ha hb hc => h a b c ha hb hc
  have e0 := e 0 0 0 (by omega) (by omega) (by omega)
  have e1 := e 0 0 1 (by omega) (by omega) (by omega)
  have e2 := e 0 1 0 (by omega) (by omega) (by omega)
  have e3 := e 0 1 1 (by omega) (by omega) (by omega)
  have e4 := e 1 0 0 (by omega) (by omega) (by omega)
  have e5 := e 1 0 1 (by omega) (by omega) (by omega)
  have e6 := e 1 1 0 (by omega) (by omega) (by omega)
  have e7 := e 1 1 1 (by omega) (by omega) (by omega)
  simp only [finePt, Nat.cast_zero, Nat.cast_one, add_zero] at e0 e1 e2 e3 e4 e5 e6 e7
  unfold fmgCell
  rw [Function.update_of_ne e7, Function.update_of_ne e6, Function.update_of_ne e5, Function.update_of_ne e4, Function.update_of_ne e3,
    Function.update_of_ne e2, Function.update_of_ne e1, Function.update_of_ne e0]

theorem fmg_at (dst : A3 ℝ) (k j i : ℤ) (hin : bx.In k j i) (a b c : ℕ) (ha : a < 2) (hb : b < 2) (hc : c < 2) :
    fmgProlongate bx fkl fjl fil src dst (finePt bx fkl fjl fil k j i a b c) = interp w3 a b c src k j i := by
  have e : fmgProlongate bx fkl fjl fil src dst =
      (boxPts bx).foldl (fun st q => fmgCell bx fkl fjl fil src q.1 q.2.1 q.2.2 st) dst := by
    rw [← loops_eq bx (fun k j i => fmgCell bx fkl fjl fil src k j i)]; rfl
  rw [e]
  refine fold_once _ (nodup_boxPts bx) _ (fun st : A3 ℝ => st (finePt bx fkl fjl fil k j i a b c)) (fun _ => interp w3 a b c src k j i)
    (k, j, i) ((mem_boxPts _ _ _ _).2 hin) (fun st => fmgCell_hit bx fkl fjl fil src k j i a b c ha hb hc st) ?_ dst
  rintro ⟨k', j', i'⟩ _ hne st
  refine fmgCell_keep bx fkl fjl fil src k' j' i' _ (fun a' b' c' ha' hb' hc' h => hne ?_) st
  obtain ⟨rfl, rfl, rfl, _⟩ := finePt_inj bx fkl fjl fil ha hb hc ha' hb' hc' h
  rfl
end

/-- One direction: the weights reproduce the functions of the class at the centre of the fine cell. -/
theorem w3_quad {f : ℝ → ℝ} (hf : Quadratic f) (a : ℕ) (ha : a < 2) (k : ℤ) :
    w3 a (-1) * f (k - 1) + w3 a 0 * f k + w3 a 1 * f (k + 1) = f (k - 1/4 + a/2) := by
  obtain ⟨p, q, r, h⟩ := hf
  have h2 : a = 0 ∨ a = 1 := by omega
  rcases h2 with rfl | rfl <;> simp only [h, w3] <;> norm_num <;> ring

theorem w2_affine {f : ℝ → ℝ} (hf : Affine f) (a : ℕ) (ha : a < 2) (k : ℤ) :
    w2 a (-1) * f (k - 1) + w2 a 0 * f k + w2 a 1 * f (k + 1) = f (k - 1/4 + a/2) := by
  obtain ⟨p, q, h⟩ := hf
  have h2 : a = 0 ∨ a = 1 := by omega
  rcases h2 with rfl | rfl <;> simp only [h, w2] <;> norm_num <;> ring

theorem interp_exact (w : ℕ → ℤ → ℝ) (C : (ℝ → ℝ) → Prop)
    (hw : ∀ f, C f → ∀ a, a < 2 → ∀ k : ℤ, w a (-1) * f (k - 1) + w a 0 * f k + w a 1 * f (k + 1) = f (k - 1/4 + a/2))
    (P : ℝ → ℝ → ℝ → ℝ) (hP : Tensor C P) (s : A3 ℝ) (k j i : ℤ) (hs : Samples P s k j i) (a b c : ℕ) (ha : a < 2) (hb : b < 2)
    (hc : c < 2) : interp w a b c s k j i = P (k - 1/4 + a/2) (j - 1/4 + b/2) (i - 1/4 + c/2) := by
  obtain ⟨m, f, g, h, hC, hPe⟩ := hP
  have step : interp w a b c s k j i = ∑ n ∈ Finset.range m,
      (w a (-1) * f n (k - 1) + w a 0 * f n k + w a 1 * f n (k + 1)) * (w b (-1) * g n (j - 1) + w b 0 * g n j + w b 1 * g n (j + 1)) *
        (w c (-1) * h n (i - 1) + w c 0 * h n i + w c 1 * h n (i + 1)) := by
    have hv : ∀ x ∈ ({-1, 0, 1} : Finset ℤ), ∀ y ∈ ({-1, 0, 1} : Finset ℤ), ∀ z ∈ ({-1, 0, 1} : Finset ℤ),
        s (k + x, j + y, i + z) = ∑ n ∈ Finset.range m, f n (k + x : ℤ) * g n (j + y : ℤ) * h n (i + z : ℤ) := by
      intro x hx y hy z hz
      have ab : ∀ t ∈ ({-1, 0, 1} : Finset ℤ), ∀ r : ℤ, |r + t - r| ≤ 1 := by
        intro t ht r
        simp only [Finset.mem_insert, Finset.mem_singleton] at ht
        rcases ht with rfl | rfl | rfl <;> simp
      rw [hs _ _ _ (ab x hx k) (ab y hy j) (ab z hz i), hPe]
    unfold interp
    rw [Finset.sum_congr rfl fun x hx => Finset.sum_congr rfl fun y hy => Finset.sum_congr rfl fun z hz => by
      rw [hv x hx y hy z hz, Finset.mul_sum]]
    simp only [sum3, ← Finset.sum_add_distrib]
    refine Finset.sum_congr rfl fun n _ => ?_
    push_cast
    simp only [add_zero, ← sub_eq_add_neg]
    ring
  rw [step, hPe]
  refine Finset.sum_congr rfl fun n _ => ?_
  rw [hw _ (hC n).1 a ha, hw _ (hC n).2.1 b hb, hw _ (hC n).2.2 c hc]

/-- Interpolation of zero data. -/
theorem interp_zero (w : ℕ → ℤ → ℝ) (s : A3 ℝ) (k j i : ℤ)
    (hs : ∀ k' j' i', |k' - k| ≤ 1 → |j' - j| ≤ 1 → |i' - i| ≤ 1 → s (k', j', i') = 0) (a b c : ℕ) : interp w a b c s k j i = 0 := by
  unfold interp
  have ab : ∀ t ∈ ({-1, 0, 1} : Finset ℤ), ∀ r : ℤ, |r + t - r| ≤ 1 := by
    intro t ht r
    simp only [Finset.mem_insert, Finset.mem_singleton] at ht
    rcases ht with rfl | rfl | rfl <;> simp
  refine Finset.sum_eq_zero fun x hx => Finset.sum_eq_zero fun y hy => Finset.sum_eq_zero fun z hz => ?_
  rw [hs _ _ _ (ab x hx k) (ab y hy j) (ab z hz i), mul_zero]

end Verif.Mg

namespace Verif.Mg
open Verif.Grid (A3)

theorem sum_fine_nat (f : ℤ → ℝ) (l : ℤ) (n : ℕ) :
    ∑ x ∈ Finset.Icc l (l + 2 * (n : ℤ) - 1), f x = ∑ y ∈ Finset.Icc l (l + n - 1), (f (2*y - l) + f (2*y - l + 1)) := by
  induction n with
  | zero => simp
  | succ n ih =>
    have e1 : Finset.Icc l (l + 2 * ((n + 1 : ℕ) : ℤ) - 1)
        = insert (l + 2*n + 1) (insert (l + 2*n) (Finset.Icc l (l + 2 * (n : ℤ) - 1))) := by
      ext x; simp only [Finset.mem_insert, Finset.mem_Icc]; push_cast; omega
    have e2 : Finset.Icc l (l + ((n + 1 : ℕ) : ℤ) - 1) = insert (l + n) (Finset.Icc l (l + (n : ℤ) - 1)) := by
      ext x; simp only [Finset.mem_insert, Finset.mem_Icc]; push_cast; omega
    rw [e1, e2, Finset.sum_insert, Finset.sum_insert, Finset.sum_insert, ih]
    · have a1 : 2 * (l + (n : ℤ)) - l = l + 2 * n := by ring
      rw [a1]; ring
    · simp only [Finset.mem_Icc]; omega
    · simp only [Finset.mem_Icc]; omega
    · simp only [Finset.mem_insert, Finset.mem_Icc]; omega

theorem sum_fine (f : ℤ → ℝ) (l u : ℤ) :
    ∑ x ∈ Finset.Icc l (l + 2 * (u - l + 1) - 1), f x = ∑ y ∈ Finset.Icc l u, (f (2*y - l) + f (2*y - l + 1)) := by
  by_cases h : l ≤ u + 1
  · obtain ⟨n, hn⟩ := Int.eq_ofNat_of_zero_le (show 0 ≤ u - l + 1 by omega)
    have hu : u = l + n - 1 := by omega
    have := sum_fine_nat f l n
    rw [hu, ← this]; congr 2; ring
  · rw [Finset.Icc_eq_empty (by omega), Finset.Icc_eq_empty (by omega)]; simp

theorem total_fine (b : Box) (a : A3 ℝ) : 8 * b.total (mean8 b a) = b.fine.total a := by
  unfold Box.total Box.cells Box.fine
  simp only [Finset.sum_product]
  rw [sum_fine (fun x => ∑ y ∈ Finset.Icc b.jl (b.jl + 2 * (b.ju - b.jl + 1) - 1), ∑ z ∈ Finset.Icc b.il (b.il + 2 * (b.iu - b.il + 1) - 1), a (x, y, z)),
    Finset.mul_sum]
  refine Finset.sum_congr rfl fun k _ => ?_
  rw [sum_fine (fun y => ∑ z ∈ Finset.Icc b.il (b.il + 2 * (b.iu - b.il + 1) - 1), a (2*k - b.kl, y, z)),
    sum_fine (fun y => ∑ z ∈ Finset.Icc b.il (b.il + 2 * (b.iu - b.il + 1) - 1), a (2*k - b.kl + 1, y, z)),
    Finset.mul_sum, ← Finset.sum_add_distrib]
  refine Finset.sum_congr rfl fun j _ => ?_
  rw [sum_fine (fun z => a (2*k - b.kl, 2*j - b.jl, z)), sum_fine (fun z => a (2*k - b.kl, 2*j - b.jl + 1, z)),
    sum_fine (fun z => a (2*k - b.kl + 1, 2*j - b.jl, z)), sum_fine (fun z => a (2*k - b.kl + 1, 2*j - b.jl + 1, z)),
    Finset.mul_sum, ← Finset.sum_add_distrib, ← Finset.sum_add_distrib, ← Finset.sum_add_distrib]
  refine Finset.sum_congr rfl fun i _ => ?_
  simp only [mean8]
  ring

end Verif.Mg
