import Verif.Lemmas.Array
import Verif.Model.Flux
import Mathlib.Algebra.BigOperators.Group.Finset.Basic
import Mathlib.Algebra.BigOperators.Ring.Finset
import Mathlib.Data.Int.Interval

/-! Helper lemmas for loops that write array elements. -/
namespace Verif.Grid
open Verif.Arr

section
variable {ι P K : Type} [DecidableEq P]

theorem fold_out (l : List ι) (pt : ι → P) (g : ι → (P → K) → K) (st : P → K) (q : P) (hq : q ∉ l.map pt) :
    (l.foldl (fun st x => Function.update st (pt x) (g x st)) st) q = st q := by
  induction l generalizing st with
  | nil => rfl
  | cons a l ih =>
    simp only [List.map_cons, List.mem_cons, not_or] at hq
    rw [List.foldl_cons, ih _ hq.2, Function.update_of_ne hq.1]

theorem fold_in (l : List ι) (pt : ι → P) (g : ι → (P → K) → K) (st0 : P → K) (hnd : (l.map pt).Nodup)
    (hloc : ∀ x ∈ l, ∀ st, st (pt x) = st0 (pt x) → (∀ q, q ∉ l.map pt → st q = st0 q) → g x st = g x st0)
    (x : ι) (hx : x ∈ l) :
    (l.foldl (fun st x => Function.update st (pt x) (g x st)) st0) (pt x) = g x st0 := by
  obtain ⟨l1, l2, rfl⟩ := List.append_of_mem hx
  rw [List.map_append, List.map_cons] at hnd
  have h2 : pt x ∉ l2.map pt := by
    have := (List.nodup_append.1 hnd).2.1
    exact (List.nodup_cons.1 this).1
  have h1 : pt x ∉ l1.map pt := fun h =>
    (List.nodup_append.1 hnd).2.2 _ h _ (List.mem_cons_self ..) rfl
  rw [List.foldl_append, List.foldl_cons, fold_out _ _ _ _ _ h2, Function.update_self]
  apply hloc x (by simp)
  · exact fold_out _ _ _ _ _ h1
  · intro q hq
    apply fold_out
    intro h; apply hq; rw [List.map_append]; exact List.mem_append_left _ h

theorem take_fold (l : List ι) (pt : ι → P) (buf : Nat → K) (st : P → K) (p : Nat) [Field K] :
    l.foldl (fun st x => takeBuf buf (pt x) st) (st, p) =
      ((l.zipIdx p).foldl (fun st x => Function.update st (pt x.1) (buf x.2)) st, p + l.length) := by
  induction l generalizing st p with
  | nil => rfl
  | cons a l ih =>
    have h := ih (Function.update st (pt a) (buf p)) (p + 1)
    rw [List.foldl_cons]
    show l.foldl _ (Function.update st (pt a) (buf p), p + 1) = _
    rw [h, List.zipIdx_cons, List.foldl_cons, List.length_cons]
    congr 1; omega

theorem zipIdx_map_fst {α : Type} (l : List α) (p : Nat) : (l.zipIdx p).map (·.1) = l := by
  induction l generalizing p with
  | nil => rfl
  | cons a l ih => simp [ih]

theorem take_out [Field K] (l : List ι) (pt : ι → P) (buf : Nat → K) (st : P → K) (q : P) (hq : q ∉ l.map pt) :
    (l.foldl (fun st x => takeBuf buf (pt x) st) (st, 0)).1 q = st q := by
  rw [take_fold]
  apply fold_out (l.zipIdx 0) (fun x => pt x.1) (fun x _ => buf x.2)
  have : (l.zipIdx 0).map (fun x => pt x.1) = l.map pt := by
    conv_rhs => rw [← zipIdx_map_fst l 0]
    rw [List.map_map]; rfl
  rwa [this]

theorem take_in [Field K] (l : List ι) (pt : ι → P) (buf : Nat → K) (st : P → K) (hnd : (l.map pt).Nodup)
    (p : Nat) (x : ι) (hx : l[p]? = some x) :
    (l.foldl (fun st x => takeBuf buf (pt x) st) (st, 0)).1 (pt x) = buf p := by
  rw [take_fold]
  have he : (l.zipIdx 0).map (fun x => pt x.1) = l.map pt := by
    conv_rhs => rw [← zipIdx_map_fst l 0]
    rw [List.map_map]; rfl
  have hm : (x, p) ∈ l.zipIdx 0 := by
    rw [List.mem_zipIdx_iff_getElem?]; simpa using hx
  exact fold_in (l.zipIdx 0) (fun x => pt x.1) (fun x _ => buf x.2) st (he ▸ hnd) (fun _ _ _ _ _ => rfl) (x, p) hm

end

theorem loop_eq {σ : Type} (s e : Int) (b : Int → σ → σ) (st : σ) :
    loop s e b st = (rng s e).foldl (fun st i => b i st) st := rfl

theorem mem_rng2 {s e i : Int} : i ∈ rng2 s e ↔ s ≤ i ∧ i ≤ e ∧ (i - s) % 2 = 0 := by
  unfold rng2
  simp only [List.mem_map, List.mem_range]
  constructor
  · rintro ⟨t, ht, rfl⟩; omega
  · rintro ⟨h1, h2, h3⟩; exact ⟨((i - s) / 2).toNat, by omega, by omega⟩

/-- The fine indices with step two, by coarse index. -/
theorem rng2_eq (s e a m : Int) (hm : e = s + 2 * m - 1) :
    rng2 s e = (rng a (a + m - 1)).map fun t => s + 2 * (t - a) := by
  unfold rng2 rng
  rw [List.map_map]
  have : ((e - s + 2) / 2).toNat = (a + m - 1 + 1 - a).toNat := by omega
  rw [this]
  apply List.map_congr_left
  intro t _; simp

section
variable {M : Type} [AddCommMonoid M]
open Finset

theorem Icc_eq_toFinset (s e : Int) : Icc s e = (rng s e).toFinset := by
  ext i; simp [mem_rng]

theorem sum_Icc_eq (s e : Int) (f : Int → M) : ∑ i ∈ Icc s e, f i = ((rng s e).map f).sum := by
  rw [Icc_eq_toFinset, List.sum_toFinset _ (nodup_rng s e)]

/-- Pairs of fine cells. -/
theorem sum_pairs (s e a m : Int) (hm : e = s + 2 * m - 1) (h0 : 0 ≤ m) (f : Int → M) :
    ∑ i ∈ Icc s e, f i = ∑ t ∈ Icc a (a + m - 1), (f (s + 2 * (t - a)) + f (s + 2 * (t - a) + 1)) := by
  subst hm
  obtain ⟨n, rfl⟩ := Int.eq_ofNat_of_zero_le h0
  induction n with
  | zero => simp
  | succ n ih =>
    have h1 : Icc s (s + 2 * ((n + 1 : Nat) : Int) - 1) =
        insert (s + 2 * (n : Int) + 1) (insert (s + 2 * (n : Int)) (Icc s (s + 2 * (n : Int) - 1))) := by
      ext i; simp only [mem_Icc, mem_insert]; omega
    have h2 : Icc a (a + ((n + 1 : Nat) : Int) - 1) = insert (a + (n : Int)) (Icc a (a + (n : Int) - 1)) := by
      ext i; simp only [mem_Icc, mem_insert]; omega
    rw [h1, h2, sum_insert (by simp; omega), sum_insert (by simp), sum_insert (by simp), ih (by omega)]
    have : s + 2 * (a + (n : Int) - a) = s + 2 * (n : Int) := by ring
    rw [this, ← add_assoc, add_comm (f (s + 2 * (n : Int) + 1))]

theorem sum_Icc_split (s m e : Int) (h1 : s ≤ m) (h2 : m ≤ e + 1) (f : Int → M) :
    ∑ i ∈ Icc s e, f i = ∑ i ∈ Icc s (m - 1), f i + ∑ i ∈ Icc m e, f i := by
  have : Icc s e = Icc s (m - 1) ∪ Icc m e := by
    ext i; simp only [mem_Icc, mem_union]; omega
  rw [this, sum_union]
  rw [disjoint_left]; intro i; simp only [mem_Icc]; omega

end

section
variable {M : Type} [AddCommGroup M]
open Finset

theorem sum_telescope (s e : Int) (h : s ≤ e + 1) (f : Int → M) :
    ∑ i ∈ Icc s e, (f (i + 1) - f i) = f (e + 1) - f s := by
  obtain ⟨n, hn⟩ : ∃ n : Nat, e = s + n - 1 := ⟨(e + 1 - s).toNat, by omega⟩
  subst hn
  clear h
  induction n with
  | zero => simp
  | succ n ih =>
    have h1 : Icc s (s + ((n + 1 : Nat) : Int) - 1) = insert (s + (n : Int)) (Icc s (s + (n : Int) - 1)) := by
      ext i; simp only [mem_Icc, mem_insert]; omega
    rw [h1, sum_insert (by simp), ih]
    have : s + ((n + 1 : Nat) : Int) - 1 + 1 = s + n + 1 := by push_cast; ring
    rw [this]; simp

end
end Verif.Grid
