import Verif.Spec.Multigrid
import Verif.Lemmas.Refine
import Mathlib.Tactic.Ring
import Mathlib.Tactic.Linarith
import Mathlib.Tactic.FieldSimp

/-! Helper lemmas for the multigrid kernels. -/
namespace Verif.Mg
open Verif.Arr (loop rng mem_rng nodup_rng)
open Verif.Grid

/-- Updates of distinct points, each of which uses only its own old value and points that are not in the list. -/
theorem fold_points {P K : Type} [DecidableEq P] (l : List P) (hn : l.Nodup) (F : (P → K) → P → K) (G : P → K) (u : P → K)
    (h : ∀ st : P → K, ∀ q ∈ l, st q = u q → (∀ r, r ∉ l → st r = u r) → F st q = G q) :
    ∀ q, l.foldl (fun st q => Function.update st q (F st q)) u q = if q ∈ l then G q else u q := by
  -- generalise over the part already done
  have key : ∀ (todo done : List P), l = done ++ todo → ∀ st : P → K,
      (∀ r, st r = if r ∈ done then G r else u r) →
      ∀ r, todo.foldl (fun st q => Function.update st q (F st q)) st r = if r ∈ l then G r else u r := by
    intro todo
    induction todo with
    | nil => intro done hl st hst r; simp at hl; subst hl; exact hst r
    | cons a t ih =>
      intro done hl st hst
      have hnd : (done ++ a :: t).Nodup := hl ▸ hn
      have ha : a ∉ done := fun hm => by
        have := List.nodup_append.1 hnd
        exact this.2.2 a hm a (by simp) rfl
      have hF : F st a = G a := h st a (by rw [hl]; simp) (by rw [hst, if_neg ha]) (fun r hr => by
        rw [hst, if_neg (fun hm => hr (by rw [hl]; simp [hm]))])
      rw [List.foldl_cons]
      refine ih (done ++ [a]) (by rw [hl]; simp) _ (fun r => ?_)
      by_cases hr : r = a
      · subst hr; rw [Function.update_self, hF]; simp
      · rw [Function.update_of_ne hr, hst]; simp [hr]
  exact key l [] rfl u (by simp)

/-- Nested loops over rows of points as one list. -/
theorem foldl_flatMap' {α β σ : Type} (l : List α) (f : α → List β) (g : σ → β → σ) (st : σ) :
    l.foldl (fun st a => (f a).foldl g st) st = (l.flatMap f).foldl g st := by
  induction l generalizing st with
  | nil => rfl
  | cons a t ih => simp [List.flatMap_cons, List.foldl_append, ih]

/-- The points `smooth` visits, in order. -/
def smoothPts (b : Box) (c : ℤ) : List (ℤ × ℤ × ℤ) :=
  (rng b.kl b.ku).flatMap fun k => (rng b.jl b.ju).flatMap fun j => (rng2 (b.il + (c + k + j) % 2) b.iu).map fun i => (k, j, i)

theorem mem_smoothPts (b : Box) (c : ℤ) (k j i : ℤ) :
    (k, j, i) ∈ smoothPts b c ↔ b.In k j i ∧ (k + j + i - (b.il + c)) % 2 = 0 := by
  simp only [smoothPts, List.mem_flatMap, List.mem_map, mem_rng, mem_rng2, Prod.mk.injEq, Box.In]
  constructor
  · rintro ⟨k', hk, j', hj, i', hi, rfl, rfl, rfl⟩; omega
  · intro h; exact ⟨k, h.1.1, j, h.1.2.1, i, by omega, rfl, rfl, rfl⟩

theorem nodup_rng2 (s e : ℤ) : (rng2 s e).Nodup := by
  unfold rng2
  refine (List.nodup_range).map (fun a b h => ?_)
  omega

theorem nodup_smoothPts (b : Box) (c : ℤ) : (smoothPts b c).Nodup := by
  unfold smoothPts
  rw [List.nodup_flatMap]
  refine ⟨fun k _ => ?_, ?_⟩
  · rw [List.nodup_flatMap]
    refine ⟨fun j _ => (nodup_rng2 _ _).map (fun a b h => by simpa using h), ?_⟩
    refine (nodup_rng _ _).imp (fun {a b} hab => ?_)
    intro q h1 h2
    simp only [List.mem_map] at h1 h2
    obtain ⟨_, _, rfl⟩ := h1; obtain ⟨_, _, h⟩ := h2
    exact hab (by simp at h; exact h.1.symm)
  · refine (nodup_rng _ _).imp (fun {a b} hab => ?_)
    intro q h1 h2
    simp only [List.mem_flatMap, List.mem_map] at h1 h2
    obtain ⟨_, _, _, _, rfl⟩ := h1; obtain ⟨_, _, _, _, h⟩ := h2
    exact hab (by simp at h; exact h.1.symm)

theorem nbrSum_eq (u : A3 ℝ) (k j i : ℤ) : nbrSum u k j i =
    u (k-1, j, i) + u (k+1, j, i) + u (k, j-1, i) + u (k, j+1, i) + u (k, j, i-1) + u (k, j, i+1) := by
  simp [nbrSum, nbrs]; ring

theorem lap6_eq (u : A3 ℝ) (k j i : ℤ) : lap6 u k j i = 6 * u (k, j, i) - nbrSum u k j i := by
  rw [nbrSum_eq]; unfold lap6; ring

theorem smooth_eq (omega rdx : ℝ) (rlev : ℤ) (coffset : ℕ) (b : Box) (color : ℕ) (src u : A3 ℝ) :
    smooth omega rdx rlev coffset b color src u =
      sweep omega (dxAt rdx rlev) b (b.il + (color ^^^ coffset : ℕ)) src u := by
  have hflat : smooth omega rdx rlev coffset b color src u =
      (smoothPts b (color ^^^ coffset : ℕ)).foldl (fun st q => Function.update st q
        (st q - (lap6 st q.1 q.2.1 q.2.2 + src q * dxAt rdx rlev ^ 2) * (omega / 6))) u := by
    unfold smooth smoothPts
    simp only [loop_eq]
    rw [← foldl_flatMap']
    congr 1; funext st k
    rw [← foldl_flatMap']
    congr 1; funext st j
    rw [List.foldl_map]
  rw [hflat]
  funext ⟨k, j, i⟩
  rw [fold_points _ (nodup_smoothPts _ _) (fun st q => st q - (lap6 st q.1 q.2.1 q.2.2 + src q * dxAt rdx rlev ^ 2) * (omega / 6))
    (fun q => relaxed omega (dxAt rdx rlev) u src q.1 q.2.1 q.2.2) u]
  · unfold sweep
    by_cases h : b.In k j i ∧ (k + j + i - (b.il + (color ^^^ coffset : ℕ))) % 2 = 0
    · rw [if_pos ((mem_smoothPts _ _ _ _ _).2 h), if_pos h]
    · rw [if_neg (fun h' => h ((mem_smoothPts _ _ _ _ _).1 h')), if_neg h]
  · rintro st ⟨k, j, i⟩ hq hself hout
    have hp := (mem_smoothPts _ _ _ _ _).1 hq
    have nb : ∀ k' j' i', (k' + j' + i') % 2 ≠ (k + j + i) % 2 → st (k', j', i') = u (k', j', i') := by
      intro k' j' i' hne
      exact hout _ (fun hm => hne (by have := ((mem_smoothPts _ _ _ _ _).1 hm).2; have := hp.2; omega))
    simp only [lap6_eq, nbrSum_eq, relaxed, gaussSeidel, hself]
    rw [nb (k-1), nb (k+1), nb k (j-1), nb k (j+1), nb k j (i-1), nb k j (i+1)] <;> first | omega | ring

/-- The points of a box in the order of the loops. -/
def boxPts (b : Box) : List (ℤ × ℤ × ℤ) :=
  (rng b.kl b.ku).flatMap fun k => (rng b.jl b.ju).flatMap fun j => (rng b.il b.iu).map fun i => (k, j, i)

theorem mem_boxPts (b : Box) (k j i : ℤ) : (k, j, i) ∈ boxPts b ↔ b.In k j i := by
  simp only [boxPts, List.mem_flatMap, List.mem_map, mem_rng, Prod.mk.injEq, Box.In]
  constructor
  · rintro ⟨k', hk, j', hj, i', hi, rfl, rfl, rfl⟩; exact ⟨hk, hj, hi⟩
  · intro h; exact ⟨k, h.1, j, h.2.1, i, h.2.2, rfl, rfl, rfl⟩

theorem nodup_boxPts (b : Box) : (boxPts b).Nodup := by
  unfold boxPts
  rw [List.nodup_flatMap]
  refine ⟨fun k _ => ?_, ?_⟩
  · rw [List.nodup_flatMap]
    refine ⟨fun j _ => (nodup_rng _ _).map (fun a b h => by simpa using h), ?_⟩
    refine (nodup_rng _ _).imp (fun {a b} hab => ?_)
    intro q h1 h2
    simp only [List.mem_map] at h1 h2
    obtain ⟨_, _, rfl⟩ := h1; obtain ⟨_, _, h⟩ := h2
    exact hab (by simp at h; exact h.1.symm)
  · refine (nodup_rng _ _).imp (fun {a b} hab => ?_)
    intro q h1 h2
    simp only [List.mem_flatMap, List.mem_map] at h1 h2
    obtain ⟨_, _, _, _, rfl⟩ := h1; obtain ⟨_, _, _, _, h⟩ := h2
    exact hab (by simp at h; exact h.1.symm)

theorem loops_eq {σ : Type} (b : Box) (f : ℤ → ℤ → ℤ → σ → σ) (a : σ) :
    loop b.kl b.ku (fun k => loop b.jl b.ju fun j => loop b.il b.iu fun i => f k j i) a =
      (boxPts b).foldl (fun st q => f q.1 q.2.1 q.2.2 st) a := by
  unfold boxPts
  simp only [loop_eq]
  rw [← foldl_flatMap']
  congr 1; funext st k
  rw [← foldl_flatMap']
  congr 1; funext st j
  rw [List.foldl_map]

open scoped Classical in
theorem each_at (b : Box) (f : ℤ → ℤ → ℤ → A3 ℝ → ℝ) (G : A3 ℝ) (a : A3 ℝ)
    (h : ∀ st k j i, b.In k j i → st (k, j, i) = a (k, j, i) → f k j i st = G (k, j, i)) (q : ℤ × ℤ × ℤ) :
    b.each f a q = if b.In q.1 q.2.1 q.2.2 then G q else a q := by
  unfold Box.each
  rw [loops_eq b (fun k j i a => Function.update a (k, j, i) (f k j i a)),
    fold_points _ (nodup_boxPts b) (fun st q => f q.1 q.2.1 q.2.2 st) G a (fun st q hq hs _ => h st _ _ _ ((mem_boxPts b _ _ _).1 hq) hs)]
  by_cases hb : q ∈ boxPts b
  · rw [if_pos hb, if_pos ((mem_boxPts b _ _ _).1 hb)]
  · rw [if_neg hb, if_neg (fun h' => hb ((mem_boxPts b _ _ _).2 h'))]

open scoped Classical in
theorem defect_at (rdx : ℝ) (rlev : ℤ) (b : Box) (u src d : A3 ℝ) (q : ℤ × ℤ × ℤ) :
    defect rdx rlev b u src d q = if b.In q.1 q.2.1 q.2.2 then
      src q - (nbrSum u q.1 q.2.1 q.2.2 - 6 * u q) / dxAt rdx rlev ^ 2 else d q := by
  unfold defect
  rw [each_at b _ (fun q => src q - (nbrSum u q.1 q.2.1 q.2.2 - 6 * u q) / dxAt rdx rlev ^ 2) d]
  intro st k j i _ _
  rw [lap6_eq]; ring

open scoped Classical in
theorem fasRhs_at (rdx : ℝ) (rlev : ℤ) (b : Box) (u src : A3 ℝ) (q : ℤ × ℤ × ℤ) :
    fasRhs rdx rlev b u src q = if b.In q.1 q.2.1 q.2.2 then
      src q + (nbrSum u q.1 q.2.1 q.2.2 - 6 * u q) / dxAt rdx rlev ^ 2 else src q := by
  unfold fasRhs
  rw [each_at b _ (fun q => src q + (nbrSum u q.1 q.2.1 q.2.2 - 6 * u q) / dxAt rdx rlev ^ 2) src]
  intro st k j i _ hs
  rw [lap6_eq, hs]; ring

/-- Mean of the eight fine cells of a coarse cell. -/
noncomputable def mean8 (b : Box) (src : A3 ℝ) (q : ℤ × ℤ × ℤ) : ℝ :=
  (src (2*q.1-b.kl, 2*q.2.1-b.jl, 2*q.2.2-b.il) + src (2*q.1-b.kl, 2*q.2.1-b.jl, 2*q.2.2-b.il+1)
    + src (2*q.1-b.kl, 2*q.2.1-b.jl+1, 2*q.2.2-b.il) + src (2*q.1-b.kl, 2*q.2.1-b.jl+1, 2*q.2.2-b.il+1)
    + src (2*q.1-b.kl+1, 2*q.2.1-b.jl, 2*q.2.2-b.il) + src (2*q.1-b.kl+1, 2*q.2.1-b.jl, 2*q.2.2-b.il+1)
    + src (2*q.1-b.kl+1, 2*q.2.1-b.jl+1, 2*q.2.2-b.il) + src (2*q.1-b.kl+1, 2*q.2.1-b.jl+1, 2*q.2.2-b.il+1)) / 8

open scoped Classical in
theorem restrict_at (b : Box) (src dst : A3 ℝ) (q : ℤ × ℤ × ℤ) :
    restrict b src dst q = if b.In q.1 q.2.1 q.2.2 then mean8 b src q else dst q := by
  unfold restrict
  rw [each_at b _ (mean8 b src) dst]
  intro st k j i _ hs
  simp only [mean8]; ring

theorem mem_cells (b : Box) (q : ℤ × ℤ × ℤ) : q ∈ b.cells ↔ b.In q.1 q.2.1 q.2.2 := by
  simp [Box.cells, Box.In, Finset.mem_product, Finset.mem_Icc]

/-- Only one element of the list changes what `f` observes. -/
theorem fold_once {α σ β : Type} (l : List α) (hn : l.Nodup) (B : σ → α → σ) (f : σ → β) (F : β → β) (x : α) (hx : x ∈ l)
    (hit : ∀ st, f (B st x) = F (f st)) (keep : ∀ y ∈ l, y ≠ x → ∀ st, f (B st y) = f st) (st : σ) :
    f (l.foldl B st) = F (f st) := by
  have keepAll : ∀ (m : List α), (∀ y ∈ m, y ∈ l ∧ y ≠ x) → ∀ st, f (m.foldl B st) = f st := by
    intro m
    induction m with
    | nil => intros; rfl
    | cons a t ih =>
      intro h st
      rw [List.foldl_cons, ih (fun y hy => h y (List.mem_cons_of_mem _ hy)), keep a (h a List.mem_cons_self).1 (h a List.mem_cons_self).2]
  obtain ⟨l1, l2, rfl⟩ := List.append_of_mem hx
  have hd := List.nodup_append.1 hn
  have hd2 := List.nodup_cons.1 hd.2.1
  rw [List.foldl_append, List.foldl_cons, keepAll l2 (fun y hy => ⟨by simp [hy], fun h => hd2.1 (h ▸ hy)⟩), hit,
    keepAll l1 (fun y hy => ⟨by simp [hy], fun h => hd.2.2 y hy x (by simp) h⟩)]

/-- The weights of the tricubic prolongation in one direction towards fine cell `a` (0: lower, 1: upper). -/
noncomputable def w3 (a : ℕ) (n : ℤ) : ℝ :=
  if n = 0 then 30/32 else if (n = -1 ∧ a = 0) ∨ (n = 1 ∧ a = 1) then 5/32 else -3/32

/-- The weights of the trilinear prolongation. -/
noncomputable def w2 (a : ℕ) (n : ℤ) : ℝ :=
  if n = 0 then 3/4 else if (n = -1 ∧ a = 0) ∨ (n = 1 ∧ a = 1) then 1/4 else 0

/-- Tensor product of weights. -/
noncomputable def interp (w : ℕ → ℤ → ℝ) (a b c : ℕ) (s : A3 ℝ) (k j i : ℤ) : ℝ :=
  ∑ x ∈ {-1, 0, 1}, ∑ y ∈ {-1, 0, 1}, ∑ z ∈ {-1, 0, 1}, w a x * w b y * w c z * s (k + x, j + y, i + z)

theorem sum3 (f : ℤ → ℝ) : ∑ x ∈ ({-1, 0, 1} : Finset ℤ), f x = f (-1) + f 0 + f 1 := by
  rw [Finset.sum_insert (by simp), Finset.sum_insert (by simp), Finset.sum_singleton]; ring

/-- One cell of coarse data to its fine cells. -/
noncomputable def weight (cubic : Bool) (a b c : ℕ) (s : A3 ℝ) (k j i : ℤ) : ℝ :=
  interp (if cubic then w3 else w2) a b c s k j i

section
variable (s : A3 ℝ) (k j i : ℤ)
local macro "wt" d:ident : tactic => `(tactic| (simp only [$d:ident, interp, sum3, w3, w2]; norm_num [← sub_eq_add_neg]; ring))
theorem cubic000_eq : cubic000 s k j i = interp w3 0 0 0 s k j i := by wt cubic000
theorem cubic001_eq : cubic001 s k j i = interp w3 0 0 1 s k j i := by wt cubic001
theorem cubic010_eq : cubic010 s k j i = interp w3 0 1 0 s k j i := by wt cubic010
theorem cubic011_eq : cubic011 s k j i = interp w3 0 1 1 s k j i := by wt cubic011
theorem cubic100_eq : cubic100 s k j i = interp w3 1 0 0 s k j i := by wt cubic100
theorem cubic101_eq : cubic101 s k j i = interp w3 1 0 1 s k j i := by wt cubic101
theorem cubic110_eq : cubic110 s k j i = interp w3 1 1 0 s k j i := by wt cubic110
theorem cubic111_eq : cubic111 s k j i = interp w3 1 1 1 s k j i := by wt cubic111
theorem fmg000_eq : fmg000 s k j i = interp w3 0 0 0 s k j i := by wt fmg000
theorem fmg001_eq : fmg001 s k j i = interp w3 0 0 1 s k j i := by wt fmg001
theorem fmg010_eq : fmg010 s k j i = interp w3 0 1 0 s k j i := by wt fmg010
theorem fmg011_eq : fmg011 s k j i = interp w3 0 1 1 s k j i := by wt fmg011
theorem fmg100_eq : fmg100 s k j i = interp w3 1 0 0 s k j i := by wt fmg100
theorem fmg101_eq : fmg101 s k j i = interp w3 1 0 1 s k j i := by wt fmg101
theorem fmg110_eq : fmg110 s k j i = interp w3 1 1 0 s k j i := by wt fmg110
theorem fmg111_eq : fmg111 s k j i = interp w3 1 1 1 s k j i := by wt fmg111
theorem linear000_eq : linear000 s k j i = interp w2 0 0 0 s k j i := by wt linear000
theorem linear001_eq : linear001 s k j i = interp w2 0 0 1 s k j i := by wt linear001
theorem linear010_eq : linear010 s k j i = interp w2 0 1 0 s k j i := by wt linear010
theorem linear011_eq : linear011 s k j i = interp w2 0 1 1 s k j i := by wt linear011
theorem linear100_eq : linear100 s k j i = interp w2 1 0 0 s k j i := by wt linear100
theorem linear101_eq : linear101 s k j i = interp w2 1 0 1 s k j i := by wt linear101
theorem linear110_eq : linear110 s k j i = interp w2 1 1 0 s k j i := by wt linear110
theorem linear111_eq : linear111 s k j i = interp w2 1 1 1 s k j i := by wt linear111
end

end Verif.Mg
