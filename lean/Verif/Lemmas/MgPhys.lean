import Verif.Lemmas.MgCycle

/-!
# The boundary functions of the multigrid solver: supporting lemmas
-/
namespace Verif.Mg
open Verif.Arr (loop rng mem_rng nodup_rng)
open Verif.Grid (A3)
open scoped Classical

theorem rng_one (x : ℤ) : rng x x = [x] := by
  have h1 := fun y => mem_rng (i := y) (s := x) (e := x)
  have h2 := nodup_rng x x
  match h : rng x x with
  | [] => have := (h1 x).mpr ⟨le_rfl, le_rfl⟩; rw [h] at this; simp at this
  | [y] => have := (h1 y).mp (by rw [h]; simp); have : y = x := by omega
           rw [this]
  | y :: z :: t =>
    have a := (h1 y).mp (by rw [h]; simp)
    have b := (h1 z).mp (by rw [h]; simp)
    rw [h] at h2
    have : y = z := by omega
    subst this; simp at h2

theorem loop_one {σ : Type} (x : ℤ) (f : ℤ → σ → σ) (a : σ) : loop x x f a = f x a := by
  rw [Verif.Grid.loop_eq, rng_one]; rfl

theorem loop_one' {σ : Type} (x : ℤ) (f : ℤ → σ → σ) : loop x x f = f x := by
  funext a; exact loop_one x f a

theorem fill_at' (b : Box) (f : ℤ → ℤ → ℤ → A3 ℝ → ℝ) (a : A3 ℝ)
    (h : ∀ st k j i, b.In k j i → (∀ q, ¬ b.In q.1 q.2.1 q.2.2 → st q = a q) → f k j i st = f k j i a)
    (q : ℤ × ℤ × ℤ) :
    loop b.kl b.ku (fun k => loop b.jl b.ju fun j => loop b.il b.iu fun i a => Function.update a (k, j, i) (f k j i a)) a q
      = if b.In q.1 q.2.1 q.2.2 then f q.1 q.2.1 q.2.2 a else a q := by
  rw [loops_eq b (fun k j i a => Function.update a (k, j, i) (f k j i a))]
  have := fold_points (boxPts b) (nodup_boxPts b) (fun st q => f q.1 q.2.1 q.2.2 st)
    (fun q => f q.1 q.2.1 q.2.2 a) a ?_ q
  · rw [this]
    have hm := mem_boxPts b q.1 q.2.1 q.2.2
    by_cases hq : b.In q.1 q.2.1 q.2.2
    · rw [if_pos hq, if_pos (hm.mpr hq)]
    · rw [if_neg hq, if_neg (fun hh => hq (hm.mp hh))]
  · intro st q hq _ ho
    refine h st q.1 q.2.1 q.2.2 ((mem_boxPts b _ _ _).mp hq) fun r hr => ho r fun hh => hr ((mem_boxPts b _ _ _).mp hh)

theorem fillX1_at (bc : Bc) (phi : ℤ → ℤ → ℝ) (ig iin iw jl ju kl ku : ℤ) (h1 : iin ≠ ig) (h2 : iw ≠ ig) (a : A3 ℝ)
    (q : ℤ × ℤ × ℤ) : fillX1 bc phi ig iin iw jl ju kl ku a q =
      if (⟨kl, ku, jl, ju, ig, ig⟩ : Box).In q.1 q.2.1 q.2.2 then
        bcVal bc (phi q.1 q.2.1) (a (q.1, q.2.1, iin)) (a (q.1, q.2.1, iw)) else a q := by
  have := fill_at' ⟨kl, ku, jl, ju, ig, ig⟩
    (fun k j _ a => bcVal bc (phi k j) (a (k, j, iin)) (a (k, j, iw))) a ?_ q
  · rw [← this]
    simp only [fillX1, loop_one']
  · intro st k j i _ ho
    rw [ho (k, j, iin) (fun h => h1 (le_antisymm h.2.2.2 h.2.2.1)), ho (k, j, iw) (fun h => h2 (le_antisymm h.2.2.2 h.2.2.1))]

theorem fillX2_at (bc : Bc) (phi : ℤ → ℤ → ℝ) (jg jin jw il iu kl ku : ℤ) (h1 : jin ≠ jg) (h2 : jw ≠ jg) (a : A3 ℝ)
    (q : ℤ × ℤ × ℤ) : fillX2 bc phi jg jin jw il iu kl ku a q =
      if (⟨kl, ku, jg, jg, il, iu⟩ : Box).In q.1 q.2.1 q.2.2 then
        bcVal bc (phi q.1 q.2.2) (a (q.1, jin, q.2.2)) (a (q.1, jw, q.2.2)) else a q := by
  have := fill_at' ⟨kl, ku, jg, jg, il, iu⟩
    (fun k _ i a => bcVal bc (phi k i) (a (k, jin, i)) (a (k, jw, i))) a ?_ q
  · rw [← this]
    simp only [fillX2, loop_one']
  · intro st k j i _ ho
    rw [ho (k, jin, i) (fun h => h1 (le_antisymm h.2.1.2 h.2.1.1)), ho (k, jw, i) (fun h => h2 (le_antisymm h.2.1.2 h.2.1.1))]

theorem fillX3_at (bc : Bc) (phi : ℤ → ℤ → ℝ) (kg kin kw il iu jl ju : ℤ) (h1 : kin ≠ kg) (h2 : kw ≠ kg) (a : A3 ℝ)
    (q : ℤ × ℤ × ℤ) : fillX3 bc phi kg kin kw il iu jl ju a q =
      if (⟨kg, kg, jl, ju, il, iu⟩ : Box).In q.1 q.2.1 q.2.2 then
        bcVal bc (phi q.2.1 q.2.2) (a (kin, q.2.1, q.2.2)) (a (kw, q.2.1, q.2.2)) else a q := by
  have := fill_at' ⟨kg, kg, jl, ju, il, iu⟩
    (fun _ j i a => bcVal bc (phi j i) (a (kin, j, i)) (a (kw, j, i))) a ?_ q
  · rw [← this]
    simp only [fillX3, loop_one']
  · intro st k j i _ ho
    rw [ho (kin, j, i) (fun h => h1 (le_antisymm h.1.2 h.1.1)), ho (kw, j, i) (fun h => h2 (le_antisymm h.1.2 h.1.1))]

theorem fillX1_hit (bc : Bc) (phi : ℤ → ℤ → ℝ) (ig iin iw jl ju kl ku : ℤ) (h1 : iin ≠ ig) (h2 : iw ≠ ig) (a : A3 ℝ)
    (k j i : ℤ) (h : (kl ≤ k ∧ k ≤ ku) ∧ (jl ≤ j ∧ j ≤ ju) ∧ i = ig) :
    fillX1 bc phi ig iin iw jl ju kl ku a (k, j, i) = bcVal bc (phi k j) (a (k, j, iin)) (a (k, j, iw)) := by
  rw [fillX1_at _ _ _ _ _ _ _ _ _ h1 h2, if_pos]
  exact ⟨h.1, h.2.1, h.2.2.ge, h.2.2.le⟩

theorem fillX1_miss (bc : Bc) (phi : ℤ → ℤ → ℝ) (ig iin iw jl ju kl ku : ℤ) (h1 : iin ≠ ig) (h2 : iw ≠ ig) (a : A3 ℝ)
    (k j i : ℤ) (h : ¬ ((kl ≤ k ∧ k ≤ ku) ∧ (jl ≤ j ∧ j ≤ ju) ∧ i = ig)) :
    fillX1 bc phi ig iin iw jl ju kl ku a (k, j, i) = a (k, j, i) := by
  rw [fillX1_at _ _ _ _ _ _ _ _ _ h1 h2, if_neg]
  exact fun hh => h ⟨hh.1, hh.2.1, le_antisymm hh.2.2.2 hh.2.2.1⟩

theorem fillX2_hit (bc : Bc) (phi : ℤ → ℤ → ℝ) (jg jin jw il iu kl ku : ℤ) (h1 : jin ≠ jg) (h2 : jw ≠ jg) (a : A3 ℝ)
    (k j i : ℤ) (h : (kl ≤ k ∧ k ≤ ku) ∧ (il ≤ i ∧ i ≤ iu) ∧ j = jg) :
    fillX2 bc phi jg jin jw il iu kl ku a (k, j, i) = bcVal bc (phi k i) (a (k, jin, i)) (a (k, jw, i)) := by
  rw [fillX2_at _ _ _ _ _ _ _ _ _ h1 h2, if_pos]
  exact ⟨h.1, ⟨h.2.2.ge, h.2.2.le⟩, h.2.1⟩

theorem fillX2_miss (bc : Bc) (phi : ℤ → ℤ → ℝ) (jg jin jw il iu kl ku : ℤ) (h1 : jin ≠ jg) (h2 : jw ≠ jg) (a : A3 ℝ)
    (k j i : ℤ) (h : ¬ ((kl ≤ k ∧ k ≤ ku) ∧ (il ≤ i ∧ i ≤ iu) ∧ j = jg)) :
    fillX2 bc phi jg jin jw il iu kl ku a (k, j, i) = a (k, j, i) := by
  rw [fillX2_at _ _ _ _ _ _ _ _ _ h1 h2, if_neg]
  exact fun hh => h ⟨hh.1, hh.2.2, le_antisymm hh.2.1.2 hh.2.1.1⟩

theorem fillX3_hit (bc : Bc) (phi : ℤ → ℤ → ℝ) (kg kin kw il iu jl ju : ℤ) (h1 : kin ≠ kg) (h2 : kw ≠ kg) (a : A3 ℝ)
    (k j i : ℤ) (h : (jl ≤ j ∧ j ≤ ju) ∧ (il ≤ i ∧ i ≤ iu) ∧ k = kg) :
    fillX3 bc phi kg kin kw il iu jl ju a (k, j, i) = bcVal bc (phi j i) (a (kin, j, i)) (a (kw, j, i)) := by
  rw [fillX3_at _ _ _ _ _ _ _ _ _ h1 h2, if_pos]
  exact ⟨⟨h.2.2.ge, h.2.2.le⟩, h.1, h.2.1⟩

theorem fillX3_miss (bc : Bc) (phi : ℤ → ℤ → ℝ) (kg kin kw il iu jl ju : ℤ) (h1 : kin ≠ kg) (h2 : kw ≠ kg) (a : A3 ℝ)
    (k j i : ℤ) (h : ¬ ((jl ≤ j ∧ j ≤ ju) ∧ (il ≤ i ∧ i ≤ iu) ∧ k = kg)) :
    fillX3 bc phi kg kin kw il iu jl ju a (k, j, i) = a (k, j, i) := by
  rw [fillX3_at _ _ _ _ _ _ _ _ _ h1 h2, if_neg]
  exact fun hh => h ⟨hh.2.1, hh.2.2, le_antisymm hh.1.2 hh.1.1⟩

/-- Cells known after the x1 fills, after the x2 fills, after the x3 fills. -/
def Known1 (b : Box) (q : ℤ × ℤ × ℤ) : Prop :=
  (b.kl ≤ q.1 ∧ q.1 ≤ b.ku) ∧ (b.jl ≤ q.2.1 ∧ q.2.1 ≤ b.ju) ∧ (b.il - 1 ≤ q.2.2 ∧ q.2.2 ≤ b.iu + 1)

def Known2 (b : Box) (q : ℤ × ℤ × ℤ) : Prop :=
  (b.kl ≤ q.1 ∧ q.1 ≤ b.ku) ∧ (b.jl - 1 ≤ q.2.1 ∧ q.2.1 ≤ b.ju + 1) ∧ (b.il - 1 ≤ q.2.2 ∧ q.2.2 ≤ b.iu + 1)

/-- `applyPhys` in three steps. -/
def phys1 (B : Bcs) (b : Box) (a : A3 ℝ) : A3 ℝ :=
  fillX1 B.x1o B.phi1o (b.iu + 1) b.iu b.il b.jl b.ju b.kl b.ku (fillX1 B.x1i B.phi1i (b.il - 1) b.il b.iu b.jl b.ju b.kl b.ku a)

def phys2 (B : Bcs) (b : Box) (a : A3 ℝ) : A3 ℝ :=
  fillX2 B.x2o B.phi2o (b.ju + 1) b.ju b.jl (b.il - 1) (b.iu + 1) b.kl b.ku
    (fillX2 B.x2i B.phi2i (b.jl - 1) b.jl b.ju (b.il - 1) (b.iu + 1) b.kl b.ku a)

def phys3 (B : Bcs) (b : Box) (a : A3 ℝ) : A3 ℝ :=
  fillX3 B.x3o B.phi3o (b.ku + 1) b.ku b.kl (b.il - 1) (b.iu + 1) (b.jl - 1) (b.ju + 1)
    (fillX3 B.x3i B.phi3i (b.kl - 1) b.kl b.ku (b.il - 1) (b.iu + 1) (b.jl - 1) (b.ju + 1) a)

theorem applyPhys_eq (B : Bcs) (b : Box) (a : A3 ℝ) : applyPhys B b a = phys3 B b (phys2 B b (phys1 B b a)) := rfl

theorem phys1_at (B : Bcs) (b : Box) (hb : b.Nonempty) (a : A3 ℝ) (k j i : ℤ) : phys1 B b a (k, j, i) =
    if (b.kl ≤ k ∧ k ≤ b.ku) ∧ (b.jl ≤ j ∧ j ≤ b.ju) ∧ i = b.il - 1 then bcVal B.x1i (B.phi1i k j) (a (k, j, b.il)) (a (k, j, b.iu))
    else if (b.kl ≤ k ∧ k ≤ b.ku) ∧ (b.jl ≤ j ∧ j ≤ b.ju) ∧ i = b.iu + 1 then bcVal B.x1o (B.phi1o k j) (a (k, j, b.iu)) (a (k, j, b.il))
    else a (k, j, i) := by
  obtain ⟨h1, h2, h3⟩ := hb
  unfold phys1
  by_cases hc : (b.kl ≤ k ∧ k ≤ b.ku) ∧ (b.jl ≤ j ∧ j ≤ b.ju)
  · obtain ⟨hp, hr⟩ := hc
    by_cases hi1 : i = b.il - 1
    · rw [if_pos ⟨hp, hr, hi1⟩, fillX1_miss _ _ _ _ _ _ _ _ _ (by omega) (by omega) _ _ _ _ (by omega),
        fillX1_hit _ _ _ _ _ _ _ _ _ (by omega) (by omega) _ _ _ _ (by omega)]
    · by_cases hi2 : i = b.iu + 1
      · rw [if_neg (fun h => hi1 h.2.2), if_pos ⟨hp, hr, hi2⟩,
          fillX1_hit _ _ _ _ _ _ _ _ _ (by omega) (by omega) _ _ _ _ (by omega),
          fillX1_miss _ _ _ _ _ _ _ _ _ (by omega) (by omega) _ _ _ _ (by omega),
          fillX1_miss _ _ _ _ _ _ _ _ _ (by omega) (by omega) _ _ _ _ (by omega)]
      · rw [if_neg (fun h => hi1 h.2.2), if_neg (fun h => hi2 h.2.2),
          fillX1_miss _ _ _ _ _ _ _ _ _ (by omega) (by omega) _ _ _ _ (fun h => hi2 h.2.2),
          fillX1_miss _ _ _ _ _ _ _ _ _ (by omega) (by omega) _ _ _ _ (fun h => hi1 h.2.2)]
  · rw [if_neg (fun h => hc ⟨h.1, h.2.1⟩), if_neg (fun h => hc ⟨h.1, h.2.1⟩),
      fillX1_miss _ _ _ _ _ _ _ _ _ (by omega) (by omega) _ _ _ _ (fun h => hc ⟨h.1, h.2.1⟩),
      fillX1_miss _ _ _ _ _ _ _ _ _ (by omega) (by omega) _ _ _ _ (fun h => hc ⟨h.1, h.2.1⟩)]

theorem phys2_at (B : Bcs) (b : Box) (hb : b.Nonempty) (a : A3 ℝ) (k j i : ℤ) : phys2 B b a (k, j, i) =
    if (b.kl ≤ k ∧ k ≤ b.ku) ∧ (b.il - 1 ≤ i ∧ i ≤ b.iu + 1) ∧ j = b.jl - 1 then
      bcVal B.x2i (B.phi2i k i) (a (k, b.jl, i)) (a (k, b.ju, i))
    else if (b.kl ≤ k ∧ k ≤ b.ku) ∧ (b.il - 1 ≤ i ∧ i ≤ b.iu + 1) ∧ j = b.ju + 1 then
      bcVal B.x2o (B.phi2o k i) (a (k, b.ju, i)) (a (k, b.jl, i))
    else a (k, j, i) := by
  obtain ⟨h1, h2, h3⟩ := hb
  unfold phys2
  by_cases hc : (b.kl ≤ k ∧ k ≤ b.ku) ∧ (b.il - 1 ≤ i ∧ i ≤ b.iu + 1)
  · obtain ⟨hp, hr⟩ := hc
    by_cases hi1 : j = b.jl - 1
    · rw [if_pos ⟨hp, hr, hi1⟩, fillX2_miss _ _ _ _ _ _ _ _ _ (by omega) (by omega) _ _ _ _ (by omega),
        fillX2_hit _ _ _ _ _ _ _ _ _ (by omega) (by omega) _ _ _ _ (by omega)]
    · by_cases hi2 : j = b.ju + 1
      · rw [if_neg (fun h => hi1 h.2.2), if_pos ⟨hp, hr, hi2⟩,
          fillX2_hit _ _ _ _ _ _ _ _ _ (by omega) (by omega) _ _ _ _ (by omega),
          fillX2_miss _ _ _ _ _ _ _ _ _ (by omega) (by omega) _ _ _ _ (by omega),
          fillX2_miss _ _ _ _ _ _ _ _ _ (by omega) (by omega) _ _ _ _ (by omega)]
      · rw [if_neg (fun h => hi1 h.2.2), if_neg (fun h => hi2 h.2.2),
          fillX2_miss _ _ _ _ _ _ _ _ _ (by omega) (by omega) _ _ _ _ (fun h => hi2 h.2.2),
          fillX2_miss _ _ _ _ _ _ _ _ _ (by omega) (by omega) _ _ _ _ (fun h => hi1 h.2.2)]
  · rw [if_neg (fun h => hc ⟨h.1, h.2.1⟩), if_neg (fun h => hc ⟨h.1, h.2.1⟩),
      fillX2_miss _ _ _ _ _ _ _ _ _ (by omega) (by omega) _ _ _ _ (fun h => hc ⟨h.1, h.2.1⟩),
      fillX2_miss _ _ _ _ _ _ _ _ _ (by omega) (by omega) _ _ _ _ (fun h => hc ⟨h.1, h.2.1⟩)]

theorem phys3_at (B : Bcs) (b : Box) (hb : b.Nonempty) (a : A3 ℝ) (k j i : ℤ) : phys3 B b a (k, j, i) =
    if (b.jl - 1 ≤ j ∧ j ≤ b.ju + 1) ∧ (b.il - 1 ≤ i ∧ i ≤ b.iu + 1) ∧ k = b.kl - 1 then
      bcVal B.x3i (B.phi3i j i) (a (b.kl, j, i)) (a (b.ku, j, i))
    else if (b.jl - 1 ≤ j ∧ j ≤ b.ju + 1) ∧ (b.il - 1 ≤ i ∧ i ≤ b.iu + 1) ∧ k = b.ku + 1 then
      bcVal B.x3o (B.phi3o j i) (a (b.ku, j, i)) (a (b.kl, j, i))
    else a (k, j, i) := by
  obtain ⟨h1, h2, h3⟩ := hb
  unfold phys3
  by_cases hc : (b.jl - 1 ≤ j ∧ j ≤ b.ju + 1) ∧ (b.il - 1 ≤ i ∧ i ≤ b.iu + 1)
  · obtain ⟨hp, hr⟩ := hc
    by_cases hi1 : k = b.kl - 1
    · rw [if_pos ⟨hp, hr, hi1⟩, fillX3_miss _ _ _ _ _ _ _ _ _ (by omega) (by omega) _ _ _ _ (by omega),
        fillX3_hit _ _ _ _ _ _ _ _ _ (by omega) (by omega) _ _ _ _ (by omega)]
    · by_cases hi2 : k = b.ku + 1
      · rw [if_neg (fun h => hi1 h.2.2), if_pos ⟨hp, hr, hi2⟩,
          fillX3_hit _ _ _ _ _ _ _ _ _ (by omega) (by omega) _ _ _ _ (by omega),
          fillX3_miss _ _ _ _ _ _ _ _ _ (by omega) (by omega) _ _ _ _ (by omega),
          fillX3_miss _ _ _ _ _ _ _ _ _ (by omega) (by omega) _ _ _ _ (by omega)]
      · rw [if_neg (fun h => hi1 h.2.2), if_neg (fun h => hi2 h.2.2),
          fillX3_miss _ _ _ _ _ _ _ _ _ (by omega) (by omega) _ _ _ _ (fun h => hi2 h.2.2),
          fillX3_miss _ _ _ _ _ _ _ _ _ (by omega) (by omega) _ _ _ _ (fun h => hi1 h.2.2)]
  · rw [if_neg (fun h => hc ⟨h.1, h.2.1⟩), if_neg (fun h => hc ⟨h.1, h.2.1⟩),
      fillX3_miss _ _ _ _ _ _ _ _ _ (by omega) (by omega) _ _ _ _ (fun h => hc ⟨h.1, h.2.1⟩),
      fillX3_miss _ _ _ _ _ _ _ _ _ (by omega) (by omega) _ _ _ _ (fun h => hc ⟨h.1, h.2.1⟩)]

theorem applyPhys_fills (B : Bcs) (b : Box) (hb : b.Nonempty) : FillsGhosts b (applyPhys B b) := by
  have hb' := hb
  obtain ⟨h1, h2, h3⟩ := hb'
  refine ⟨?_, ?_, ?_⟩
  · rintro a ⟨k, j, i⟩ ⟨⟨a1, a2⟩, ⟨a3, a4⟩, a5, a6⟩
    simp only at a1 a2 a3 a4 a5 a6
    rw [applyPhys_eq, phys3_at B b hb, if_neg (by omega), if_neg (by omega), phys2_at B b hb, if_neg (by omega), if_neg (by omega),
      phys1_at B b hb, if_neg (by omega), if_neg (by omega)]
  · intro a a' h
    have k1 : ∀ k j i, (b.kl ≤ k ∧ k ≤ b.ku) → (b.jl ≤ j ∧ j ≤ b.ju) → (b.il - 1 ≤ i ∧ i ≤ b.iu + 1) →
        phys1 B b a (k, j, i) = phys1 B b a' (k, j, i) := by
      intro k j i hk hj hi
      rw [phys1_at B b hb, phys1_at B b hb]
      rw [h (k, j, b.il) ⟨hk, hj, le_rfl, h3⟩, h (k, j, b.iu) ⟨hk, hj, h3, le_rfl⟩]
      split_ifs with c1 c2
      · rfl
      · rfl
      · exact h (k, j, i) ⟨hk, hj, by simp only; omega, by simp only; omega⟩
    have k2 : ∀ k j i, (b.kl ≤ k ∧ k ≤ b.ku) → (b.jl - 1 ≤ j ∧ j ≤ b.ju + 1) → (b.il - 1 ≤ i ∧ i ≤ b.iu + 1) →
        phys2 B b (phys1 B b a) (k, j, i) = phys2 B b (phys1 B b a') (k, j, i) := by
      intro k j i hk hj hi
      rw [phys2_at B b hb, phys2_at B b hb]
      rw [k1 k b.jl i hk ⟨le_rfl, h2⟩ hi, k1 k b.ju i hk ⟨h2, le_rfl⟩ hi]
      split_ifs with c1 c2
      · rfl
      · rfl
      · exact k1 k j i hk (by omega) hi
    rintro ⟨k, j, i⟩ ⟨hk, hj, hi⟩
    simp only at hk hj hi
    rw [applyPhys_eq, applyPhys_eq, phys3_at B b hb, phys3_at B b hb]
    rw [k2 b.kl j i ⟨le_rfl, h1⟩ hj hi, k2 b.ku j i ⟨h1, le_rfl⟩ hj hi]
    split_ifs with c1 c2
    · rfl
    · rfl
    · exact k2 k j i (by omega) hj hi
  · rintro a ⟨k, j, i⟩ hn
    simp only [Box.Ext] at hn
    rw [applyPhys_eq, phys3_at B b hb, if_neg (by omega), if_neg (by omega), phys2_at B b hb, if_neg (by omega), if_neg (by omega),
      phys1_at B b hb, if_neg (by omega), if_neg (by omega)]

theorem bcVal_zero {bc : Bc} (h : bc ≠ .multipole) (p : ℝ) : bcVal bc p 0 0 = 0 := by
  cases bc <;> simp_all [bcVal]

/-- None of the boundaries imposes a potential. -/
def Bcs.Homogeneous (B : Bcs) : Prop :=
  B.x1i ≠ .multipole ∧ B.x1o ≠ .multipole ∧ B.x2i ≠ .multipole ∧ B.x2o ≠ .multipole ∧ B.x3i ≠ .multipole ∧ B.x3o ≠ .multipole

theorem applyPhys_zero (B : Bcs) (b : Box) (hb : b.Nonempty) (hh : B.Homogeneous) :
    applyPhys B b (fun _ => 0) = fun _ => 0 := by
  obtain ⟨m1, m2, m3, m4, m5, m6⟩ := hh
  have e1 : phys1 B b (fun _ => 0) = fun _ => 0 := by
    funext ⟨k, j, i⟩
    rw [phys1_at B b hb]
    simp only [bcVal_zero m1, bcVal_zero m2, ite_self]
  have e2 : phys2 B b (fun _ => 0) = fun _ => 0 := by
    funext ⟨k, j, i⟩
    rw [phys2_at B b hb]
    simp only [bcVal_zero m3, bcVal_zero m4, ite_self]
  funext ⟨k, j, i⟩
  rw [applyPhys_eq, e1, e2, phys3_at B b hb]
  simp only [bcVal_zero m5, bcVal_zero m6, ite_self]

end Verif.Mg
