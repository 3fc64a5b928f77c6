import Verif.Model.Diffusion
import Verif.Lemmas.Flux
import Mathlib.Tactic.Ring
import Mathlib.Tactic.Linarith
import Mathlib.Tactic.FieldSimp

/-! # Helpers for viscosity and heat conduction -/
namespace Verif.Diffusion
open Verif.Grid
open Verif.Arr (loop rng prodL mem_rng nodup_rng mem_prodL nodup_prodL foldl_prodL)

theorem foldl_add {ι σ P K : Type} [AddMonoid K] (l : List ι) (step : σ → ι → σ) (π : σ → P → K) (c : ι → P → K)
    (h : ∀ s a q, π (step s a) q = π s q + c a q) (s : σ) (q : P) :
    π (l.foldl step s) q = π s q + (l.map fun a => c a q).sum := by
  induction l generalizing s with
  | nil => simp
  | cons a l ih => rw [List.foldl_cons, ih, h, List.map_cons, List.sum_cons, add_assoc]

open Classical in
theorem sum_hit {ι P K : Type} [AddMonoid K] [DecidableEq P] (l : List ι) (hnd : l.Nodup) (Q : ι → Prop) [DecidablePred Q]
    (pt : ι → P) (hinj : ∀ a b, pt a = pt b → a = b) (q : P) (v : K) :
    (l.map fun a => if Q a ∧ pt a = q then v else 0).sum = if ∃ a ∈ l, Q a ∧ pt a = q then v else 0 := by
  induction l with
  | nil => simp
  | cons a l ih =>
    rw [List.map_cons, List.sum_cons, ih (List.nodup_cons.1 hnd).2]
    by_cases h : Q a ∧ pt a = q
    · have hn : ¬ ∃ b ∈ l, Q b ∧ pt b = q := by
        rintro ⟨b, hb, _, hb2⟩
        have := hinj a b (h.2.trans hb2.symm)
        exact (List.nodup_cons.1 hnd).1 (this ▸ hb)
      rw [if_pos h, if_neg hn, add_zero, if_pos ⟨a, List.mem_cons_self, h⟩]
    · rw [if_neg h, zero_add]
      refine if_congr ⟨?_, ?_⟩ rfl rfl
      · rintro ⟨b, hb, hb'⟩
        exact ⟨b, List.mem_cons_of_mem _ hb, hb'⟩
      · rintro ⟨b, hb, hb'⟩
        rcases List.mem_cons.1 hb with rfl | hb
        · exact absurd hb' h
        · exact ⟨b, hb, hb'⟩

section
variable {K : Type} [Field K]

/-- One pass of the body of `addEnergyFlux`. -/
def estep (d : Dims) (S : FF K) (F : Flx K) (x : Int × Int × Int) : Flx K :=
  let F := { F with x1 := addTo x.1 x.2.1 x.2.2 (S.x1f (x.1, x.2.1, x.2.2)) F.x1 }
  let F := if x.2.2 = d.ie then { F with x1 := addTo x.1 x.2.1 (x.2.2 + 1) (S.x1f (x.1, x.2.1, x.2.2 + 1)) F.x1 } else F
  let F := if d.nx2 > 1 then
      let F := { F with x2 := addTo x.1 x.2.1 x.2.2 (S.x2f (x.1, x.2.1, x.2.2)) F.x2 }
      if x.2.1 = d.je then { F with x2 := addTo x.1 (x.2.1 + 1) x.2.2 (S.x2f (x.1, x.2.1 + 1, x.2.2)) F.x2 } else F
    else F
  if d.nx3 > 1 then
    let F := { F with x3 := addTo x.1 x.2.1 x.2.2 (S.x3f (x.1, x.2.1, x.2.2)) F.x3 }
    if x.1 = d.ke then { F with x3 := addTo (x.1 + 1) x.2.1 x.2.2 (S.x3f (x.1 + 1, x.2.1, x.2.2)) F.x3 } else F
  else F

/-- The cells visited. -/
def ecells (d : Dims) : List (Int × Int × Int) := prodL (rng d.ks d.ke) (prodL (rng d.js d.je) (rng d.is d.ie))

theorem nodup_ecells (d : Dims) : (ecells d).Nodup :=
  nodup_prodL (nodup_rng _ _) (nodup_prodL (nodup_rng _ _) (nodup_rng _ _))

theorem mem_ecells {d : Dims} {k j i : Int} :
    (k, j, i) ∈ ecells d ↔ (d.ks ≤ k ∧ k ≤ d.ke) ∧ (d.js ≤ j ∧ j ≤ d.je) ∧ (d.is ≤ i ∧ i ≤ d.ie) := by
  simp only [ecells, mem_prodL, mem_rng]

theorem addEnergy_fold (d : Dims) (S : FF K) (F : Flx K) : addEnergyFlux d S F = (ecells d).foldl (estep d S) F := by
  unfold addEnergyFlux ecells
  rw [foldl_prodL]
  simp only [foldl_prodL, loop_eq]
  rfl

theorem addTo_eq (k j i : Int) (x : K) (f : A4 K) (q : Int × Int × Int × Int) :
    addTo k j i x f q = f q + if ((4 : Int), k, j, i) = q then x else 0 := by
  unfold addTo
  by_cases h : ((4 : Int), k, j, i) = q
  · subst h; simp
  · rw [Function.update_of_ne (Ne.symm h), if_neg h, add_zero]

theorem estep_x1 (d : Dims) (S : FF K) (F : Flx K) (x : Int × Int × Int) (q : Int × Int × Int × Int) :
    (estep d S F x).x1 q = F.x1 q + ((if True ∧ ((4 : Int), x) = q then S.x1f q.2 else 0)
      + (if x.2.2 = d.ie ∧ ((4 : Int), x.1, x.2.1, x.2.2 + 1) = q then S.x1f q.2 else 0)) := by
  obtain ⟨k, j, i⟩ := x
  obtain ⟨n, k', j', i'⟩ := q
  have e : ∀ F : Flx K, (if d.nx3 > 1 then
      let F := { F with x3 := addTo k j i (S.x3f (k, j, i)) F.x3 }
      if k = d.ke then { F with x3 := addTo (k + 1) j i (S.x3f (k + 1, j, i)) F.x3 } else F
    else F).x1 = F.x1 := by intro F; split <;> [(dsimp only; split <;> rfl); rfl]
  have e2 : ∀ F : Flx K, (if d.nx2 > 1 then
      let F := { F with x2 := addTo k j i (S.x2f (k, j, i)) F.x2 }
      if j = d.je then { F with x2 := addTo k (j + 1) i (S.x2f (k, j + 1, i)) F.x2 } else F
    else F).x1 = F.x1 := by intro F; split <;> [(dsimp only; split <;> rfl); rfl]
  unfold estep
  dsimp only at e e2 ⊢
  rw [e, e2]
  by_cases h : i = d.ie
  · rw [if_pos h]
    dsimp only
    rw [addTo_eq, addTo_eq, add_assoc]
    congr 1; congr 1
    · by_cases h1 : ((4 : Int), k, j, i) = (n, k', j', i')
      · simp only [Prod.mk.injEq] at h1
        simp [h1.1, h1.2.1, h1.2.2.1, h1.2.2.2]
      · rw [if_neg h1, if_neg (fun x => h1 x.2)]
    · by_cases h1 : ((4 : Int), k, j, i + 1) = (n, k', j', i')
      · rw [if_pos h1, if_pos ⟨h, h1⟩]
        simp only [Prod.mk.injEq] at h1
        rw [h1.2.1, h1.2.2.1, h1.2.2.2]
      · rw [if_neg h1, if_neg (fun x => h1 x.2)]
  · rw [if_neg h, if_neg (c := i = d.ie ∧ _) (fun x => h x.1), add_zero]
    dsimp only
    rw [addTo_eq]
    congr 1
    by_cases h1 : ((4 : Int), k, j, i) = (n, k', j', i')
    · simp only [Prod.mk.injEq] at h1
      simp [h1.1, h1.2.1, h1.2.2.1, h1.2.2.2]
    · rw [if_neg h1, if_neg (fun x => h1 x.2)]

theorem estep_x2 (d : Dims) (S : FF K) (F : Flx K) (x : Int × Int × Int) (q : Int × Int × Int × Int) :
    (estep d S F x).x2 q = F.x2 q + ((if d.nx2 > 1 ∧ ((4 : Int), x) = q then S.x2f q.2 else 0)
      + (if (d.nx2 > 1 ∧ x.2.1 = d.je) ∧ ((4 : Int), x.1, x.2.1 + 1, x.2.2) = q then S.x2f q.2 else 0)) := by
  obtain ⟨k, j, i⟩ := x
  obtain ⟨n, k', j', i'⟩ := q
  have e : ∀ F : Flx K, (if d.nx3 > 1 then
      let F := { F with x3 := addTo k j i (S.x3f (k, j, i)) F.x3 }
      if k = d.ke then { F with x3 := addTo (k + 1) j i (S.x3f (k + 1, j, i)) F.x3 } else F
    else F).x2 = F.x2 := by intro F; split <;> [(dsimp only; split <;> rfl); rfl]
  unfold estep
  dsimp only at e ⊢
  rw [e]
  by_cases hd : d.nx2 > 1
  · rw [if_pos hd]
    by_cases h : j = d.je
    · rw [if_pos h]
      dsimp only
      rw [addTo_eq, addTo_eq, add_assoc]
      have e3 : ∀ (c : Prop) [Decidable c] (G : A4 K), (if c then { F with x1 := G } else F).x2 = F.x2 := by
        intro c _ G; split <;> rfl
      congr 1
      · split <;> rfl
      · congr 1
        · by_cases h1 : ((4 : Int), k, j, i) = (n, k', j', i')
          · rw [if_pos h1, if_pos ⟨hd, h1⟩]
            simp only [Prod.mk.injEq] at h1
            rw [h1.2.1, h1.2.2.1, h1.2.2.2]
          · rw [if_neg h1, if_neg (fun x => h1 x.2)]
        · by_cases h1 : ((4 : Int), k, j + 1, i) = (n, k', j', i')
          · rw [if_pos h1, if_pos ⟨⟨hd, h⟩, h1⟩]
            simp only [Prod.mk.injEq] at h1
            rw [h1.2.1, h1.2.2.1, h1.2.2.2]
          · rw [if_neg h1, if_neg (fun x => h1 x.2)]
    · rw [if_neg h, if_neg (c := (d.nx2 > 1 ∧ j = d.je) ∧ _) (fun x => h x.1.2), add_zero]
      dsimp only
      rw [addTo_eq]
      congr 1
      · split <;> rfl
      · by_cases h1 : ((4 : Int), k, j, i) = (n, k', j', i')
        · rw [if_pos h1, if_pos ⟨hd, h1⟩]
          simp only [Prod.mk.injEq] at h1
          rw [h1.2.1, h1.2.2.1, h1.2.2.2]
        · rw [if_neg h1, if_neg (fun x => h1 x.2)]
  · rw [if_neg hd, if_neg (c := d.nx2 > 1 ∧ _) (fun x => hd x.1), if_neg (c := (d.nx2 > 1 ∧ j = d.je) ∧ _) (fun x => hd x.1.1),
      add_zero, add_zero]
    split <;> rfl

theorem estep_x3 (d : Dims) (S : FF K) (F : Flx K) (x : Int × Int × Int) (q : Int × Int × Int × Int) :
    (estep d S F x).x3 q = F.x3 q + ((if d.nx3 > 1 ∧ ((4 : Int), x) = q then S.x3f q.2 else 0)
      + (if (d.nx3 > 1 ∧ x.1 = d.ke) ∧ ((4 : Int), x.1 + 1, x.2.1, x.2.2) = q then S.x3f q.2 else 0)) := by
  obtain ⟨k, j, i⟩ := x
  obtain ⟨n, k', j', i'⟩ := q
  have e1 : ∀ (G H : A4 K), (if i = d.ie then (⟨G, F.x2, F.x3⟩ : Flx K) else ⟨H, F.x2, F.x3⟩).x3 = F.x3 := by
    intro G H; split <;> rfl
  have e2 : ∀ F : Flx K, (if d.nx2 > 1 then
      let F := { F with x2 := addTo k j i (S.x2f (k, j, i)) F.x2 }
      if j = d.je then { F with x2 := addTo k (j + 1) i (S.x2f (k, j + 1, i)) F.x2 } else F
    else F).x3 = F.x3 := by intro F; split <;> [(dsimp only; split <;> rfl); rfl]
  unfold estep
  dsimp only at e2 ⊢
  by_cases hd : d.nx3 > 1
  · rw [if_pos hd]
    by_cases h : k = d.ke
    · rw [if_pos h]
      dsimp only
      rw [addTo_eq, addTo_eq, add_assoc, e2, e1]
      congr 1
      congr 1
      · by_cases h1 : ((4 : Int), k, j, i) = (n, k', j', i')
        · rw [if_pos h1, if_pos ⟨hd, h1⟩]
          simp only [Prod.mk.injEq] at h1
          rw [h1.2.1, h1.2.2.1, h1.2.2.2]
        · rw [if_neg h1, if_neg (fun x => h1 x.2)]
      · by_cases h1 : ((4 : Int), k + 1, j, i) = (n, k', j', i')
        · rw [if_pos h1, if_pos ⟨⟨hd, h⟩, h1⟩]
          simp only [Prod.mk.injEq] at h1
          rw [h1.2.1, h1.2.2.1, h1.2.2.2]
        · rw [if_neg h1, if_neg (fun x => h1 x.2)]
    · rw [if_neg h, if_neg (c := (d.nx3 > 1 ∧ k = d.ke) ∧ _) (fun x => h x.1.2), add_zero]
      dsimp only
      rw [addTo_eq, e2, e1]
      congr 1
      by_cases h1 : ((4 : Int), k, j, i) = (n, k', j', i')
      · rw [if_pos h1, if_pos ⟨hd, h1⟩]
        simp only [Prod.mk.injEq] at h1
        rw [h1.2.1, h1.2.2.1, h1.2.2.2]
      · rw [if_neg h1, if_neg (fun x => h1 x.2)]
  · rw [if_neg hd, if_neg (c := d.nx3 > 1 ∧ _) (fun x => hd x.1), if_neg (c := (d.nx3 > 1 ∧ k = d.ke) ∧ _) (fun x => hd x.1.1),
      add_zero, add_zero, e2, e1]

theorem list_sum_add {ι : Type} (l : List ι) (f g : ι → K) : (l.map fun a => f a + g a).sum = (l.map f).sum + (l.map g).sum := by
  induction l with
  | nil => simp
  | cons a l ih => simp only [List.map_cons, List.sum_cons, ih]; ring

theorem addEnergy_x1 (d : Dims) (hd : d.is ≤ d.ie) (S : FF K) (F : Flx K) (n k j i : Int) :
    (addEnergyFlux d S F).x1 (n, k, j, i) = F.x1 (n, k, j, i) +
      if n = 4 ∧ (d.ks ≤ k ∧ k ≤ d.ke) ∧ (d.js ≤ j ∧ j ≤ d.je) ∧ d.is ≤ i ∧ i ≤ d.ie + 1 then S.x1f (k, j, i) else 0 := by
  classical
  rw [addEnergy_fold, foldl_add (ecells d) (estep d S) Flx.x1 _ (estep_x1 d S), list_sum_add]
  congr 1
  rw [sum_hit (ecells d) (nodup_ecells d) (fun _ => True) (fun x => ((4 : Int), x)) (fun a b h => (Prod.mk.inj h).2),
    sum_hit (ecells d) (nodup_ecells d) (fun x => x.2.2 = d.ie) (fun x => ((4 : Int), x.1, x.2.1, x.2.2 + 1))
      (fun a b h => by
        obtain ⟨a1, a2, a3⟩ := a; obtain ⟨b1, b2, b3⟩ := b
        simp only [Prod.mk.injEq] at h ⊢; omega)]
  have h1 : (∃ a ∈ ecells d, True ∧ ((4 : Int), a) = (n, k, j, i)) ↔
      n = 4 ∧ (d.ks ≤ k ∧ k ≤ d.ke) ∧ (d.js ≤ j ∧ j ≤ d.je) ∧ d.is ≤ i ∧ i ≤ d.ie := by
    constructor
    · rintro ⟨⟨a, b, c⟩, hm, -, h⟩
      rw [mem_ecells] at hm
      simp only [Prod.mk.injEq] at h
      obtain ⟨rfl, rfl, rfl, rfl⟩ := h
      exact ⟨rfl, hm⟩
    · rintro ⟨rfl, h⟩
      exact ⟨(k, j, i), mem_ecells.2 h, trivial, rfl⟩
  have h2 : (∃ a ∈ ecells d, a.2.2 = d.ie ∧ ((4 : Int), a.1, a.2.1, a.2.2 + 1) = (n, k, j, i)) ↔
      n = 4 ∧ (d.ks ≤ k ∧ k ≤ d.ke) ∧ (d.js ≤ j ∧ j ≤ d.je) ∧ i = d.ie + 1 := by
    constructor
    · rintro ⟨⟨a, b, c⟩, hm, h', h⟩
      rw [mem_ecells] at hm
      simp only [Prod.mk.injEq] at h h'
      obtain ⟨rfl, rfl, rfl, rfl⟩ := h
      exact ⟨rfl, hm.1, hm.2.1, by omega⟩
    · rintro ⟨rfl, h3, h4, h5⟩
      exact ⟨(k, j, d.ie), mem_ecells.2 ⟨h3, h4, hd, by omega⟩, rfl, by rw [h5]⟩
  rw [if_congr h1 rfl rfl, if_congr h2 rfl rfl]
  by_cases hi : i = d.ie + 1
  · rw [if_neg (by omega), zero_add]
    exact if_congr (by omega) rfl rfl
  · rw [if_neg (c := n = 4 ∧ (d.ks ≤ k ∧ k ≤ d.ke) ∧ (d.js ≤ j ∧ j ≤ d.je) ∧ i = d.ie + 1) (by omega), add_zero]
    exact if_congr (by omega) rfl rfl

theorem addEnergy_x2 (d : Dims) (hd : d.js ≤ d.je) (S : FF K) (F : Flx K) (n k j i : Int) :
    (addEnergyFlux d S F).x2 (n, k, j, i) = F.x2 (n, k, j, i) +
      if d.nx2 > 1 ∧ n = 4 ∧ (d.ks ≤ k ∧ k ≤ d.ke) ∧ (d.js ≤ j ∧ j ≤ d.je + 1) ∧ d.is ≤ i ∧ i ≤ d.ie then S.x2f (k, j, i) else 0 := by
  classical
  rw [addEnergy_fold, foldl_add (ecells d) (estep d S) Flx.x2 _ (estep_x2 d S), list_sum_add]
  congr 1
  rw [sum_hit (ecells d) (nodup_ecells d) (fun _ => d.nx2 > 1) (fun x => ((4 : Int), x)) (fun a b h => (Prod.mk.inj h).2),
    sum_hit (ecells d) (nodup_ecells d) (fun x => d.nx2 > 1 ∧ x.2.1 = d.je) (fun x => ((4 : Int), x.1, x.2.1 + 1, x.2.2))
      (fun a b h => by
        obtain ⟨a1, a2, a3⟩ := a; obtain ⟨b1, b2, b3⟩ := b
        simp only [Prod.mk.injEq] at h ⊢; omega)]
  have h1 : (∃ a ∈ ecells d, d.nx2 > 1 ∧ ((4 : Int), a) = (n, k, j, i)) ↔
      d.nx2 > 1 ∧ n = 4 ∧ (d.ks ≤ k ∧ k ≤ d.ke) ∧ (d.js ≤ j ∧ j ≤ d.je) ∧ d.is ≤ i ∧ i ≤ d.ie := by
    constructor
    · rintro ⟨⟨a, b, c⟩, hm, h0, h⟩
      rw [mem_ecells] at hm
      simp only [Prod.mk.injEq] at h
      obtain ⟨rfl, rfl, rfl, rfl⟩ := h
      exact ⟨h0, rfl, hm⟩
    · rintro ⟨h0, rfl, h⟩
      exact ⟨(k, j, i), mem_ecells.2 h, h0, rfl⟩
  have h2 : (∃ a ∈ ecells d, (d.nx2 > 1 ∧ a.2.1 = d.je) ∧ ((4 : Int), a.1, a.2.1 + 1, a.2.2) = (n, k, j, i)) ↔
      d.nx2 > 1 ∧ n = 4 ∧ (d.ks ≤ k ∧ k ≤ d.ke) ∧ j = d.je + 1 ∧ d.is ≤ i ∧ i ≤ d.ie := by
    constructor
    · rintro ⟨⟨a, b, c⟩, hm, h', h⟩
      rw [mem_ecells] at hm
      simp only [Prod.mk.injEq] at h h'
      obtain ⟨rfl, rfl, rfl, rfl⟩ := h
      exact ⟨h'.1, rfl, hm.1, by omega, hm.2.2⟩
    · rintro ⟨h0, rfl, h3, h4, h5⟩
      exact ⟨(k, d.je, i), mem_ecells.2 ⟨h3, ⟨hd, by omega⟩, h5⟩, ⟨h0, rfl⟩, by rw [h4]⟩
  rw [if_congr h1 rfl rfl, if_congr h2 rfl rfl]
  by_cases hj : j = d.je + 1
  · rw [if_neg (by omega), zero_add]
    exact if_congr (by omega) rfl rfl
  · rw [if_neg (c := d.nx2 > 1 ∧ n = 4 ∧ (d.ks ≤ k ∧ k ≤ d.ke) ∧ j = d.je + 1 ∧ d.is ≤ i ∧ i ≤ d.ie) (by omega), add_zero]
    exact if_congr (by omega) rfl rfl

theorem addEnergy_x3 (d : Dims) (hd : d.ks ≤ d.ke) (S : FF K) (F : Flx K) (n k j i : Int) :
    (addEnergyFlux d S F).x3 (n, k, j, i) = F.x3 (n, k, j, i) +
      if d.nx3 > 1 ∧ n = 4 ∧ (d.ks ≤ k ∧ k ≤ d.ke + 1) ∧ (d.js ≤ j ∧ j ≤ d.je) ∧ d.is ≤ i ∧ i ≤ d.ie then S.x3f (k, j, i) else 0 := by
  classical
  rw [addEnergy_fold, foldl_add (ecells d) (estep d S) Flx.x3 _ (estep_x3 d S), list_sum_add]
  congr 1
  rw [sum_hit (ecells d) (nodup_ecells d) (fun _ => d.nx3 > 1) (fun x => ((4 : Int), x)) (fun a b h => (Prod.mk.inj h).2),
    sum_hit (ecells d) (nodup_ecells d) (fun x => d.nx3 > 1 ∧ x.1 = d.ke) (fun x => ((4 : Int), x.1 + 1, x.2.1, x.2.2))
      (fun a b h => by
        obtain ⟨a1, a2, a3⟩ := a; obtain ⟨b1, b2, b3⟩ := b
        simp only [Prod.mk.injEq] at h ⊢; omega)]
  have h1 : (∃ a ∈ ecells d, d.nx3 > 1 ∧ ((4 : Int), a) = (n, k, j, i)) ↔
      d.nx3 > 1 ∧ n = 4 ∧ (d.ks ≤ k ∧ k ≤ d.ke) ∧ (d.js ≤ j ∧ j ≤ d.je) ∧ d.is ≤ i ∧ i ≤ d.ie := by
    constructor
    · rintro ⟨⟨a, b, c⟩, hm, h0, h⟩
      rw [mem_ecells] at hm
      simp only [Prod.mk.injEq] at h
      obtain ⟨rfl, rfl, rfl, rfl⟩ := h
      exact ⟨h0, rfl, hm⟩
    · rintro ⟨h0, rfl, h⟩
      exact ⟨(k, j, i), mem_ecells.2 h, h0, rfl⟩
  have h2 : (∃ a ∈ ecells d, (d.nx3 > 1 ∧ a.1 = d.ke) ∧ ((4 : Int), a.1 + 1, a.2.1, a.2.2) = (n, k, j, i)) ↔
      d.nx3 > 1 ∧ n = 4 ∧ k = d.ke + 1 ∧ (d.js ≤ j ∧ j ≤ d.je) ∧ d.is ≤ i ∧ i ≤ d.ie := by
    constructor
    · rintro ⟨⟨a, b, c⟩, hm, h', h⟩
      rw [mem_ecells] at hm
      simp only [Prod.mk.injEq] at h h'
      obtain ⟨rfl, rfl, rfl, rfl⟩ := h
      exact ⟨h'.1, rfl, by omega, hm.2⟩
    · rintro ⟨h0, rfl, h3, h4, h5⟩
      exact ⟨(d.ke, j, i), mem_ecells.2 ⟨⟨hd, by omega⟩, h4, h5⟩, ⟨h0, rfl⟩, by rw [h3]⟩
  rw [if_congr h1 rfl rfl, if_congr h2 rfl rfl]
  by_cases hk : k = d.ke + 1
  · rw [if_neg (by omega), zero_add]
    exact if_congr (by omega) rfl rfl
  · rw [if_neg (c := d.nx3 > 1 ∧ n = 4 ∧ k = d.ke + 1 ∧ (d.js ≤ j ∧ j ≤ d.je) ∧ d.is ≤ i ∧ i ≤ d.ie) (by omega), add_zero]
    exact if_congr (by omega) rfl rfl

end

section
variable {K : Type} [Field K] [LinearOrder K]

theorem foldl_min {ι : Type} (l : List ι) (f : ι → K) (m : K) :
    l.foldl (fun m a => min m (f a)) m ≤ m ∧ ∀ a ∈ l, l.foldl (fun m a => min m (f a)) m ≤ f a := by
  induction l generalizing m with
  | nil => exact ⟨le_rfl, fun a h => by simp at h⟩
  | cons a l ih =>
    rw [List.foldl_cons]
    refine ⟨(ih _).1.trans (min_le_left _ _), fun b hb => ?_⟩
    rcases List.mem_cons.1 hb with rfl | hb
    · exact (ih _).1.trans (min_le_right _ _)
    · exact (ih _).2 b hb

/-- `newDt` is at most the limit of each cell of its range. -/
theorem newDt_le (d : Dims) (realMax tiny : K) (w1 w2 w3 coef : A3 K) {k j i : Int} (hk : d.ks ≤ k ∧ k ≤ d.ke)
    (hj : d.js ≤ j ∧ j ≤ d.je) (hi : d.is - d.ng ≤ i ∧ i ≤ d.ie + d.ng) :
    newDt d true realMax tiny w1 w2 w3 coef ≤ least d w1 w2 w3 (k, j, i) ^ 2 * fac d / (coef (k, j, i) + tiny) := by
  have e : newDt d true realMax tiny w1 w2 w3 coef =
      (prodL (rng d.ks d.ke) (prodL (rng d.js d.je) (rng (d.is - d.ng) (d.ie + d.ng)))).foldl
        (fun m a => min m (least d w1 w2 w3 (a.1, a.2.1, a.2.2) ^ 2 * fac d / (coef (a.1, a.2.1, a.2.2) + tiny))) realMax := by
    rw [foldl_prodL]
    simp only [foldl_prodL, newDt, loop_eq, if_true]
  rw [e]
  exact (foldl_min _ (fun a : Int × Int × Int => least d w1 w2 w3 (a.1, a.2.1, a.2.2) ^ 2 * fac d /
    (coef (a.1, a.2.1, a.2.2) + tiny)) realMax).2 (k, j, i)
    (mem_prodL.2 ⟨mem_rng.2 hk, mem_prodL.2 ⟨mem_rng.2 hj, mem_rng.2 hi⟩⟩)

end
end Verif.Diffusion
