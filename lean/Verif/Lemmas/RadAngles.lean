import Verif.Spec.RadAngles
import Mathlib.Tactic.LinearCombination
import Mathlib.Tactic.FieldSimp
import Mathlib.Tactic.Positivity
import Mathlib.Tactic.Ring
import Mathlib.Tactic.Linarith
import Mathlib.Tactic.IntervalCases
import Mathlib.Tactic.FinCases
import Mathlib.Algebra.BigOperators.Ring.Finset
import Mathlib.Algebra.BigOperators.Fin
import Mathlib.Algebra.BigOperators.Field

namespace Verif.Rad

open Verif.Rad.Spec

/-! ### sums over lists -/

theorem sum_range_list (n : ℕ) (f : ℕ → ℝ) :
    ((List.range n).map f).sum = ∑ i ∈ Finset.range n, f i := by
  induction n with
  | zero => simp
  | succ n ih => rw [List.range_succ, Finset.sum_range_succ, ← ih]; simp

theorem quad_append (a b : List Ray) (f) : quad (a ++ b) f = quad a f + quad b f := by
  simp [quad]

theorem quad_flatMap {A B : Type} (L : List A) (E : List B) (g : A → B → Ray) (f : Ray → ℝ) :
    quad (L.flatMap fun o => E.map (g o)) f
      = (E.map fun e => (L.map fun o => (g o e).w * f (g o e)).sum).sum := by
  induction L with
  | nil => simp [quad]
  | cons o os ih =>
    rw [List.flatMap_cons, quad_append, ih]
    simp only [List.map_cons, List.sum_cons, List.sum_map_add]
    simp [quad, Function.comp_def]

theorem quad_flatMap' {A B : Type} (L : List A) (E : List B) (g : A → B → Ray) (f : Ray → ℝ) :
    quad (L.flatMap fun o => E.map (g o)) f
      = (L.map fun o => (E.map fun e => (g o e).w * f (g o e)).sum).sum := by
  induction L with
  | nil => simp [quad]
  | cons o os ih =>
    rw [List.flatMap_cons, quad_append, ih]
    simp [quad, Function.comp_def]

theorem octants_eq : octants =
    [(0,0,0),(0,0,1),(0,1,0),(0,1,1),(1,0,0),(1,0,1),(1,1,0),(1,1,1)] := by decide

theorem quadrants_eq : quadrants = [(0,0),(0,1),(1,0),(1,1)] := by decide

/-! ### levels -/

theorem den_pos {nmu : ℕ} (h : 1 ≤ nmu) : (0:ℝ) < 2 * nmu - 1 := by
  have : (1:ℝ) ≤ nmu := by exact_mod_cast h
  linarith

theorem mu2_eq {nmu : ℕ} (h : 1 ≤ nmu) (i : ℕ) :
    mu2 nmu i = (1 + 6 * i) / (3 * (2 * nmu - 1)) := by
  have hd := (den_pos h).ne'
  induction i with
  | zero => simp [mu2]
  | succ i ih =>
    rw [mu2, ih, deltamu]; push_cast; field_simp; ring

theorem mu2_pos {nmu : ℕ} (h : 1 ≤ nmu) (i : ℕ) : 0 < mu2 nmu i := by
  rw [mu2_eq h]; have := den_pos h; positivity

theorem mu2_sum {nmu : ℕ} (h : 1 ≤ nmu) {i j k : ℕ} (hs : i + j + k = nmu - 1) :
    mu2 nmu i + mu2 nmu j + mu2 nmu k = 1 := by
  rw [mu2_eq h, mu2_eq h, mu2_eq h]
  have hd := (den_pos h).ne'
  have hs' : ((i:ℝ) + j + k) = nmu - 1 := by
    have : i + j + k + 1 = nmu := by omega
    rw [← this]; push_cast; ring
  field_simp
  linear_combination 6 * hs'

theorem wlev_prefix (nmu i : ℕ) : ∑ l ∈ Finset.range (i + 1), wlev nmu l = wtmp2 nmu i := by
  induction i with
  | zero => simp [wlev]
  | succ i ih => rw [Finset.sum_range_succ, ih]; simp only [wlev]; ring

theorem abel (nmu n : ℕ) :
    ∑ i ∈ Finset.range n, wlev nmu i * (mu2 nmu n - mu2 nmu i)
      = deltamu nmu * ∑ i ∈ Finset.range n, wtmp2 nmu i := by
  induction n with
  | zero => simp
  | succ n ih =>
    have e : ∀ i, wlev nmu i * (mu2 nmu (n + 1) - mu2 nmu i)
        = wlev nmu i * (mu2 nmu n - mu2 nmu i) + deltamu nmu * wlev nmu i := by
      intro i; rw [mu2]; ring
    rw [Finset.sum_congr rfl (fun i _ => e i), Finset.sum_add_distrib, ← Finset.mul_sum,
      wlev_prefix, Finset.sum_range_succ, ih, Finset.sum_range_succ (fun i => wtmp2 nmu i)]
    ring

theorem wtmp2_sum {nmu : ℕ} (h : 2 ≤ nmu) :
    ∑ i ∈ Finset.range (nmu - 1), wtmp2 nmu i = 2 * (nmu - 1) / 3 := by
  rcases Nat.lt_or_ge 2 nmu with h2 | h2
  · obtain ⟨m, rfl⟩ : ∃ m, nmu = m + 3 := ⟨nmu - 3, by omega⟩
    have e1 : m + 3 - 1 = m + 1 + 1 := by omega
    rw [e1, Finset.sum_range_succ]
    have hl : wtmp2 (m + 3) (m + 1)
        = 2 * (((m + 3 : ℕ) : ℝ) - 1) / 3 - wsum2 (m + 3) := by
      rw [wtmp2, if_pos ⟨h2, by omega⟩]
    have hs : ∑ i ∈ Finset.range (m + 1), wtmp2 (m + 3) i = wsum2 (m + 3) := by
      rw [wsum2, sum_range_list, show m + 3 - 3 = m from by omega, Finset.sum_range_succ']
      rw [add_comm (√_)]
      congr 1
      · refine Finset.sum_congr rfl fun i hi => ?_
        have := Finset.mem_range.mp hi
        rw [wtmp2, if_neg (by omega)]
    rw [hs, hl]; ring
  · obtain rfl : nmu = 2 := by omega
    have : wtmp2 2 0 = 2 / 3 := by
      rw [wtmp2, if_neg (by omega), w2, mu2]
      rw [show (4:ℝ) * (1 / (3 * (2 * ((2:ℕ):ℝ) - 1))) = (2 / 3) ^ 2 by norm_num]
      exact Real.sqrt_sq (by norm_num)
    simp [this]; norm_num

theorem wtmp_sum {nmu : ℕ} (h : 1 ≤ nmu) : ∑ i ∈ Finset.range nmu, wtmp nmu i = 1 := by
  obtain ⟨m, rfl⟩ : ∃ m, nmu = m + 1 := ⟨nmu - 1, by omega⟩
  rw [Finset.sum_range_succ]
  have hl : wtmp (m + 1) m = 1 - ∑ i ∈ Finset.range m, wlev (m + 1) i := by
    rw [wtmp, if_pos (by omega), sum_range_list]; rfl
  have hs : ∑ i ∈ Finset.range m, wtmp (m + 1) i = ∑ i ∈ Finset.range m, wlev (m + 1) i := by
    refine Finset.sum_congr rfl fun i hi => ?_
    have := Finset.mem_range.mp hi
    rw [wtmp, if_neg (by omega)]
  rw [hl, hs]; ring

theorem wtmp_mu2 {nmu : ℕ} (h : 2 ≤ nmu) :
    ∑ i ∈ Finset.range nmu, wtmp nmu i * mu2 nmu i = 1 / 3 := by
  have hs := wtmp2_sum h
  have hd := (den_pos (show 1 ≤ nmu by omega)).ne'
  have hm := mu2_eq (show 1 ≤ nmu by omega) (nmu - 1)
  have ha := abel nmu (nmu - 1)
  rw [hs] at ha
  obtain ⟨m, rfl⟩ : ∃ m, nmu = m + 1 := ⟨nmu - 1, by omega⟩
  simp only [Nat.add_sub_cancel] at *
  have h1 := wtmp_sum (show 1 ≤ m + 1 by omega)
  have e : ∑ i ∈ Finset.range (m + 1), wtmp (m + 1) i * mu2 (m + 1) i
      = mu2 (m + 1) m * ∑ i ∈ Finset.range (m + 1), wtmp (m + 1) i
        - ∑ i ∈ Finset.range m, wlev (m + 1) i * (mu2 (m + 1) m - mu2 (m + 1) i) := by
    have hs : ∑ i ∈ Finset.range m, wlev (m + 1) i * (mu2 (m + 1) m - mu2 (m + 1) i)
        = ∑ i ∈ Finset.range (m + 1), wtmp (m + 1) i * (mu2 (m + 1) m - mu2 (m + 1) i) := by
      rw [Finset.sum_range_succ, sub_self, mul_zero, add_zero]
      refine Finset.sum_congr rfl fun i hi => ?_
      have := Finset.mem_range.mp hi
      rw [wtmp, if_neg (by omega)]
    rw [hs, Finset.mul_sum, ← Finset.sum_sub_distrib]
    exact Finset.sum_congr rfl fun i _ => by ring
  rw [e, h1, ha, hm, deltamu]
  push_cast at *
  field_simp
  ring

/-! ### families -/

theorem sameFam_iff (t p : Tri) : sameFam t p = true ↔
    (t.1 = p.1 ∧ t.2.1 = p.2.1 ∧ t.2.2 = p.2.2) ∨ (t.1 = p.1 ∧ t.2.1 = p.2.2 ∧ t.2.2 = p.2.1) ∨
    (t.1 = p.2.1 ∧ t.2.1 = p.1 ∧ t.2.2 = p.2.2) ∨ (t.1 = p.2.1 ∧ t.2.1 = p.2.2 ∧ t.2.2 = p.1) ∨
    (t.1 = p.2.2 ∧ t.2.1 = p.1 ∧ t.2.2 = p.2.1) ∨ (t.1 = p.2.2 ∧ t.2.1 = p.2.1 ∧ t.2.2 = p.1) := by
  simp only [sameFam, Bool.or_eq_true, Bool.and_eq_true, beq_iff_eq]
  constructor
  · rintro ((⟨a, b | b⟩ | ⟨a, b | b⟩) | ⟨a, b | b⟩) <;> simp [a, b.1, b.2]
  · rintro (h | h | h | h | h | h) <;> simp [h.1, h.2.1, h.2.2]

theorem sameFam_refl (t : Tri) : sameFam t t = true := by
  rw [sameFam_iff]; exact Or.inl ⟨rfl, rfl, rfl⟩

theorem sameFam_symm {t p : Tri} (h : sameFam t p = true) : sameFam p t = true := by
  rw [sameFam_iff] at *
  rcases h with h | h | h | h | h | h <;> simp [h.1, h.2.1, h.2.2]

theorem sameFam_trans {t p q : Tri} (h : sameFam t p = true) (h' : sameFam p q = true) :
    sameFam t q = true := by
  rw [sameFam_iff] at *
  rcases h with h | h | h | h | h | h <;> rcases h' with h' | h' | h' | h' | h' | h' <;>
    simp [h.1, h.2.1, h.2.2, h'.1, h'.2.1, h'.2.2]

theorem permutation_some {t : Tri} {pl : List Tri} {l : ℕ} (h : permutation t pl = some l) :
    ∃ p, pl[l]? = some p ∧ sameFam t p = true := by
  induction pl generalizing l with
  | nil => simp [permutation] at h
  | cons p ps ih =>
    rw [permutation] at h
    cases hp : permutation t ps with
    | some l' =>
      rw [hp] at h
      simp only [Option.some.injEq] at h
      subst h
      simpa using ih hp
    | none =>
      rw [hp] at h
      by_cases hs : sameFam t p = true
      · simp only [hs, if_true, Option.some.injEq] at h
        subst h
        exact ⟨p, rfl, hs⟩
      · simp [hs] at h

theorem permutation_none {t : Tri} {pl : List Tri} (h : permutation t pl = none) :
    ∀ p ∈ pl, sameFam t p = false := by
  induction pl with
  | nil => simp
  | cons p ps ih =>
    rw [permutation] at h
    cases hp : permutation t ps with
    | some l' => rw [hp] at h; simp at h
    | none =>
      rw [hp] at h
      by_cases hs : sameFam t p = true
      · simp [hs] at h
      · intro q hq
        rcases List.mem_cons.mp hq with rfl | hq
        · simpa using hs
        · exact ih hp q hq

theorem families_fst (pl ts : List Tri) : (families pl ts).2.map Prod.fst = ts := by
  induction ts generalizing pl with
  | nil => simp [families]
  | cons t ts ih =>
    rw [families]
    cases permutation t pl with
    | none => simp [ih]
    | some l => simp [ih]

theorem families_prefix (pl ts : List Tri) : ∃ e, (families pl ts).1 = pl ++ e := by
  induction ts generalizing pl with
  | nil => exact ⟨[], by simp [families]⟩
  | cons t ts ih =>
    rw [families]
    cases permutation t pl with
    | none =>
      obtain ⟨e, he⟩ := ih (pl ++ [t])
      exact ⟨t :: e, by simp [he]⟩
    | some l => exact ih pl

theorem families_label (pl ts : List Tri) :
    ∀ e ∈ (families pl ts).2, ∃ p, (families pl ts).1[e.2]? = some p ∧ sameFam e.1 p = true := by
  induction ts generalizing pl with
  | nil => simp [families]
  | cons t ts ih =>
    rw [families]
    cases hp : permutation t pl with
    | none =>
      intro e he
      simp only [List.mem_cons] at he
      rcases he with rfl | he
      · obtain ⟨x, hx⟩ := families_prefix (pl ++ [t]) ts
        refine ⟨t, ?_, sameFam_refl t⟩
        simp [hx]
      · exact ih _ e he
    | some l =>
      intro e he
      simp only [List.mem_cons] at he
      rcases he with rfl | he
      · obtain ⟨x, hx⟩ := families_prefix pl ts
        obtain ⟨p, h1, h2⟩ := permutation_some hp
        refine ⟨p, ?_, h2⟩
        obtain ⟨hl, _⟩ := List.getElem?_eq_some_iff.mp h1
        simp only [hx]
        rw [List.getElem?_append_left hl]; exact h1
      · exact ih _ e he

theorem families_pairwise (pl ts : List Tri)
    (h : pl.Pairwise fun a b => sameFam a b = false) :
    (families pl ts).1.Pairwise fun a b => sameFam a b = false := by
  induction ts generalizing pl with
  | nil => simpa [families] using h
  | cons t ts ih =>
    rw [families]
    cases hp : permutation t pl with
    | none =>
      refine ih _ ?_
      rw [List.pairwise_append]
      refine ⟨h, by simp, fun a ha b hb => ?_⟩
      have hb : b = t := by simpa using hb
      subst hb
      have := permutation_none hp a ha
      by_contra hc
      have hc : sameFam a b = true := by simpa using hc
      rw [sameFam_symm hc] at this
      exact absurd this (by simp)
    | some l => exact ih pl h

/-- Angles of one family have one label, different families different labels. -/
theorem label_iff {nmu : ℕ} {e e' : Tri × ℕ} (he : e ∈ labels nmu) (he' : e' ∈ labels nmu) :
    sameFam e.1 e'.1 = true ↔ e.2 = e'.2 := by
  obtain ⟨p, h1, h2⟩ := families_label [] (triples nmu) e he
  obtain ⟨p', h1', h2'⟩ := families_label [] (triples nmu) e' he'
  have hpw := families_pairwise [] (triples nmu) List.Pairwise.nil
  constructor
  · intro h
    by_contra hne
    have hs : sameFam p p' = true := sameFam_trans (sameFam_symm h2) (sameFam_trans h h2')
    obtain ⟨hl, hg⟩ := List.getElem?_eq_some_iff.mp h1
    obtain ⟨hl', hg'⟩ := List.getElem?_eq_some_iff.mp h1'
    rw [List.pairwise_iff_getElem] at hpw
    rcases Nat.lt_or_gt_of_ne hne with hlt | hlt
    · have := hpw _ _ hl hl' hlt
      rw [hg, hg', hs] at this; simp at this
    · have := hpw _ _ hl' hl hlt
      rw [hg, hg', sameFam_symm hs] at this; simp at this
  · intro h
    rw [h] at h1
    rw [h1] at h1'
    cases h1'
    exact sameFam_trans h2 (sameFam_symm h2')

theorem mem_triples {nmu : ℕ} (h : 1 ≤ nmu) (t : Tri) :
    t ∈ triples nmu ↔ t.1 + t.2.1 + t.2.2 = nmu - 1 := by
  obtain ⟨i, j, k⟩ := t
  simp only [triples, List.mem_filter, List.mem_flatMap, List.mem_range, List.mem_map,
    decide_eq_true_eq, Prod.mk.injEq]
  constructor
  · exact fun hh => hh.2
  · intro hh
    exact ⟨⟨i, by omega, j, by omega, k, by omega, rfl, rfl, rfl⟩, hh⟩

theorem triples_nodup (nmu : ℕ) : (triples nmu).Nodup := by
  refine List.Nodup.filter _ ?_
  rw [List.nodup_flatMap]
  constructor
  · intro i _
    rw [List.nodup_flatMap]
    constructor
    · intro j _
      exact List.nodup_range.map fun a b hab => by simpa using hab
    · refine List.nodup_range.imp ?_
      intro a b hab
      simp only [Function.onFun, List.Disjoint, List.mem_map]
      rintro x ⟨k, _, rfl⟩ ⟨k', _, hk⟩
      simp only [Prod.mk.injEq] at hk
      exact hab hk.2.1.symm
  · refine List.nodup_range.imp ?_
    intro a b hab
    simp only [Function.onFun, List.Disjoint, List.mem_flatMap, List.mem_map]
    rintro x ⟨j, _, k, _, rfl⟩ ⟨j', _, k', _, hk⟩
    simp only [Prod.mk.injEq] at hk
    exact hab hk.1.symm

open Classical in
/-- The label of a triple. -/
noncomputable def lab (nmu : ℕ) (t : Tri) : ℕ :=
  if h : ∃ l, (t, l) ∈ labels nmu then h.choose else 0

theorem lab_eq {nmu : ℕ} {e : Tri × ℕ} (he : e ∈ labels nmu) : lab nmu e.1 = e.2 := by
  have h : ∃ l, (e.1, l) ∈ labels nmu := ⟨e.2, he⟩
  rw [lab, dif_pos h]
  exact (label_iff h.choose_spec he).mp (sameFam_refl _)

theorem lab_mem {nmu : ℕ} {t : Tri} (ht : t ∈ triples nmu) : (t, lab nmu t) ∈ labels nmu := by
  have : t ∈ (labels nmu).map Prod.fst := by rw [labels, families_fst]; exact ht
  obtain ⟨e, he, rfl⟩ := List.mem_map.mp this
  rw [lab_eq he]; exact he

theorem sum_labels (nmu : ℕ) (F : Tri → ℕ → ℝ) :
    ((labels nmu).map fun e => F e.1 e.2).sum
      = ∑ t ∈ (triples nmu).toFinset, F t (lab nmu t) := by
  have h1 : ((labels nmu).map fun e => F e.1 e.2)
      = ((labels nmu).map Prod.fst).map fun t => F t (lab nmu t) := by
    rw [List.map_map]
    exact List.map_congr_left fun e he => by simp [lab_eq he]
  rw [h1, labels, families_fst, List.sum_toFinset _ (triples_nodup nmu)]

theorem lab_same {nmu : ℕ} {t t' : Tri} (ht : t ∈ triples nmu) (ht' : t' ∈ triples nmu)
    (h : sameFam t t' = true) : lab nmu t = lab nmu t' :=
  (label_iff (lab_mem ht) (lab_mem ht')).mp h

theorem sum_swap1 {nmu : ℕ} (h : 1 ≤ nmu) (wpf : ℕ → ℝ) (g : ℕ → ℝ) :
    ∑ t ∈ (triples nmu).toFinset, wpf (lab nmu t) * g t.2.1
      = ∑ t ∈ (triples nmu).toFinset, wpf (lab nmu t) * g t.1 := by
  refine Finset.sum_nbij' (fun t => (t.2.1, t.1, t.2.2)) (fun t => (t.2.1, t.1, t.2.2)) ?_ ?_ ?_
    ?_ ?_
  · intro t ht; rw [List.mem_toFinset, mem_triples h] at *; dsimp only; omega
  · intro t ht; rw [List.mem_toFinset, mem_triples h] at *; dsimp only; omega
  · intro t _; rfl
  · intro t _; rfl
  · intro t ht
    rw [List.mem_toFinset] at ht
    dsimp only
    rw [lab_same (t' := (t.2.1, t.1, t.2.2)) ht
      (by rw [mem_triples h] at *; dsimp only; omega) (by rw [sameFam_iff]; simp)]

theorem sum_swap2 {nmu : ℕ} (h : 1 ≤ nmu) (wpf : ℕ → ℝ) (g : ℕ → ℝ) :
    ∑ t ∈ (triples nmu).toFinset, wpf (lab nmu t) * g t.2.2
      = ∑ t ∈ (triples nmu).toFinset, wpf (lab nmu t) * g t.1 := by
  refine Finset.sum_nbij' (fun t => (t.2.2, t.2.1, t.1)) (fun t => (t.2.2, t.2.1, t.1)) ?_ ?_ ?_
    ?_ ?_
  · intro t ht; rw [List.mem_toFinset, mem_triples h] at *; dsimp only; omega
  · intro t ht; rw [List.mem_toFinset, mem_triples h] at *; dsimp only; omega
  · intro t _; rfl
  · intro t _; rfl
  · intro t ht
    rw [List.mem_toFinset] at ht
    dsimp only
    rw [lab_same (t' := (t.2.2, t.2.1, t.1)) ht
      (by rw [mem_triples h] at *; dsimp only; omega) (by rw [sameFam_iff]; simp)]

/-- Sum over the angles of one level from the matrix of families. -/
theorem level_sum (es : List (Tri × ℕ)) (P : ℕ) (hP : ∀ e ∈ es, e.2 < P) (w : ℕ → ℝ) (i : ℕ) :
    ∑ p ∈ Finset.range P,
        (((es.filter fun e => e.1.1 = i ∧ e.2 = p).length : ℕ) : ℝ) * w p
      = (es.map fun e => if e.1.1 = i then w e.2 else 0).sum := by
  induction es with
  | nil => simp
  | cons e es ih =>
    have hlt := hP e (by simp)
    rw [List.map_cons, List.sum_cons, ← ih fun x hx => hP x (by simp [hx])]
    have : ∀ p, ((((e :: es).filter fun e => e.1.1 = i ∧ e.2 = p).length : ℕ) : ℝ) * w p
        = (if e.1.1 = i ∧ e.2 = p then w p else 0)
          + (((es.filter fun e => e.1.1 = i ∧ e.2 = p).length : ℕ) : ℝ) * w p := by
      intro p
      by_cases hc : e.1.1 = i ∧ e.2 = p
      · rw [List.filter_cons_of_pos (by simpa using hc), if_pos hc, List.length_cons]
        push_cast; ring
      · rw [List.filter_cons_of_neg (by simpa using hc), if_neg hc]; ring
    rw [Finset.sum_congr rfl fun p _ => this p, Finset.sum_add_distrib]
    congr 1
    by_cases hi : e.1.1 = i
    · simp only [hi, true_and, if_true]
      rw [Finset.sum_ite_eq]
      simp [hlt]
    · simp [hi]

theorem by_levels (es : List (Tri × ℕ)) (n : ℕ) (hn : ∀ e ∈ es, e.1.1 < n) (w g : ℕ → ℝ) :
    (es.map fun e => w e.2 * g e.1.1).sum
      = ∑ i ∈ Finset.range n, g i * (es.map fun e => if e.1.1 = i then w e.2 else 0).sum := by
  induction es with
  | nil => simp
  | cons e es ih =>
    simp only [List.map_cons, List.sum_cons, mul_add, Finset.sum_add_distrib]
    rw [ih fun x hx => hn x (by simp [hx])]
    congr 1
    have := hn e (by simp)
    simp [this, mul_comm]

/-- The weights of the families solve the equations of the first `nmu-1` levels. -/
theorem level_moment {nmu : ℕ} (h : 2 ≤ nmu) (wpf : ℕ → ℝ)
    (hP : ∀ e ∈ labels nmu, e.2 < nmu - 1)
    (hs : ∀ i < nmu - 1, ∑ p ∈ Finset.range (nmu - 1), (pmat nmu i p : ℝ) * wpf p = wtmp nmu i) :
    ((labels nmu).map fun e => wpf e.2 * mu2 nmu e.1.1).sum = 1 / 3 ∧
    ((labels nmu).map fun e => wpf e.2).sum = 1 := by
  have h1 : 1 ≤ nmu := by omega
  have hlt : ∀ e ∈ labels nmu, e.1.1 < nmu := by
    intro e he
    have : e.1 ∈ (labels nmu).map Prod.fst := List.mem_map_of_mem he
    rw [labels, families_fst, mem_triples h1] at this
    omega
  set L : ℕ → ℝ := fun i => ((labels nmu).map fun e => if e.1.1 = i then wpf e.2 else 0).sum
    with hL
  have hlev : ∀ i < nmu - 1, L i = wtmp nmu i := by
    intro i hi
    rw [← hs i hi, hL]
    exact (level_sum (labels nmu) (nmu - 1) hP wpf i).symm
  have hA := by_levels (labels nmu) nmu hlt wpf (mu2 nmu)
  have hB := by_levels (labels nmu) nmu hlt wpf (fun _ => 1)
  simp only [mul_one, one_mul] at hB
  change _ = ∑ i ∈ Finset.range nmu, mu2 nmu i * L i at hA
  change _ = ∑ i ∈ Finset.range nmu, L i at hB
  -- the sum of the weights is three times the second moment
  have hsym : ((labels nmu).map fun e => wpf e.2).sum
      = 3 * ((labels nmu).map fun e => wpf e.2 * mu2 nmu e.1.1).sum := by
    rw [sum_labels nmu fun _ l => wpf l, sum_labels nmu fun t l => wpf l * mu2 nmu t.1]
    have e1 := sum_swap1 h1 wpf (mu2 nmu)
    have e2 := sum_swap2 h1 wpf (mu2 nmu)
    have e3 : ∑ t ∈ (triples nmu).toFinset, wpf (lab nmu t)
        = ∑ t ∈ (triples nmu).toFinset, wpf (lab nmu t) * mu2 nmu t.1
        + ∑ t ∈ (triples nmu).toFinset, wpf (lab nmu t) * mu2 nmu t.2.1
        + ∑ t ∈ (triples nmu).toFinset, wpf (lab nmu t) * mu2 nmu t.2.2 := by
      rw [← Finset.sum_add_distrib, ← Finset.sum_add_distrib]
      refine Finset.sum_congr rfl fun t ht => ?_
      rw [List.mem_toFinset, mem_triples h1] at ht
      rw [← mul_add, ← mul_add, mu2_sum h1 ht, mul_one]
    rw [e3, e1, e2]; ring
  have hW := wtmp_sum h1
  have hM := wtmp_mu2 h
  obtain ⟨m, rfl⟩ : ∃ m, nmu = m + 1 := ⟨nmu - 1, by omega⟩
  simp only [Nat.add_sub_cancel] at hlev
  have hlast : L m = wtmp (m + 1) m := by
    have hd : mu2 (m + 1) m - 1 / 3 ≠ 0 := by
      rw [mu2_eq h1]
      have hp := den_pos h1
      have : (1:ℝ) ≤ m := by exact_mod_cast (by omega : 1 ≤ m)
      have hx : (1 + 6 * (m:ℝ)) / (3 * (2 * ((m + 1 : ℕ):ℝ) - 1)) - 1 / 3
          = 4 * m / (3 * (2 * ((m + 1 : ℕ):ℝ) - 1)) := by
        push_cast at *
        field_simp; ring
      rw [hx]; positivity
    have hz : (mu2 (m + 1) m - 1 / 3) * (L m - wtmp (m + 1) m) = 0 := by
      have ea : ∑ i ∈ Finset.range m, mu2 (m + 1) i * L i
          = ∑ i ∈ Finset.range m, wtmp (m + 1) i * mu2 (m + 1) i :=
        Finset.sum_congr rfl fun i hi => by
          rw [hlev i (Finset.mem_range.mp hi)]; ring
      have eb : ∑ i ∈ Finset.range m, L i = ∑ i ∈ Finset.range m, wtmp (m + 1) i :=
        Finset.sum_congr rfl fun i hi => hlev i (Finset.mem_range.mp hi)
      rw [Finset.sum_range_succ] at hA hB hW hM
      rw [ea] at hA
      rw [eb] at hB
      rw [hA, hB] at hsym
      linear_combination hsym * (-1 / 3) + hW * (1 / 3) - hM
    rcases mul_eq_zero.mp hz with hz | hz
    · exact absurd hz hd
    · linarith
  have hall : ∀ i ∈ Finset.range (m + 1), L i = wtmp (m + 1) i := by
    intro i hi
    have := Finset.mem_range.mp hi
    rcases Nat.lt_or_ge i m with h' | h'
    · exact hlev i h'
    · obtain rfl : i = m := by omega
      exact hlast
  constructor
  · rw [hA, ← hM]
    exact Finset.sum_congr rfl fun i hi => by rw [hall i hi]; ring
  · rw [hB, ← hW]
    exact Finset.sum_congr rfl hall

theorem moment_y {nmu : ℕ} (h : 1 ≤ nmu) (wpf : ℕ → ℝ) (g : ℕ → ℝ) :
    ((labels nmu).map fun e => wpf e.2 * g e.1.2.1).sum
      = ((labels nmu).map fun e => wpf e.2 * g e.1.1).sum := by
  rw [sum_labels nmu fun t l => wpf l * g t.2.1, sum_labels nmu fun t l => wpf l * g t.1,
    sum_swap1 h]

theorem moment_z {nmu : ℕ} (h : 1 ≤ nmu) (wpf : ℕ → ℝ) (g : ℕ → ℝ) :
    ((labels nmu).map fun e => wpf e.2 * g e.1.2.2).sum
      = ((labels nmu).map fun e => wpf e.2 * g e.1.1).sum := by
  rw [sum_labels nmu fun t l => wpf l * g t.2.2, sum_labels nmu fun t l => wpf l * g t.1,
    sum_swap2 h]

/-! ### sums of cosines -/

theorem sum_cos_tele (θ : ℝ) (n : ℕ) :
    2 * Real.sin θ * ∑ m ∈ Finset.range n, Real.cos ((2 * m + 1) * θ) = Real.sin (2 * n * θ) := by
  induction n with
  | zero => simp
  | succ n ih =>
    rw [Finset.sum_range_succ, mul_add, ih]
    have e1 : 2 * ((n + 1 : ℕ) : ℝ) * θ = (2 * n + 1) * θ + θ := by push_cast; ring
    have e2 : 2 * (n : ℝ) * θ = (2 * n + 1) * θ - θ := by ring
    rw [e1, e2, Real.sin_add, Real.sin_sub]; ring

theorem sum_sin_tele (θ : ℝ) (n : ℕ) :
    2 * Real.sin θ * ∑ m ∈ Finset.range n, Real.sin ((2 * m + 1) * θ)
      = 1 - Real.cos (2 * n * θ) := by
  induction n with
  | zero => simp
  | succ n ih =>
    rw [Finset.sum_range_succ, mul_add, ih]
    have e1 : 2 * ((n + 1 : ℕ) : ℝ) * θ = (2 * n + 1) * θ + θ := by push_cast; ring
    have e2 : 2 * (n : ℝ) * θ = (2 * n + 1) * θ - θ := by ring
    rw [e1, e2, Real.cos_add, Real.cos_sub]; ring

theorem psiV_eq {np i : ℕ} (hn : 1 ≤ np) (hi : i < 2 * np) :
    psiV np i = (2 * i + 1) * (Real.pi / (2 * np)) := by
  have hp : (np : ℝ) ≠ 0 := by positivity
  unfold psiV
  by_cases h : i < np
  · rw [if_pos h]; field_simp; ring
  · rw [if_neg h]
    have : ((2 * np - i - 1 : ℕ) : ℝ) = 2 * np - i - 1 := by
      have e : 2 * np - i - 1 + i + 1 = 2 * np := by omega
      have : (((2 * np - i - 1 + i + 1 : ℕ)) : ℝ) = ((2 * np : ℕ) : ℝ) := by rw [e]
      push_cast at this
      linarith
    rw [this]; field_simp; ring

theorem sin_pi_div_pos {n : ℕ} (h : 2 ≤ n) : 0 < Real.sin (Real.pi / n) := by
  have hn : (2:ℝ) ≤ n := by exact_mod_cast h
  refine Real.sin_pos_of_pos_of_lt_pi (by positivity) ?_
  rw [div_lt_iff₀ (by positivity)]
  nlinarith [Real.pi_pos]

theorem psi_cos {np : ℕ} (hn : 1 ≤ np) :
    ∑ m ∈ Finset.range (2 * np), Real.cos (psiV np m) = 0 := by
  rw [Finset.sum_congr rfl fun m hm => by rw [psiV_eq hn (Finset.mem_range.mp hm)]]
  have h := sum_cos_tele (Real.pi / (2 * np)) (2 * np)
  have hs : 0 < Real.sin (Real.pi / ((2 * np : ℕ) : ℝ)) := sin_pi_div_pos (by omega)
  have hp : (np : ℝ) ≠ 0 := by positivity
  have e : 2 * ((2 * np : ℕ) : ℝ) * (Real.pi / (2 * np)) = 2 * Real.pi := by
    push_cast; field_simp
  rw [e, Real.sin_two_pi] at h
  push_cast at hs
  rcases mul_eq_zero.mp h with h | h
  · linarith
  · exact h

theorem psi_sin {np : ℕ} (hn : 1 ≤ np) :
    ∑ m ∈ Finset.range (2 * np), Real.sin (psiV np m) = 0 := by
  rw [Finset.sum_congr rfl fun m hm => by rw [psiV_eq hn (Finset.mem_range.mp hm)]]
  have h := sum_sin_tele (Real.pi / (2 * np)) (2 * np)
  have hs : 0 < Real.sin (Real.pi / ((2 * np : ℕ) : ℝ)) := sin_pi_div_pos (by omega)
  have hp : (np : ℝ) ≠ 0 := by positivity
  have e : 2 * ((2 * np : ℕ) : ℝ) * (Real.pi / (2 * np)) = 2 * Real.pi := by
    push_cast; field_simp
  rw [e, Real.cos_two_pi, sub_self] at h
  push_cast at hs
  rcases mul_eq_zero.mp h with h | h
  · linarith
  · exact h

theorem psi_cos2 {np : ℕ} (hn : 2 ≤ np) :
    ∑ m ∈ Finset.range (2 * np), Real.cos (2 * psiV np m) = 0 := by
  have hp : (np : ℝ) ≠ 0 := by positivity
  have e0 : ∀ m ∈ Finset.range (2 * np), Real.cos (2 * psiV np m)
      = Real.cos ((2 * m + 1) * (Real.pi / np)) := by
    intro m hm
    rw [psiV_eq (by omega) (Finset.mem_range.mp hm)]
    congr 1; field_simp
  rw [Finset.sum_congr rfl e0]
  have h := sum_cos_tele (Real.pi / np) (2 * np)
  have hs := sin_pi_div_pos hn
  have e : 2 * ((2 * np : ℕ) : ℝ) * (Real.pi / np) = 2 * Real.pi + 2 * Real.pi := by
    push_cast; field_simp; ring
  rw [e, Real.sin_add_two_pi, Real.sin_two_pi] at h
  rcases mul_eq_zero.mp h with h | h
  · linarith
  · exact h

theorem psi_sin2 {np : ℕ} (hn : 2 ≤ np) :
    ∑ m ∈ Finset.range (2 * np), Real.sin (2 * psiV np m) = 0 := by
  have hp : (np : ℝ) ≠ 0 := by positivity
  have e0 : ∀ m ∈ Finset.range (2 * np), Real.sin (2 * psiV np m)
      = Real.sin ((2 * m + 1) * (Real.pi / np)) := by
    intro m hm
    rw [psiV_eq (by omega) (Finset.mem_range.mp hm)]
    congr 1; field_simp
  rw [Finset.sum_congr rfl e0]
  have h := sum_sin_tele (Real.pi / np) (2 * np)
  have hs := sin_pi_div_pos hn
  have e : 2 * ((2 * np : ℕ) : ℝ) * (Real.pi / np) = 2 * Real.pi + 2 * Real.pi := by
    push_cast; field_simp; ring
  rw [e, Real.cos_add_two_pi, Real.cos_two_pi, sub_self] at h
  rcases mul_eq_zero.mp h with h | h
  · linarith
  · exact h

theorem psi_cc {np : ℕ} (hn : 2 ≤ np) :
    ∑ m ∈ Finset.range (2 * np), Real.cos (psiV np m) * Real.cos (psiV np m) = np := by
  have e : ∀ m, Real.cos (psiV np m) * Real.cos (psiV np m)
      = 2⁻¹ + Real.cos (2 * psiV np m) / 2 := by
    intro m; rw [Real.cos_two_mul]; ring
  rw [Finset.sum_congr rfl fun m _ => e m, Finset.sum_add_distrib, ← Finset.sum_div, psi_cos2 hn]
  simp; ring

theorem psi_ss {np : ℕ} (hn : 2 ≤ np) :
    ∑ m ∈ Finset.range (2 * np), Real.sin (psiV np m) * Real.sin (psiV np m) = np := by
  have e : ∀ m, Real.sin (psiV np m) * Real.sin (psiV np m)
      = 2⁻¹ - Real.cos (2 * psiV np m) / 2 := by
    intro m; rw [Real.cos_two_mul, Real.cos_sq']; ring
  rw [Finset.sum_congr rfl fun m _ => e m, Finset.sum_sub_distrib, ← Finset.sum_div, psi_cos2 hn]
  simp; ring

theorem psi_cs {np : ℕ} (hn : 2 ≤ np) :
    ∑ m ∈ Finset.range (2 * np), Real.cos (psiV np m) * Real.sin (psiV np m) = 0 := by
  have e : ∀ m, Real.cos (psiV np m) * Real.sin (psiV np m) = Real.sin (2 * psiV np m) / 2 := by
    intro m; rw [Real.sin_two_mul]; ring
  rw [Finset.sum_congr rfl fun m _ => e m, ← Finset.sum_div, psi_sin2 hn]; simp

/-! ### the cosines of `zeta` -/

theorem sum_odd (n : ℕ) (c : ℝ) :
    ∑ i ∈ Finset.range n, (c - 2 * (i : ℝ)) = n * (c - (n - 1)) := by
  induction n with
  | zero => simp
  | succ n ih => rw [Finset.sum_range_succ, ih]; push_cast; ring

theorem sum_odd_sq (n : ℕ) (c : ℝ) :
    ∑ i ∈ Finset.range n, (c - 2 * (i : ℝ)) ^ 2
      = n * c ^ 2 - 2 * c * n * (n - 1) + 2 * n * (n - 1) * (2 * n - 1) / 3 := by
  induction n with
  | zero => simp
  | succ n ih => rw [Finset.sum_range_succ, ih]; push_cast; ring

theorem coszetaF_eq (c : ℝ) {nz i : ℕ} (hz : 1 ≤ nz) :
    coszetaF c nz i = c * (nz - i) / nz := by
  have : (nz : ℝ) ≠ 0 := by positivity
  unfold coszetaF
  by_cases h : i = nz
  · subst h; simp
  · rw [if_neg h]; field_simp

/-- The factor applied to the midpoints. -/
noncomputable def zfac (polar : Bool) (c : ℝ) (nz : ℕ) : ℝ :=
  if polar then c / (2 * nz) else c / √(4 * nz * nz - 1)

theorem coszetaUp_eq (polar : Bool) (c : ℝ) {nz i : ℕ} (hz : 1 ≤ nz) :
    coszetaUp polar c nz i = zfac polar c nz * (2 * nz - 1 - 2 * i) := by
  have hn : (nz : ℝ) ≠ 0 := by positivity
  have h1 : (1:ℝ) ≤ nz := by exact_mod_cast hz
  have hs : √(4 * (nz:ℝ) * nz - 1) ≠ 0 := (Real.sqrt_pos.mpr (by nlinarith)).ne'
  unfold coszetaUp zfac
  simp only [coszetaF_eq c hz]
  cases polar
  · simp only [Bool.false_eq_true, if_false]; push_cast; field_simp; ring
  · simp only [if_true]; push_cast; field_simp; ring

theorem coszeta_eq (polar : Bool) (c : ℝ) {nz i : ℕ} (hz : 1 ≤ nz) (hi : i < 2 * nz) :
    coszeta polar c nz i = zfac polar c nz * (2 * nz - 1 - 2 * i) := by
  unfold coszeta
  by_cases h : i < nz
  · rw [if_pos h, coszetaUp_eq polar c hz]
  · rw [if_neg h, coszetaUp_eq polar c hz]
    have : ((2 * nz - i - 1 : ℕ) : ℝ) = 2 * nz - i - 1 := by
      have e : 2 * nz - i - 1 + i + 1 = 2 * nz := by omega
      have : (((2 * nz - i - 1 + i + 1 : ℕ)) : ℝ) = ((2 * nz : ℕ) : ℝ) := by rw [e]
      push_cast at this
      linarith
    rw [this]; ring

theorem coszeta_sum (polar : Bool) (c : ℝ) {nz : ℕ} (hz : 1 ≤ nz) :
    ∑ i ∈ Finset.range (2 * nz), coszeta polar c nz i = 0 := by
  rw [Finset.sum_congr rfl fun i hi => coszeta_eq polar c hz (Finset.mem_range.mp hi),
    ← Finset.mul_sum, sum_odd]
  push_cast; ring

theorem coszeta_sq (polar : Bool) (c : ℝ) {nz : ℕ} (hz : 1 ≤ nz) :
    ∑ i ∈ Finset.range (2 * nz), coszeta polar c nz i * coszeta polar c nz i
      = zfac polar c nz ^ 2 * (2 * nz * (4 * nz ^ 2 - 1) / 3) := by
  have e : ∀ i ∈ Finset.range (2 * nz), coszeta polar c nz i * coszeta polar c nz i
      = zfac polar c nz ^ 2 * (2 * nz - 1 - 2 * (i:ℝ)) ^ 2 := by
    intro i hi
    rw [coszeta_eq polar c hz (Finset.mem_range.mp hi)]; ring
  rw [Finset.sum_congr rfl e, ← Finset.mul_sum, sum_odd_sq]
  push_cast; ring

theorem zfac_sq_false {nz : ℕ} (hz : 1 ≤ nz) :
    zfac false 1 nz ^ 2 * (4 * (nz:ℝ) ^ 2 - 1) = 1 := by
  have h1 : (1:ℝ) ≤ nz := by exact_mod_cast hz
  have hp : (0:ℝ) < 4 * nz * nz - 1 := by nlinarith
  unfold zfac
  simp only [Bool.false_eq_true, if_false]
  rw [div_pow, Real.sq_sqrt hp.le]
  have : (4 * (nz:ℝ) ^ 2 - 1) = 4 * nz * nz - 1 := by ring
  rw [this, one_pow, one_div, inv_mul_cancel₀ hp.ne']

theorem coszeta_le_one_false {nz i : ℕ} (hz : 1 ≤ nz) (hi : i < 2 * nz) :
    coszeta false 1 nz i * coszeta false 1 nz i < 1 := by
  have h1 : (1:ℝ) ≤ nz := by exact_mod_cast hz
  rw [coszeta_eq false 1 hz hi]
  have hf := zfac_sq_false hz
  have hi' : (i:ℝ) + 1 ≤ 2 * nz := by exact_mod_cast hi
  have hi0 : (0:ℝ) ≤ i := by positivity
  have hb : (2 * (nz:ℝ) - 1 - 2 * i) ^ 2 ≤ (2 * nz - 1) ^ 2 := by nlinarith
  have hlt : (2 * (nz:ℝ) - 1) ^ 2 < 4 * nz ^ 2 - 1 := by nlinarith
  have hz2 : 0 < zfac false 1 nz ^ 2 := by
    by_contra hc
    have : zfac false 1 nz ^ 2 = 0 := le_antisymm (not_lt.mp hc) (sq_nonneg _)
    rw [this, zero_mul] at hf
    exact absurd hf (by norm_num)
  nlinarith

theorem coszeta_le_one_true {nz i : ℕ} (c : ℝ) (h0 : 0 ≤ c) (hc : c ≤ 1) (hz : 1 ≤ nz)
    (hi : i < 2 * nz) : coszeta true c nz i * coszeta true c nz i < 1 := by
  have h1 : (1:ℝ) ≤ nz := by exact_mod_cast hz
  rw [coszeta_eq true c hz hi]
  have hi' : (i:ℝ) + 1 ≤ 2 * nz := by exact_mod_cast hi
  have hi0 : (0:ℝ) ≤ i := by positivity
  have hb : (2 * (nz:ℝ) - 1 - 2 * i) ^ 2 ≤ (2 * nz - 1) ^ 2 := by nlinarith
  have hf : zfac true c nz * (2 * nz) = c := by
    unfold zfac; simp only [if_true]; field_simp
  have hlt : (2 * (nz:ℝ) - 1) ^ 2 < (2 * nz) ^ 2 := by nlinarith
  have h2 : (zfac true c nz * (2 * nz)) ^ 2 ≤ 1 := by rw [hf]; nlinarith
  have h3 : 0 ≤ zfac true c nz ^ 2 := sq_nonneg _
  rcases eq_or_lt_of_le h3 with h3 | h3
  · nlinarith
  · nlinarith

end Verif.Rad
