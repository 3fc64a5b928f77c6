import Verif.Lemmas.Refine
import Verif.Lemmas.Flux
import Mathlib.Algebra.BigOperators.Ring.Finset
import Mathlib.Algebra.Order.BigOperators.Group.Finset
import Mathlib.Tactic.LinearCombination
import Mathlib.Tactic.NormNum

/-!
# Restriction and prolongation of cell-centred variables

`RestrictCellCenteredValues` and `ProlongateCellCenteredValues` in exact arithmetic, for every range of coarse cells, in one, two and
three dimensions.
-/
namespace Verif.Grid
open Finset
variable {K : Type} [Field K] [LinearOrder K] [IsStrictOrderedRing K]
variable (d : Dims) (G Gc : Geom K) (C F : Crd K) (fine coarse : A4 K) (sn en : Int) (b : Box) (n k j i : Int)

/-- Restriction preserves the integral over every coarse cell of the range, whatever the (nonzero) volumes. -/
theorem restrict_integral (ho : d.Ok) (hn : sn ≤ n ∧ n ≤ en) (hb : b.Has d k j i) (hv : ∑ c ∈ fines d k j i, G.vol c ≠ 0) :
    (∑ c ∈ fines d k j i, G.vol c) * restrictCC d G fine sn en b.si b.ei b.sj b.ej b.sk b.ek coarse (n, k, j, i) =
      ∑ c ∈ fines d k j i, G.vol c * fine (n, c) := by
  rw [restrictCC_eq d ho G fine coarse sn en b n k j i hn hb, mul_div_cancel₀ _ hv]
  exact sum_congr rfl fun c _ => mul_comm _ _

/-- A restricted value lies between the smallest and the largest of the fine values. -/
theorem restrict_between (ho : d.Ok) (hn : sn ≤ n ∧ n ≤ en) (hb : b.Has d k j i) (hv : ∀ c ∈ fines d k j i, 0 < G.vol c)
    (lo hi : K) (hf : ∀ c ∈ fines d k j i, lo ≤ fine (n, c) ∧ fine (n, c) ≤ hi) :
    lo ≤ restrictCC d G fine sn en b.si b.ei b.sj b.ej b.sk b.ek coarse (n, k, j, i) ∧
      restrictCC d G fine sn en b.si b.ei b.sj b.ej b.sk b.ek coarse (n, k, j, i) ≤ hi := by
  have hne : (fines d k j i).Nonempty := ⟨(d.fk k, d.fj j, d.fi i), by rw [mem_fines]; simp⟩
  have hs : 0 < ∑ c ∈ fines d k j i, G.vol c := sum_pos hv hne
  rw [restrictCC_eq d ho G fine coarse sn en b n k j i hn hb, le_div_iff₀ hs, div_le_iff₀ hs, mul_sum, mul_sum]
  exact ⟨sum_le_sum fun c hc => mul_le_mul_of_nonneg_right (hf c hc).1 (hv c hc).le,
    sum_le_sum fun c hc => mul_le_mul_of_nonneg_right (hf c hc).2 (hv c hc).le⟩

/-- Restriction writes nothing outside the range. -/
theorem restrict_elsewhere (ho : d.Ok) (h : ¬ (sn ≤ n ∧ n ≤ en ∧ b.Has d k j i)) :
    restrictCC d G fine sn en b.si b.ei b.sj b.ej b.sk b.ek coarse (n, k, j, i) = coarse (n, k, j, i) :=
  restrictCC_keep d ho G fine coarse sn en b n k j i h

theorem cover1 (f : Int → K) (h : 0 < d.nx1 ∧ d.nx1 % 2 = 0) :
    ∑ i ∈ Icc d.is d.ie, f i = ∑ ci ∈ Icc d.cis d.cie, ∑ i ∈ d.ii ci, f i := by
  unfold Dims.is Dims.ie Dims.cie Dims.cis Dims.ii Dims.fi
  rw [sum_pairs d.ng (d.ng + d.nx1 - 1) d.ng (d.nx1 / 2) (by omega) (by omega)]
  apply sum_congr rfl
  intro t _
  rw [sum_two]
  unfold Dims.is Dims.cis
  rw [show (t - d.ng) * 2 + d.ng = d.ng + 2 * (t - d.ng) by ring]

theorem cover2 (f : Int → K) (h : d.nx2 = 1 ∨ (1 < d.nx2 ∧ d.nx2 % 2 = 0)) :
    ∑ i ∈ Icc d.js d.je, f i = ∑ ci ∈ Icc d.cjs d.cje, ∑ i ∈ d.jj ci, f i := by
  unfold Dims.jj Dims.fj Dims.cje Dims.cjs Dims.js Dims.je
  rcases h with h | ⟨h, h'⟩
  · have h1 : ¬ d.nx2 > 1 := by omega
    simp only [if_neg h1]
    simp
  · simp only [if_pos h]
    rw [sum_pairs d.ng (d.ng + d.nx2 - 1) d.ng (d.nx2 / 2) (by omega) (by omega)]
    apply sum_congr rfl
    intro t _
    rw [sum_two]
    rw [show (t - d.ng) * 2 + d.ng = d.ng + 2 * (t - d.ng) by ring]

theorem cover3 (f : Int → K) (h : d.nx3 = 1 ∨ (1 < d.nx3 ∧ d.nx3 % 2 = 0)) :
    ∑ i ∈ Icc d.ks d.ke, f i = ∑ ci ∈ Icc d.cks d.cke, ∑ i ∈ d.kk ci, f i := by
  unfold Dims.kk Dims.fk Dims.cke Dims.cks Dims.ks Dims.ke
  rcases h with h | ⟨h, h'⟩
  · have h1 : ¬ d.nx3 > 1 := by omega
    simp only [if_neg h1]
    simp
  · simp only [if_pos h]
    rw [sum_pairs d.ng (d.ng + d.nx3 - 1) d.ng (d.nx3 / 2) (by omega) (by omega)]
    apply sum_congr rfl
    intro t _
    rw [sum_two]
    rw [show (t - d.ng) * 2 + d.ng = d.ng + 2 * (t - d.ng) by ring]

/-- Restriction of a whole block preserves the integral over the block. -/
theorem restrict_block_integral (ho : d.Ok) (hn : sn ≤ n ∧ n ≤ en)
    (hv : ∀ k j i, ∑ c ∈ fines d k j i, G.vol c ≠ 0) (hG : ∀ k j i, Gc.vol (k, j, i) = ∑ c ∈ fines d k j i, G.vol c) :
    ∑ k ∈ Icc d.cks d.cke, ∑ j ∈ Icc d.cjs d.cje, ∑ i ∈ Icc d.cis d.cie,
        Gc.vol (k, j, i) * restrictCC d G fine sn en d.cis d.cie d.cjs d.cje d.cks d.cke coarse (n, k, j, i) =
      content d G fine n := by
  unfold content
  rw [cover3 d _ ho.x3]
  apply sum_congr rfl; intro k hk
  rw [sum_congr rfl (fun k' _ => cover2 d _ ho.x2)]
  conv_rhs => rw [sum_comm]
  apply sum_congr rfl; intro j hj
  rw [sum_congr rfl (fun k' _ => sum_congr rfl (fun j' _ => cover1 d _ ho.x1)), sum_congr rfl (fun k' _ => sum_comm)]
  conv_rhs => rw [sum_comm]
  apply sum_congr rfl; intro i hi
  have hb : (Box.mk d.cis d.cie d.cjs d.cje d.cks d.cke).Has d k j i := by
    rw [mem_Icc] at hk hj hi
    refine ⟨hi, ?_, ?_⟩
    · split
      · exact hj
      · next h => unfold Dims.cjs Dims.cje at hj; rw [if_neg h, if_neg h] at hj; omega
    · split
      · exact hk
      · next h => unfold Dims.cks Dims.cke at hk; rw [if_neg h, if_neg h] at hk; omega
  have := restrict_integral d G fine coarse sn en _ n k j i ho hn hb (hv k j i)
  simp only at this
  rw [hG, this]
  unfold fines
  simp only [sum_product]

/-- Prolongation preserves the integral over every coarse cell whose centre is the centre of volume of its fine cells. -/
theorem prolong_integral (ho : d.Ok) (hn : sn ≤ n ∧ n ≤ en) (hb : b.Has d k j i) (hc : Centred d G C F k j i) :
    ∑ c ∈ fines d k j i, G.vol c * prolongCC d C F coarse sn en b.si b.ei b.sj b.ej b.sk b.ek fine (n, c) =
      (∑ c ∈ fines d k j i, G.vol c) * coarse (n, k, j, i) := by
  have e : ∑ c ∈ fines d k j i, G.vol c * prolongCC d C F coarse sn en b.si b.ei b.sj b.ej b.sk b.ek fine (n, c) =
      (∑ c ∈ fines d k j i, G.vol c) * coarse (n, k, j, i)
      + g1 C coarse n k j i * ∑ c ∈ fines d k j i, G.vol c * (F.x1v c.2.2 - C.x1v i)
      + g2 d C coarse n k j i * ∑ c ∈ fines d k j i, G.vol c * (F.x2v c.2.1 - C.x2v j)
      + g3 d C coarse n k j i * ∑ c ∈ fines d k j i, G.vol c * (F.x3v c.1 - C.x3v k) := by
    rw [sum_mul, mul_sum, mul_sum, mul_sum, ← sum_add_distrib, ← sum_add_distrib, ← sum_add_distrib]
    apply sum_congr rfl
    intro c hc
    rw [prolongCC_eq d ho C F fine coarse sn en b n k j i hn hb c hc]
    ring
  rw [e, hc.x1]
  have e2 : g2 d C coarse n k j i * ∑ c ∈ fines d k j i, G.vol c * (F.x2v c.2.1 - C.x2v j) = 0 := by
    by_cases h : 1 < d.nx2
    · rw [hc.x2 h, mul_zero]
    · unfold g2; rw [if_neg h, zero_mul]
  have e3 : g3 d C coarse n k j i * ∑ c ∈ fines d k j i, G.vol c * (F.x3v c.1 - C.x3v k) = 0 := by
    by_cases h : 1 < d.nx3
    · rw [hc.x3 h, mul_zero]
    · unfold g3; rw [if_neg h, zero_mul]
  rw [e2, e3]; ring

/-- Prolongation creates no new extrema: the fine values lie between bounds of the coarse value and of its neighbours in each direction. -/
theorem prolong_between (ho : d.Ok) (hn : sn ≤ n ∧ n ≤ en) (hb : b.Has d k j i)
    (t1 : Third C.x1v F.x1v i (d.fi i)) (t2 : 1 < d.nx2 → Third C.x2v F.x2v j (d.fj j)) (t3 : 1 < d.nx3 → Third C.x3v F.x3v k (d.fk k))
    (lo hi : K) (bc : lo ≤ coarse (n, k, j, i) ∧ coarse (n, k, j, i) ≤ hi)
    (b1 : ∀ i', i' = i - 1 ∨ i' = i + 1 → lo ≤ coarse (n, k, j, i') ∧ coarse (n, k, j, i') ≤ hi)
    (b2 : 1 < d.nx2 → ∀ j', j' = j - 1 ∨ j' = j + 1 → lo ≤ coarse (n, k, j', i) ∧ coarse (n, k, j', i) ≤ hi)
    (b3 : 1 < d.nx3 → ∀ k', k' = k - 1 ∨ k' = k + 1 → lo ≤ coarse (n, k', j, i) ∧ coarse (n, k', j, i) ≤ hi)
    (c : Int × Int × Int) (hc : c ∈ fines d k j i) :
    lo ≤ prolongCC d C F coarse sn en b.si b.ei b.sj b.ej b.sk b.ek fine (n, c) ∧
      prolongCC d C F coarse sn en b.si b.ei b.sj b.ej b.sk b.ek fine (n, c) ≤ hi := by
  rw [prolongCC_eq d ho C F fine coarse sn en b n k j i hn hb c hc]
  obtain ⟨hk, hj, hi'⟩ := (mem_fines d k j i c).1 hc
  have h13 : (0 : K) ≤ 1 / 3 := by norm_num
  have s1 := slope_bound (coarse (n, k, j, i-1)) (coarse (n, k, j, i)) (coarse (n, k, j, i+1)) (C.x1v i - C.x1v (i-1))
    (C.x1v (i+1) - C.x1v i) (F.x1v c.2.2 - C.x1v i) (1/3) lo hi t1.m t1.p h13
    (by have := t1.lo c.2.2 (by omega) (by omega); linarith) (by have := t1.hi c.2.2 (by omega) (by omega); linarith)
    (b1 _ (Or.inl rfl)) bc (b1 _ (Or.inr rfl))
  have s2 : 1 / 3 * (lo - coarse (n, k, j, i)) ≤ g2 d C coarse n k j i * (F.x2v c.2.1 - C.x2v j) ∧
      g2 d C coarse n k j i * (F.x2v c.2.1 - C.x2v j) ≤ 1 / 3 * (hi - coarse (n, k, j, i)) := by
    unfold g2
    split
    · next h =>
      have t := t2 h
      exact slope_bound _ _ _ _ _ _ (1/3) lo hi t.m t.p h13
        (by have := t.lo c.2.1 (by omega) (by omega); linarith) (by have := t.hi c.2.1 (by omega) (by omega); linarith)
        (b2 h _ (Or.inl rfl)) bc (b2 h _ (Or.inr rfl))
    · constructor <;> linarith
  have s3 : 1 / 3 * (lo - coarse (n, k, j, i)) ≤ g3 d C coarse n k j i * (F.x3v c.1 - C.x3v k) ∧
      g3 d C coarse n k j i * (F.x3v c.1 - C.x3v k) ≤ 1 / 3 * (hi - coarse (n, k, j, i)) := by
    unfold g3
    split
    · next h =>
      have t := t3 h
      exact slope_bound _ _ _ _ _ _ (1/3) lo hi t.m t.p h13
        (by have := t.lo c.1 (by omega) (by omega); linarith) (by have := t.hi c.1 (by omega) (by omega); linarith)
        (b3 h _ (Or.inl rfl)) bc (b3 h _ (Or.inr rfl))
    · constructor <;> linarith
  have s1' : 1 / 3 * (lo - coarse (n, k, j, i)) ≤ g1 C coarse n k j i * (F.x1v c.2.2 - C.x1v i) ∧
      g1 C coarse n k j i * (F.x1v c.2.2 - C.x1v i) ≤ 1 / 3 * (hi - coarse (n, k, j, i)) := s1
  constructor <;> linarith [s1'.1, s1'.2, s2.1, s2.2, s3.1, s3.2]

/-- Prolongation is exact on data that vary linearly with position. -/
theorem prolong_linear (ho : d.Ok) (hn : sn ≤ n ∧ n ≤ en) (hb : b.Has d k j i)
    (x1 : ∀ i, C.x1v i < C.x1v (i+1)) (x2 : ∀ j, C.x2v j < C.x2v (j+1)) (x3 : ∀ k, C.x3v k < C.x3v (k+1))
    (a p q r : K) (hl : ∀ k j i, coarse (n, k, j, i) = a + p * C.x1v i + (if 1 < d.nx2 then q * C.x2v j else 0)
      + (if 1 < d.nx3 then r * C.x3v k else 0)) (c : Int × Int × Int) (hc : c ∈ fines d k j i) :
    prolongCC d C F coarse sn en b.si b.ei b.sj b.ej b.sk b.ek fine (n, c) =
      a + p * F.x1v c.2.2 + (if 1 < d.nx2 then q * F.x2v c.2.1 else 0) + (if 1 < d.nx3 then r * F.x3v c.1 else 0) := by
  rw [prolongCC_eq d ho C F fine coarse sn en b n k j i hn hb c hc]
  have m1 : C.x1v i - C.x1v (i-1) ≠ 0 := by have := x1 (i-1); rw [sub_add_cancel] at this; exact (sub_pos.2 this).ne'
  have m2 : C.x2v j - C.x2v (j-1) ≠ 0 := by have := x2 (j-1); rw [sub_add_cancel] at this; exact (sub_pos.2 this).ne'
  have m3 : C.x3v k - C.x3v (k-1) ≠ 0 := by have := x3 (k-1); rw [sub_add_cancel] at this; exact (sub_pos.2 this).ne'
  have p1 : C.x1v (i+1) - C.x1v i ≠ 0 := (sub_pos.2 (x1 i)).ne'
  have p2 : C.x2v (j+1) - C.x2v j ≠ 0 := (sub_pos.2 (x2 j)).ne'
  have p3 : C.x3v (k+1) - C.x3v k ≠ 0 := (sub_pos.2 (x3 k)).ne'
  have e1 : g1 C coarse n k j i = p := by
    have h := slope_linear p (coarse (n, k, j, i)) _ _ m1 p1
    unfold g1
    rw [show coarse (n, k, j, i-1) = coarse (n, k, j, i) - p * (C.x1v i - C.x1v (i-1)) by rw [hl, hl]; ring,
      show coarse (n, k, j, i+1) = coarse (n, k, j, i) + p * (C.x1v (i+1) - C.x1v i) by rw [hl, hl]; ring, h]
  have e2 : g2 d C coarse n k j i = if 1 < d.nx2 then q else 0 := by
    have h := slope_linear q (coarse (n, k, j, i)) _ _ m2 p2
    unfold g2
    split
    · next hx =>
      rw [show coarse (n, k, j-1, i) = coarse (n, k, j, i) - q * (C.x2v j - C.x2v (j-1)) by rw [hl, hl, if_pos hx, if_pos hx]; ring,
        show coarse (n, k, j+1, i) = coarse (n, k, j, i) + q * (C.x2v (j+1) - C.x2v j) by rw [hl, hl, if_pos hx, if_pos hx]; ring, h]
    · rfl
  have e3 : g3 d C coarse n k j i = if 1 < d.nx3 then r else 0 := by
    have h := slope_linear r (coarse (n, k, j, i)) _ _ m3 p3
    unfold g3
    split
    · next hx =>
      rw [show coarse (n, k-1, j, i) = coarse (n, k, j, i) - r * (C.x3v k - C.x3v (k-1)) by rw [hl, hl, if_pos hx, if_pos hx]; ring,
        show coarse (n, k+1, j, i) = coarse (n, k, j, i) + r * (C.x3v (k+1) - C.x3v k) by rw [hl, hl, if_pos hx, if_pos hx]; ring, h]
    · rfl
  rw [e1, e2, e3, hl]
  split <;> split <;> ring

/-- Prolongation writes the fine cells of the coarse cells of the range and nothing else. -/
theorem prolong_elsewhere (ho : d.Ok) (c : Int × Int × Int) (h : ∀ k j i, sn ≤ n → n ≤ en → b.Has d k j i → c ∉ fines d k j i) :
    prolongCC d C F coarse sn en b.si b.ei b.sj b.ej b.sk b.ek fine (n, c) = fine (n, c) :=
  prolongCC_keep d ho C F fine coarse sn en b n c h

/-- Restricting prolongated data gives the coarse data back. -/
theorem restrict_prolong (ho : d.Ok) (hn : sn ≤ n ∧ n ≤ en) (hb : b.Has d k j i) (hc : Centred d G C F k j i)
    (hv : ∑ c ∈ fines d k j i, G.vol c ≠ 0) (coarse' : A4 K) :
    restrictCC d G (prolongCC d C F coarse sn en b.si b.ei b.sj b.ej b.sk b.ek fine) sn en b.si b.ei b.sj b.ej b.sk b.ek coarse' (n, k, j, i)
      = coarse (n, k, j, i) := by
  have h1 := restrict_integral d G (prolongCC d C F coarse sn en b.si b.ei b.sj b.ej b.sk b.ek fine) coarse' sn en b n k j i ho hn hb hv
  rw [prolong_integral d G C F fine coarse sn en b n k j i ho hn hb hc] at h1
  exact mul_left_cancel₀ hv h1

/-- A uniform Cartesian mesh meets the conditions of `prolong_integral`, `restrict_prolong` and `prolong_between`. -/
theorem uniform_conditions (h1 h2 h3 o1 o2 o3 v : K) (hu : Uniform d G C F h1 h2 h3 o1 o2 o3 v) :
    Centred d G C F k j i ∧ Third C.x1v F.x1v i (d.fi i) ∧ Third C.x2v F.x2v j (d.fj j) ∧ Third C.x3v F.x3v k (d.fk k) := by
  obtain ⟨⟨p1, p2, p3⟩, f1, f2, f3, c1, c2, c3, hv⟩ := hu
  have lin : ∀ (C F : Int → K) (o h : K) (f : Int → Int) (f0 : Int) (hf : ∀ a, f a = 2 * a + f0) (hp : 0 < h)
      (hF : ∀ i : Int, F i = o + h * (i + 1/2)) (hC : ∀ i : Int, C i = o + h * (f i + 1)) (i : Int),
      F (f i) - C i = -(h/2) ∧ F (f i + 1) - C i = h/2 ∧ Third C F i (f i) := by
    intro C F o h f f0 hf hp hF hC i
    have a1 : F (f i) - C i = -(h/2) := by rw [hF, hC]; ring
    have a2 : F (f i + 1) - C i = h/2 := by rw [hF, hC]; push_cast; ring
    have a3 : C i - C (i-1) = 2 * h := by rw [hC, hC, hf, hf]; push_cast; ring
    have a4 : C (i+1) - C i = 2 * h := by rw [hC, hC, hf, hf]; push_cast; ring
    refine ⟨a1, a2, by rw [a3]; linarith, by rw [a4]; linarith, ?_, ?_⟩
    · intro a ha ha'
      rw [a3]
      rcases (by omega : a = f i ∨ a = f i + 1) with rfl | rfl
      · rw [a1]; linarith
      · rw [a2]; linarith
    · intro a ha ha'
      rw [a4]
      rcases (by omega : a = f i ∨ a = f i + 1) with rfl | rfl
      · rw [a1]; linarith
      · rw [a2]; linarith
  obtain ⟨x1m, x1p, x1t⟩ := lin C.x1v F.x1v o1 h1 d.fi _ d.fi_lin p1 f1 c1 i
  obtain ⟨x2m, x2p, x2t⟩ := lin C.x2v F.x2v o2 h2 d.fj _ d.fj_lin p2 f2 c2 j
  obtain ⟨x3m, x3p, x3t⟩ := lin C.x3v F.x3v o3 h3 d.fk _ d.fk_lin p3 f3 c3 k
  refine ⟨?_, x1t, x2t, x3t⟩
  by_cases n3 : 1 < d.nx3 <;> by_cases n2 : 1 < d.nx2
  · constructor
    · rw [sum_fines3 d n2 n3]; simp only [hv, x1m, x1p]; ring
    · intro _; rw [sum_fines3 d n2 n3]; simp only [hv, x2m, x2p]; ring
    · intro _; rw [sum_fines3 d n2 n3]; simp only [hv, x3m, x3p]; ring
  · constructor
    · unfold fines Dims.kk Dims.jj Dims.ii; rw [if_pos n3, if_neg n2]
      simp only [sum_product, sum_two, Icc_self, sum_singleton, hv, x1m, x1p]; ring
    · intro h; exact absurd h n2
    · intro _; unfold fines Dims.kk Dims.jj Dims.ii; rw [if_pos n3, if_neg n2]
      simp only [sum_product, sum_two, Icc_self, sum_singleton, hv, x3m, x3p]; ring
  · constructor
    · rw [sum_fines2 d n2 n3]; simp only [hv, x1m, x1p]; ring
    · intro _; rw [sum_fines2 d n2 n3]; simp only [hv, x2m, x2p]; ring
    · intro h; exact absurd h n3
  · constructor
    · rw [sum_fines1 d n2 n3]; simp only [hv, x1m, x1p]; ring
    · intro h; exact absurd h n2
    · intro h; exact absurd h n3

/-! A three-dimensional uniform mesh of 4x4x4 blocks with two ghost cells meets the hypotheses; prolongation of `x1 + x2^2` there. -/
section sample
def smpD : Dims := ⟨2, 4, 4, 4⟩
def smpF : Crd Rat where
  x1v := fun i => i + 1/2
  x2v := fun i => i + 1/2
  x3v := fun i => i + 1/2
  x1s2 := fun i => i + 1/2
  x1s3 := fun i => i + 1/2
  x2s1 := fun i => i + 1/2
  x2s3 := fun i => i + 1/2
  x3s1 := fun i => i + 1/2
  x3s2 := fun i => i + 1/2
  dx1f := fun _ => 1
def smpC : Crd Rat where
  x1v := fun i => smpD.fi i + 1
  x2v := fun i => smpD.fj i + 1
  x3v := fun i => smpD.fk i + 1
  x1s2 := fun i => smpD.fi i + 1
  x1s3 := fun i => smpD.fi i + 1
  x2s1 := fun i => smpD.fj i + 1
  x2s3 := fun i => smpD.fj i + 1
  x3s1 := fun i => smpD.fk i + 1
  x3s2 := fun i => smpD.fk i + 1
  dx1f := fun _ => 2
def smpG : Geom Rat := ⟨fun _ => 1, fun _ => 1, fun _ => 1, fun _ => 1⟩
def smpU : A4 Rat := fun q => smpC.x1v q.2.2.2 + smpC.x2v q.2.2.1 ^ 2

example : smpD.Ok ∧ (Box.mk 2 3 2 3 2 3).Has smpD 3 2 2 ∧ Uniform smpD smpG smpC smpF 1 1 1 0 0 0 1 := by
  refine ⟨⟨by decide, by decide, by decide, by decide⟩, ⟨by decide, by decide, by decide⟩, ?_⟩
  refine ⟨by norm_num, ?_, ?_, ?_, ?_, ?_, ?_, ?_⟩ <;> intro i <;> simp [smpF, smpC, smpG]

example : prolongCC smpD smpC smpF smpU 0 0 2 3 2 3 2 3 (fun _ => 0) (0, 5, 3, 2) = 5/2 + 9 + 2 := by
  have h := prolongCC_eq smpD ⟨by decide, by decide, by decide, by decide⟩ smpC smpF (fun _ => 0) smpU 0 0 (Box.mk 2 3 2 3 2 3) 0 3 2 2
    (by decide) ⟨by decide, by decide, by decide⟩ (5, 3, 2) (by decide)
  simp only at h
  rw [h]
  simp [g1, g2, g3, slope, sign, smpU, smpC, smpF, smpD, Dims.fi, Dims.fj, Dims.fk, Dims.cis, Dims.cjs, Dims.cks, Dims.is, Dims.js, Dims.ks]
  norm_num [abs_of_pos]
end sample

end Verif.Grid
