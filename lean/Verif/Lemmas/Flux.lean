import Verif.Lemmas.Grid
import Verif.Spec.Flux
import Mathlib.Algebra.BigOperators.Group.Finset.Sigma
import Mathlib.Tactic.FieldSimp
import Mathlib.Tactic.FinCases
import Mathlib.Tactic.IntervalCases

/-! Helper lemmas for flux divergence and flux correction. -/
namespace Verif.Grid
open Verif.Arr
variable {K : Type} [Field K]

theorem Dims.Ok.jrange {d : Dims} (h : d.Ok) : d.je = d.js + d.nx2 - 1 := by
  unfold Dims.je Dims.js; rcases h.x2 with h | h <;> split <;> omega
theorem Dims.Ok.krange {d : Dims} (h : d.Ok) : d.ke = d.ks + d.nx3 - 1 := by
  unfold Dims.ke Dims.ks; rcases h.x3 with h | h <;> split <;> omega
theorem Dims.irange (d : Dims) : d.ie = d.is + d.nx1 - 1 := rfl

/-! ## Flux divergence -/

theorem addFlux_in (d : Dims) (nv : Nat) (G : Geom K) (F : Flx K) (w : K) (u : A4 K) {n k j i : Int}
    (hn : 0 ≤ n ∧ n < nv) (hk : d.ks ≤ k ∧ k ≤ d.ke) (hj : d.js ≤ j ∧ j ≤ d.je) (hi : d.is ≤ i ∧ i ≤ d.ie) :
    addFluxDivergence d nv G F w u (n, k, j, i) = u (n, k, j, i) - w * dflx d G F n k j i / G.vol (k, j, i) := by
  have h := fold_in (prodL (rng d.ks d.ke) (prodL (rng d.js d.je) (prodL (rng 0 (nv - 1)) (rng d.is d.ie))))
    (fun x => (x.2.2.1, x.1, x.2.1, x.2.2.2))
    (fun x u => u (x.2.2.1, x.1, x.2.1, x.2.2.2) - w * dflx d G F x.2.2.1 x.1 x.2.1 x.2.2.2 / G.vol (x.1, x.2.1, x.2.2.2))
    u ((nodup_prodL (nodup_rng _ _) (nodup_prodL (nodup_rng _ _) (nodup_prodL (nodup_rng _ _) (nodup_rng _ _)))).map
      (by rintro ⟨a, b, c, e⟩ ⟨a', b', c', e'⟩ h; simp only [Prod.mk.injEq] at h ⊢; tauto))
    (by intro x _ st h1 _; simp only [h1])
    (k, j, n, i) (by simp only [mem_prodL, mem_rng]; omega)
  simp only [foldl_prodL] at h
  exact h

theorem addFlux_out (d : Dims) (nv : Nat) (G : Geom K) (F : Flx K) (w : K) (u : A4 K) {n k j i : Int}
    (h : ¬ ((0 ≤ n ∧ n < nv) ∧ (d.ks ≤ k ∧ k ≤ d.ke) ∧ (d.js ≤ j ∧ j ≤ d.je) ∧ (d.is ≤ i ∧ i ≤ d.ie))) :
    addFluxDivergence d nv G F w u (n, k, j, i) = u (n, k, j, i) := by
  have h := fold_out (prodL (rng d.ks d.ke) (prodL (rng d.js d.je) (prodL (rng 0 (nv - 1)) (rng d.is d.ie))))
    (fun x => (x.2.2.1, x.1, x.2.1, x.2.2.2))
    (fun x u => u (x.2.2.1, x.1, x.2.1, x.2.2.2) - w * dflx d G F x.2.2.1 x.1 x.2.1 x.2.2.2 / G.vol (x.1, x.2.1, x.2.2.2))
    u (n, k, j, i) (by
      rw [List.mem_map]; rintro ⟨⟨a, b, c, e⟩, h1, h2⟩
      simp only [mem_prodL, mem_rng, Prod.mk.injEq] at h1 h2
      apply h; omega)
  simp only [foldl_prodL] at h
  exact h

open Finset in
theorem sum_dflx {d : Dims} (hd : d.Ok) (G : Geom K) (F : Flx K) (n : Int) :
    ∑ k ∈ Icc d.ks d.ke, ∑ j ∈ Icc d.js d.je, ∑ i ∈ Icc d.is d.ie, dflx d G F n k j i =
      ∑ f ∈ range 6, outflow d G F n f := by
  have hi : d.is ≤ d.ie + 1 := by have := hd.x1; have := d.irange; omega
  have hj : d.js ≤ d.je + 1 := by have := hd.x2; have := hd.jrange; omega
  have hk : d.ks ≤ d.ke + 1 := by have := hd.x3; have := hd.krange; omega
  have e1 : ∀ k j, ∑ i ∈ Icc d.is d.ie, (G.a1 (k, j, i+1) * F.x1 (n, k, j, i+1) - G.a1 (k, j, i) * F.x1 (n, k, j, i)) =
      G.a1 (k, j, d.ie+1) * F.x1 (n, k, j, d.ie+1) - G.a1 (k, j, d.is) * F.x1 (n, k, j, d.is) := fun k j =>
    sum_telescope d.is d.ie hi (fun i => G.a1 (k, j, i) * F.x1 (n, k, j, i))
  have e2 : ∀ k, ∑ j ∈ Icc d.js d.je, ∑ i ∈ Icc d.is d.ie,
      (G.a2 (k, j+1, i) * F.x2 (n, k, j+1, i) - G.a2 (k, j, i) * F.x2 (n, k, j, i)) =
      ∑ i ∈ Icc d.is d.ie, (G.a2 (k, d.je+1, i) * F.x2 (n, k, d.je+1, i) - G.a2 (k, d.js, i) * F.x2 (n, k, d.js, i)) := fun k => by
    rw [sum_comm]; apply sum_congr rfl; intro i _
    exact sum_telescope d.js d.je hj (fun j => G.a2 (k, j, i) * F.x2 (n, k, j, i))
  have e3 : ∑ k ∈ Icc d.ks d.ke, ∑ j ∈ Icc d.js d.je, ∑ i ∈ Icc d.is d.ie,
      (G.a3 (k+1, j, i) * F.x3 (n, k+1, j, i) - G.a3 (k, j, i) * F.x3 (n, k, j, i)) =
      ∑ j ∈ Icc d.js d.je, ∑ i ∈ Icc d.is d.ie,
        (G.a3 (d.ke+1, j, i) * F.x3 (n, d.ke+1, j, i) - G.a3 (d.ks, j, i) * F.x3 (n, d.ks, j, i)) := by
    rw [sum_comm]; apply sum_congr rfl; intro j _
    rw [sum_comm]; apply sum_congr rfl; intro i _
    exact sum_telescope d.ks d.ke hk (fun k => G.a3 (k, j, i) * F.x3 (n, k, j, i))
  have hs : ∀ k j i, dflx d G F n k j i =
      (G.a1 (k, j, i+1) * F.x1 (n, k, j, i+1) - G.a1 (k, j, i) * F.x1 (n, k, j, i))
      + (if 1 < d.nx2 then G.a2 (k, j+1, i) * F.x2 (n, k, j+1, i) - G.a2 (k, j, i) * F.x2 (n, k, j, i) else 0)
      + (if 1 < d.nx3 then G.a3 (k+1, j, i) * F.x3 (n, k+1, j, i) - G.a3 (k, j, i) * F.x3 (n, k, j, i) else 0) := by
    intro k j i; unfold dflx; simp only [gt_iff_lt]; split <;> split <;> ring
  simp only [hs, sum_add_distrib, e1]
  rw [sum_range_succ, sum_range_succ, sum_range_succ, sum_range_succ, sum_range_succ, sum_range_one]
  by_cases h2 : 1 < d.nx2 <;> by_cases h3 : 1 < d.nx3 <;> simp only [h2, h3, if_true, if_false, e2, e3] <;>
    simp [sum_sub_distrib, outflow, outflowOn, Active, h2, h3, ylo, yhi, xlo, xhi, faceArea, faceFlux, faceIdx] <;> ring

/-! ## Flux correction -/

/-- The value sent for a coarse cell face. -/
def cval (d : Dims) (G : Geom K) (F : Flx K) (f f1 f2 : Nat) (n y x : Int) : K :=
  if 1 < nx d f then
    kidSum d f f1 f2 y x (fun y' x' => faceFlux d F f n y' x' * faceArea d G f y' x') /
      kidSum d f f1 f2 y x (faceArea d G f)
  else faceFlux d F f n (ylo d f) (xlo d f)

theorem Dims.Ok.ny_cases {d : Dims} (h : d.Ok) (f : Nat) : ny d f = 1 ∨ (1 < ny d f ∧ ny d f % 2 = 0) := by
  unfold ny; split
  · exact h.x3
  · exact h.x2
theorem Dims.Ok.nx_cases {d : Dims} (h : d.Ok) (f : Nat) : nx d f = 1 ∨ (1 < nx d f ∧ nx d f % 2 = 0) := by
  unfold nx; split
  · exact h.x2
  · have := h.x1; omega
theorem Dims.Ok.y_range {d : Dims} (h : d.Ok) (f : Nat) : yhi d f = ylo d f + ny d f - 1 := by
  unfold yhi ylo ny; split
  · exact h.krange
  · exact h.jrange
theorem Dims.Ok.x_range {d : Dims} (h : d.Ok) (f : Nat) : xhi d f = xlo d f + nx d f - 1 := by
  unfold xhi xlo nx; split
  · exact h.jrange
  · exact d.irange

theorem subY_len {d : Dims} (h : d.Ok) {f f2 : Nat} (h1 : 1 < ny d f) :
    (subY d f f2).2 = (subY d f f2).1 + ny d f / 2 - 1 := by
  have := h.y_range f; have := h.ny_cases f
  unfold subY; split <;> simp only <;> omega
theorem subX_len {d : Dims} (h : d.Ok) {f f1 : Nat} (h1 : 1 < nx d f) :
    (subX d f f1).2 = (subX d f f1).1 + nx d f / 2 - 1 := by
  have := h.x_range f; have := h.nx_cases f
  unfold subX; split <;> simp only <;> omega

theorem subY_one {d : Dims} (h : d.Ok) {f : Nat} (h1 : ny d f = 1) : subY d f 0 = (ylo d f, ylo d f) := by
  have := h.y_range f
  unfold subY; simp [h1]; omega
theorem subX_one {d : Dims} (h : d.Ok) {f : Nat} (h1 : nx d f = 1) : subX d f 0 = (xlo d f, xlo d f) := by
  have := h.x_range f
  unfold subX; simp [h1]; omega

theorem rng2_y {d : Dims} (h : d.Ok) (f f2 : Nat) (h1 : 1 < ny d f) :
    rng2 (ylo d f) (yhi d f) =
      (rng (subY d f f2).1 (subY d f f2).2).map fun t => ylo d f + 2 * (t - (subY d f f2).1) := by
  rw [subY_len h h1]
  apply rng2_eq
  have := h.y_range f; have := h.ny_cases f; omega
theorem rng2_x {d : Dims} (h : d.Ok) (f f1 : Nat) (h1 : 1 < nx d f) :
    rng2 (xlo d f) (xhi d f) =
      (rng (subX d f f1).1 (subX d f f1).2).map fun t => xlo d f + 2 * (t - (subX d f f1).1) := by
  rw [subX_len h h1]
  apply rng2_eq
  have := h.x_range f; have := h.nx_cases f; omega

theorem rng_one (s : Int) : rng s s = [s] := by
  unfold rng; have : (s + 1 - s).toNat = 1 := by omega
  rw [this]; simp

/-- Rows of the buffer in the form of the three loops. -/
theorem prodL_map3 {α : Type} (a b c : List Int) (g : Int → Int → Int → α) :
    (prodL a (prodL b c)).map (fun x => g x.1 x.2.1 x.2.2) =
      a.flatMap fun n => b.flatMap fun y => c.map fun x => g n y x := by
  simp [prodL, List.map_flatMap, Function.comp_def]

theorem load_eq {d : Dims} (hd : d.Ok) (nl nu : Int) (G : Geom K) (F : Flx K) {f f1 f2 : Nat} (ha : Active d f)
    (hs : Slot d f f1 f2) :
    loadToCoarser d nl nu G F f =
      (prodL (rng nl nu) (prodL (rng (subY d f f2).1 (subY d f f2).2) (rng (subX d f f1).1 (subX d f f1).2))).map
        (fun x => cval d G F f f1 f2 x.1 x.2.1 x.2.2) := by
  obtain ⟨hf1, hf2, hs1, hs2⟩ := hs
  rw [prodL_map3]
  have hf : f < 6 := by unfold Active at ha; omega
  by_cases hy : 1 < ny d f
  · have hx : 1 < nx d f := by
      have := hd.ord; have := hd.x1; unfold ny nx at *; split at hy <;> split <;> omega
    have ey := rng2_y hd f f2 hy
    have ex := rng2_x hd f f1 hx
    interval_cases f <;> simp only [ylo, yhi, xlo, xhi, ny, nx] at ey ex hx hy <;>
      simp at ey ex hx hy <;>
      simp [loadToCoarser, hy, hx, ey, ex, List.flatMap_map, Function.comp_def, cval, nx, ny, kidSum, kids, faceArea,
        faceFlux, faceIdx, ylo, xlo] <;>
      (apply List.flatMap_congr; intro n _; apply List.flatMap_congr; intro k _; apply List.map_congr_left; intro j _; ring_nf)
  · have hy1 : ny d f = 1 := by have := hd.ny_cases f; omega
    have : f2 = 0 := by omega
    subst this
    have ey := subY_one hd hy1
    have h3 : d.nx3 = 1 := by
      have := hd.ord; have := hd.x3; have := hd.x2; unfold ny at hy1; split at hy1
      · exact hy1
      · omega
    have hks : d.ks = 0 := by unfold Dims.ks; rw [if_neg (by omega)]
    have hf4 : f < 4 := by unfold Active at ha; omega
    have hyl : ylo d f = 0 := by unfold ylo; rw [if_pos hf4, hks]
    rw [ey, rng_one, hyl]
    simp only [List.flatMap_cons, List.flatMap_nil, List.append_nil]
    by_cases hx : 1 < nx d f
    · have ex := rng2_x hd f f1 hx
      interval_cases f <;> simp only [xlo, xhi, nx] at ex hx <;>
        simp at ex hx <;>
        simp only [Active] at ha <;> simp [h3] at ha <;>
        simp [loadToCoarser, h3, hx, ha, ex, Function.comp_def, cval, nx, ny, kidSum, kids, faceArea,
          faceFlux, faceIdx, ylo, xlo, hks] <;>
        (apply List.flatMap_congr; intro n _; apply List.map_congr_left; intro j _; ring_nf)
    · have hx1 : nx d f = 1 := by have := hd.nx_cases f; omega
      have : f1 = 0 := by omega
      subst this
      have hf2 : f < 2 := by by_contra h; unfold nx at hx1; rw [if_neg h] at hx1; have := hd.x1; omega
      have h2 : d.nx2 = 1 := by unfold nx at hx1; rwa [if_pos hf2] at hx1
      rw [subX_one hd hx1, rng_one]
      have e : d.is + (d.ie - d.is + 1) = d.ie + 1 := by ring
      interval_cases f <;>
        simp [loadToCoarser, h3, h2, cval, nx, faceFlux, faceIdx, ylo, xlo, hks, e, ← List.map_eq_flatMap]

/-- Coarse area times value sent is the sum over the fine faces. -/
theorem cval_mul {d : Dims} (hd : d.Ok) (G : Geom K) (F : Flx K) {f f1 f2 : Nat} (hf : f < 6) (n y x : Int)
    (h : kidSum d f f1 f2 y x (faceArea d G f) ≠ 0) :
    kidSum d f f1 f2 y x (faceArea d G f) * cval d G F f f1 f2 n y x =
      kidSum d f f1 f2 y x (fun y' x' => faceArea d G f y' x' * faceFlux d F f n y' x') := by
  unfold cval
  by_cases hx : 1 < nx d f
  · rw [if_pos hx]
    rw [mul_div_cancel₀ _ h]
    unfold kidSum; simp only [mul_comm]
  · rw [if_neg hx]
    have hy : ¬ 1 < ny d f := by
      intro hy; apply hx
      have := hd.ord; have := hd.x1; unfold ny nx at *; split at hy <;> split <;> omega
    simp [kidSum, kids, hx, hy]

section
open Finset

/-- Fine sums over the part of a face belonging to a finer block. -/
theorem sum_kids_y {d : Dims} (hd : d.Ok) {f f2 : Nat} (h2 : f2 = 0 ∨ 1 < ny d f) (g : Int → K) :
    ∑ y ∈ Icc (subY d f f2).1 (subY d f f2).2, ((kids (1 < ny d f) (ylo d f) (subY d f f2).1 y).map g).sum =
      ∑ y ∈ Icc (ylo d f) (yhi d f), g y := by
  have hr := hd.y_range f
  by_cases h : 1 < ny d f
  · have hc := hd.ny_cases f
    rw [subY_len hd h, sum_pairs (ylo d f) (yhi d f) (subY d f f2).1 (ny d f / 2) (by omega) (by omega)]
    apply sum_congr rfl; intro y _
    rw [kids, if_pos h]; simp
  · have h1 : ny d f = 1 := by have := hd.ny_cases f; omega
    obtain rfl : f2 = 0 := by omega
    rw [subY_one hd h1, show yhi d f = ylo d f by omega]
    simp [kids, h1]
theorem sum_kids_x {d : Dims} (hd : d.Ok) {f f1 : Nat} (h2 : f1 = 0 ∨ 1 < nx d f) (g : Int → K) :
    ∑ x ∈ Icc (subX d f f1).1 (subX d f f1).2, ((kids (1 < nx d f) (xlo d f) (subX d f f1).1 x).map g).sum =
      ∑ x ∈ Icc (xlo d f) (xhi d f), g x := by
  have hr := hd.x_range f
  by_cases h : 1 < nx d f
  · have hc := hd.nx_cases f
    rw [subX_len hd h, sum_pairs (xlo d f) (xhi d f) (subX d f f1).1 (nx d f / 2) (by omega) (by omega)]
    apply sum_congr rfl; intro y _
    rw [kids, if_pos h]; simp
  · have h1 : nx d f = 1 := by have := hd.nx_cases f; omega
    obtain rfl : f1 = 0 := by omega
    rw [subX_one hd h1, show xhi d f = xlo d f by omega]
    simp [kids, h1]

theorem sum_list_comm {ι κ : Type} (s : Finset ι) (l : List κ) (g : ι → κ → K) :
    ∑ i ∈ s, (l.map (g i)).sum = (l.map fun k => ∑ i ∈ s, g i k).sum := by
  induction l with
  | nil => simp
  | cons a l ih => simp [sum_add_distrib, ih]

theorem sum_kidSum {d : Dims} (hd : d.Ok) {f f1 f2 : Nat} (hs : Slot d f f1 f2) (g : Int → Int → K) :
    ∑ y ∈ Icc (subY d f f2).1 (subY d f f2).2, ∑ x ∈ Icc (subX d f f1).1 (subX d f f1).2, kidSum d f f1 f2 y x g =
      ∑ y ∈ Icc (ylo d f) (yhi d f), ∑ x ∈ Icc (xlo d f) (xhi d f), g y x := by
  obtain ⟨_, _, h1, h2⟩ := hs
  rw [← sum_kids_y hd h2]
  apply sum_congr rfl; intro y _
  unfold kidSum
  rw [sum_list_comm]
  congr 1; apply List.map_congr_left; intro y' _
  exact sum_kids_x hd h1 _

theorem slots_split {d : Dims} (hd : d.Ok) (f : Nat) (g : Int → Int → K) :
    ∑ y ∈ Icc (ylo d f) (yhi d f), ∑ x ∈ Icc (xlo d f) (xhi d f), g y x =
      ∑ f2 ∈ range 2, ∑ f1 ∈ range 2, if Slot d f f1 f2 then
        ∑ y ∈ Icc (subY d f f2).1 (subY d f f2).2, ∑ x ∈ Icc (subX d f f1).1 (subX d f f1).2, g y x else 0 := by
  have hyr := hd.y_range f
  have hxr := hd.x_range f
  have hx : ∀ g : Int → K, ∑ x ∈ Icc (xlo d f) (xhi d f), g x =
      ∑ f1 ∈ range 2, if f1 = 0 ∨ 1 < nx d f then ∑ x ∈ Icc (subX d f f1).1 (subX d f f1).2, g x else 0 := by
    intro g
    by_cases h : 1 < nx d f
    · have hc := hd.nx_cases f
      rw [sum_Icc_split (xlo d f) (xlo d f + nx d f / 2) (xhi d f) (by omega) (by omega)]
      simp only [sum_range_succ, range_zero, sum_empty, subX]
      simp only [h, or_true, if_true, zero_add]
      rw [if_neg (by decide : ¬ (1 = 0)), show xhi d f - nx d f / 2 = xlo d f + nx d f / 2 - 1 by omega]
    · have h1 : nx d f = 1 := by have := hd.nx_cases f; omega
      simp only [sum_range_succ, range_zero, sum_empty]
      simp only [true_or, if_true, zero_add, h, or_false]
      rw [if_neg (by decide : ¬ (1 = 0)), subX_one hd h1, show xhi d f = xlo d f by omega, add_zero]
  have hy : ∀ g : Int → K, ∑ x ∈ Icc (ylo d f) (yhi d f), g x =
      ∑ f1 ∈ range 2, if f1 = 0 ∨ 1 < ny d f then ∑ x ∈ Icc (subY d f f1).1 (subY d f f1).2, g x else 0 := by
    intro g
    by_cases h : 1 < ny d f
    · have hc := hd.ny_cases f
      rw [sum_Icc_split (ylo d f) (ylo d f + ny d f / 2) (yhi d f) (by omega) (by omega)]
      simp only [sum_range_succ, range_zero, sum_empty, subY]
      simp only [h, or_true, if_true, zero_add]
      rw [if_neg (by decide : ¬ (1 = 0)), show yhi d f - ny d f / 2 = ylo d f + ny d f / 2 - 1 by omega]
    · have h1 : ny d f = 1 := by have := hd.ny_cases f; omega
      simp only [sum_range_succ, range_zero, sum_empty]
      simp only [true_or, if_true, zero_add, h, or_false]
      rw [if_neg (by decide : ¬ (1 = 0)), subY_one hd h1, show yhi d f = ylo d f by omega, add_zero]
  rw [hy]
  apply sum_congr rfl; intro f2 hf2
  rw [mem_range] at hf2
  by_cases h2 : f2 = 0 ∨ 1 < ny d f
  · rw [if_pos h2]
    simp only [hx]
    rw [sum_comm]
    apply sum_congr rfl; intro f1 hf1
    rw [mem_range] at hf1
    by_cases h1 : f1 = 0 ∨ 1 < nx d f
    · simp only [if_pos h1]
      rw [if_pos (show Slot d f f1 f2 from ⟨hf1, hf2, h1, h2⟩)]
    · simp only [if_neg h1]
      rw [if_neg (fun h => h1 h.2.2.1)]; simp
  · rw [if_neg h2]
    symm; apply sum_eq_zero; intro f1 _
    rw [if_neg (fun h => h2 h.2.2.2)]

end

/-! ### The receiving side -/

theorem recv_generic {P : Type} [DecidableEq P] (nl nu y0 y1 x0 x1 : Int) (pt : Int → Int → Int → P)
    (hpt : ∀ n y x n' y' x', pt n y x = pt n' y' x' → n = n' ∧ y = y' ∧ x = x') (buf : Nat → K) (A : P → K)
    (g : Int → Int → Int → K)
    (hbuf : ∀ (p : Nat) (v : K), ((prodL (rng nl nu) (prodL (rng y0 y1) (rng x0 x1))).map
      (fun x => g x.1 x.2.1 x.2.2))[p]? = some v → buf p = v) :
    let r := (loop nl nu fun nn => loop y0 y1 fun y => loop x0 x1 fun x => takeBuf buf (pt nn y x)) (A, 0)
    (∀ n y x, nl ≤ n ∧ n ≤ nu ∧ y0 ≤ y ∧ y ≤ y1 ∧ x0 ≤ x ∧ x ≤ x1 → r.1 (pt n y x) = g n y x) ∧
    (∀ q, (∀ n y x, nl ≤ n ∧ n ≤ nu ∧ y0 ≤ y ∧ y ≤ y1 ∧ x0 ≤ x ∧ x ≤ x1 → q ≠ pt n y x) → r.1 q = A q) ∧
    r.2 = (nu + 1 - nl).toNat * ((y1 + 1 - y0).toNat * (x1 + 1 - x0).toNat) := by
  intro r
  have hr : r = (prodL (rng nl nu) (prodL (rng y0 y1) (rng x0 x1))).foldl
      (fun st x => takeBuf buf (pt x.1 x.2.1 x.2.2) st) (A, 0) := by
    simp only [foldl_prodL]; rfl
  have hnd : ((prodL (rng nl nu) (prodL (rng y0 y1) (rng x0 x1))).map (fun x => pt x.1 x.2.1 x.2.2)).Nodup := by
    apply (nodup_prodL (nodup_rng _ _) (nodup_prodL (nodup_rng _ _) (nodup_rng _ _))).map
    rintro ⟨a, b, c⟩ ⟨a', b', c'⟩ h
    obtain ⟨h1, h2, h3⟩ := hpt _ _ _ _ _ _ h
    simp only at h1 h2 h3; subst h1 h2 h3; rfl
  refine ⟨?_, ?_, ?_⟩
  · intro n y x h
    have hm : (n, y, x) ∈ prodL (rng nl nu) (prodL (rng y0 y1) (rng x0 x1)) := by
      simp only [mem_prodL, mem_rng]; omega
    obtain ⟨p, hp⟩ := List.mem_iff_getElem?.1 hm
    rw [hr, take_in _ (fun x => pt x.1 x.2.1 x.2.2) buf A hnd p (n, y, x) hp]
    apply hbuf
    rw [List.getElem?_map, hp]; rfl
  · intro q hq
    rw [hr]
    apply take_out _ (fun x : Int × Int × Int => pt x.1 x.2.1 x.2.2)
    intro h
    obtain ⟨⟨n, y, x⟩, hm, rfl⟩ := List.mem_map.1 h
    simp only [mem_prodL, mem_rng] at hm
    exact hq n y x (by omega) rfl
  · rw [hr, take_fold]; simp [length_prodL, length_rng]

theorem half_eq {d : Dims} (hd : d.Ok) (f f1 f2 : Nat) :
    (halfLo (ylo d f) (ny d f) f2, halfHi (yhi d f) (ny d f) f2) = subY d f f2 ∧
    (halfLo (xlo d f) (nx d f) f1, halfHi (xhi d f) (nx d f) f1) = subX d f f1 := by
  have h1 : (ny d f).tdiv 2 = ny d f / 2 := Int.tdiv_eq_ediv_of_nonneg (by have := hd.ny_cases f; omega)
  have h2 : (nx d f).tdiv 2 = nx d f / 2 := Int.tdiv_eq_ediv_of_nonneg (by have := hd.nx_cases f; omega)
  unfold halfLo halfHi subY subX
  rw [h1, h2]
  constructor <;> split <;> rfl

/-- Fluxes of the direction of a face. -/
def dirFlux (F : Flx K) (f : Nat) : A4 K := if f < 2 then F.x1 else if f < 4 then F.x2 else F.x3

theorem opp_facts {d : Dims} {f : Nat} (hf : f < 6) :
    opp f < 6 ∧ opp (opp f) = f ∧ ylo d (opp f) = ylo d f ∧ yhi d (opp f) = yhi d f ∧ xlo d (opp f) = xlo d f ∧
      xhi d (opp f) = xhi d f ∧ ny d (opp f) = ny d f ∧ nx d (opp f) = nx d f ∧
      (∀ f2, subY d (opp f) f2 = subY d f f2) ∧ (∀ f1, subX d (opp f) f1 = subX d f f1) := by
  interval_cases f <;> simp [opp, ylo, yhi, xlo, xhi, ny, nx, subY, subX]

theorem faceIdx_inj (d : Dims) (f : Nat) {y x y' x' : Int} (h : faceIdx d f y x = faceIdx d f y' x') :
    y = y' ∧ x = x' := by
  unfold faceIdx at h
  split_ifs at h <;> simp only [Prod.mk.injEq] at h <;> omega

theorem set_recv {d : Dims} (hd : d.Ok) (nl nu : Int) {f f1 f2 : Nat} (hf : f < 6) (buf : Nat → K) (F : Flx K)
    (g : Int → Int → Int → K)
    (hbuf : ∀ (p : Nat) (v : K), ((prodL (rng nl nu) (prodL (rng (subY d f f2).1 (subY d f f2).2)
      (rng (subX d f f1).1 (subX d f f1).2))).map (fun x => g x.1 x.2.1 x.2.2))[p]? = some v → buf p = v) :
    let r := setFromFiner d nl nu f f1 f2 buf F
    (∀ n y x, nl ≤ n ∧ n ≤ nu ∧ (subY d f f2).1 ≤ y ∧ y ≤ (subY d f f2).2 ∧ (subX d f f1).1 ≤ x ∧ x ≤ (subX d f f1).2 →
      dirFlux r.1 f (n, faceIdx d f y x) = g n y x) ∧
    (∀ f' q, f' < 6 → (f' / 2 = f / 2 → ∀ n y x, nl ≤ n ∧ n ≤ nu ∧ (subY d f f2).1 ≤ y ∧ y ≤ (subY d f f2).2 ∧
        (subX d f f1).1 ≤ x ∧ x ≤ (subX d f f1).2 → q ≠ (n, faceIdx d f y x)) →
      dirFlux r.1 f' q = dirFlux F f' q) ∧
    r.2 = (nu + 1 - nl).toNat * (((subY d f f2).2 + 1 - (subY d f f2).1).toNat *
      ((subX d f f1).2 + 1 - (subX d f f1).1).toNat) := by
  have key := recv_generic nl nu (subY d f f2).1 (subY d f f2).2 (subX d f f1).1 (subX d f f1).2
    (fun n y x => (n, faceIdx d f y x)) (by
      intro n y x n' y' x' h
      rw [Prod.mk.injEq] at h
      exact ⟨h.1, faceIdx_inj d f h.2⟩) buf (dirFlux F f) g hbuf
  simp only at key
  obtain ⟨e1, e2⟩ := half_eq hd f f1 f2
  rw [Prod.ext_iff] at e1 e2
  simp only at e1 e2
  rw [← e1.1, ← e1.2, ← e2.1, ← e2.2] at key ⊢
  intro r
  have hr : dirFlux r.1 f = ((loop nl nu fun nn => loop (halfLo (ylo d f) (ny d f) f2) (halfHi (yhi d f) (ny d f) f2) fun y =>
      loop (halfLo (xlo d f) (nx d f) f1) (halfHi (xhi d f) (nx d f) f1) fun x =>
        takeBuf buf (nn, faceIdx d f y x)) (dirFlux F f, 0)).1 ∧
      r.2 = ((loop nl nu fun nn => loop (halfLo (ylo d f) (ny d f) f2) (halfHi (yhi d f) (ny d f) f2) fun y =>
      loop (halfLo (xlo d f) (nx d f) f1) (halfHi (xhi d f) (nx d f) f1) fun x =>
        takeBuf buf (nn, faceIdx d f y x)) (dirFlux F f, 0)).2 := by
    have hd1 : d.is + (d.ie - d.is) + 1 = d.ie + 1 := by ring
    have hd2 : d.js + (d.je - d.js) + 1 = d.je + 1 := by ring
    have hd3 : d.ks + (d.ke - d.ks) + 1 = d.ke + 1 := by ring
    have h6 : f = 0 ∨ f = 1 ∨ f = 2 ∨ f = 3 ∨ f = 4 ∨ f = 5 := by omega
    clear key hbuf e1 e2
    rcases h6 with rfl | rfl | rfl | rfl | rfl | rfl <;> simp [r, setFromFiner, dirFlux, faceIdx, ylo, yhi, xlo, xhi, ny, nx, hd1, hd2, hd3]
  have hr' : ∀ f', f' < 6 → f' / 2 ≠ f / 2 → dirFlux r.1 f' = dirFlux F f' := by
    intro f' hf' hne
    have h6 : f = 0 ∨ f = 1 ∨ f = 2 ∨ f = 3 ∨ f = 4 ∨ f = 5 := by omega
    clear key hbuf e1 e2 hr
    rcases h6 with rfl | rfl | rfl | rfl | rfl | rfl <;> interval_cases f' <;>
      first | (exact absurd rfl hne) | simp [r, setFromFiner, dirFlux]
  have hr2 : ∀ f', f' < 6 → f' / 2 = f / 2 → ∀ F : Flx K, dirFlux F f' = dirFlux F f := by
    intro f' hf' he F
    interval_cases f <;> interval_cases f' <;> first | rfl | (exact absurd he (by decide))
  refine ⟨?_, ?_, ?_⟩
  · rw [hr.1]; exact key.1
  · intro f' q hf' hq
    by_cases he : f' / 2 = f / 2
    · rw [hr2 f' hf' he, hr2 f' hf' he, hr.1]
      exact key.2.1 q (hq he)
    · rw [hr' f' hf' he]
  · rw [hr.2]; exact key.2.2

theorem active_opp {d : Dims} {f : Nat} (h : Active d f) : Active d (opp f) := by
  unfold Active at *
  have hf : f < 6 := by omega
  interval_cases f <;> simp_all [opp]

theorem slot_opp {d : Dims} {f f1 f2 : Nat} (hf : f < 6) (h : Slot d f f1 f2) : Slot d (opp f) f1 f2 := by
  obtain ⟨_, _, _, _, _, _, e1, e2, _, _⟩ := opp_facts (d := d) hf
  unfold Slot at *
  rwa [e1, e2]

theorem cval_opp_mul {d : Dims} (hd : d.Ok) (Gc Gf : Geom K) (F : Flx K) {f f1 f2 : Nat} (hf : f < 6) (n y x : Int)
    (hfit : AreasFit d Gc Gf f f1 f2)
    (hy : (subY d f f2).1 ≤ y ∧ y ≤ (subY d f f2).2) (hx : (subX d f f1).1 ≤ x ∧ x ≤ (subX d f f1).2) :
    faceArea d Gc f y x * cval d Gf F (opp f) f1 f2 n y x =
      kidSum d f f1 f2 y x (fun y' x' => faceArea d Gf (opp f) y' x' * faceFlux d F (opp f) n y' x') := by
  obtain ⟨h6, _, e1, e2, e3, e4, e5, e6, e7, e8⟩ := opp_facts (d := d) hf
  have hk : ∀ g : Int → Int → K, kidSum d (opp f) f1 f2 y x g = kidSum d f f1 f2 y x g := by
    intro g; unfold kidSum; rw [e7, e8]; simp only [e1, e3, e5, e6]
  obtain ⟨h1, h2⟩ := hfit y x hy.1 hy.2 hx.1 hx.2
  rw [h1, ← hk, ← hk]
  apply cval_mul hd Gf F h6
  rwa [hk]

/-- Distinct finer neighbours write to distinct places. -/
theorem patch_disjoint {d : Dims} (hd : d.Ok) {f f1 f2 g g1 g2 : Nat} (hf : f < 6) (hg : g < 6)
    (hs : Slot d f f1 f2) (hs' : Slot d g g1 g2)
    (hne : (f, f1, f2) ≠ (g, g1, g2)) (he : f / 2 = g / 2) {n n' y x y' x' : Int}
    (hy : (subY d f f2).1 ≤ y ∧ y ≤ (subY d f f2).2) (hx : (subX d f f1).1 ≤ x ∧ x ≤ (subX d f f1).2)
    (hy' : (subY d g g2).1 ≤ y' ∧ y' ≤ (subY d g g2).2) (hx' : (subX d g g1).1 ≤ x' ∧ x' ≤ (subX d g g1).2) :
    (n, faceIdx d f y x) ≠ (n', faceIdx d g y' x') := by
  intro h
  rw [Prod.mk.injEq] at h
  obtain ⟨-, h⟩ := h
  by_cases hfg : f = g
  · subst hfg
    obtain ⟨rfl, rfl⟩ := faceIdx_inj d f h
    obtain ⟨a1, a2, a3, a4⟩ := hs
    obtain ⟨b1, b2, b3, b4⟩ := hs'
    have hyr := hd.y_range f
    have hxr := hd.x_range f
    have hyc := hd.ny_cases f
    have hxc := hd.nx_cases f
    apply hne
    have e2 : f2 = g2 := by
      unfold subY at hy hy'
      split at hy <;> split at hy' <;> simp only at hy hy' <;> omega
    have e1 : f1 = g1 := by
      unfold subX at hx hx'
      split at hx <;> split at hx' <;> simp only at hx hx' <;> omega
    rw [e1, e2]
  · have h1 := d.irange
    have h2 := hd.jrange
    have h3 := hd.krange
    have h4 := hd.x1
    have h5 := hd.x2
    have h6 := hd.x3
    unfold faceIdx at h
    interval_cases f <;> interval_cases g <;> simp at he hfg h <;> omega

theorem recv_out {d : Dims} (hd : d.Ok) (nl nu : Int) (Gf : Nat → Nat → Nat → Geom K) (Ff : Nat → Nat → Nat → Flx K)
    (buf : Nat → Nat → Nat → Nat → K) (slots : List (Nat × Nat × Nat))
    (hsl : ∀ s ∈ slots, Active d s.1 ∧ Slot d s.1 s.2.1 s.2.2)
    (hbuf : ∀ s ∈ slots, BufOf d nl nu (Gf s.1 s.2.1 s.2.2) (Ff s.1 s.2.1 s.2.2) s.1 (buf s.1 s.2.1 s.2.2))
    (F : Flx K) (g : Nat) (hg : g < 6) (q : Int × Int × Int × Int)
    (hq : ∀ s ∈ slots, g / 2 = s.1 / 2 → ∀ n y x, nl ≤ n ∧ n ≤ nu ∧ (subY d s.1 s.2.2).1 ≤ y ∧ y ≤ (subY d s.1 s.2.2).2 ∧
        (subX d s.1 s.2.1).1 ≤ x ∧ x ≤ (subX d s.1 s.2.1).2 → q ≠ (n, faceIdx d s.1 y x)) :
    dirFlux (receiveCorrections d nl nu buf slots F) g q = dirFlux F g q := by
  induction slots generalizing F with
  | nil => rfl
  | cons s l ih =>
    obtain ⟨ha, hs⟩ := hsl s (by simp)
    have hf : s.1 < 6 := by unfold Active at ha; omega
    obtain ⟨h6, _, _, _, _, _, _, _, e7, e8⟩ := opp_facts (d := d) hf
    have hb := hbuf s (by simp)
    unfold BufOf at hb
    rw [load_eq hd nl nu _ _ (active_opp ha) (slot_opp hf hs), e7, e8] at hb
    have key := set_recv hd nl nu hf (buf s.1 s.2.1 s.2.2) F _ hb
    simp only at key
    show dirFlux (receiveCorrections d nl nu buf l _) g q = _
    rw [ih (fun s hs => hsl s (by simp [hs])) (fun s hs => hbuf s (by simp [hs])) _ (fun s hs => hq s (by simp [hs]))]
    exact key.2.1 g q hg (hq s (by simp))

theorem recv_in {d : Dims} (hd : d.Ok) (nl nu : Int) (Gf : Nat → Nat → Nat → Geom K) (Ff : Nat → Nat → Nat → Flx K)
    (buf : Nat → Nat → Nat → Nat → K) (slots : List (Nat × Nat × Nat)) (hnd : slots.Nodup)
    (hsl : ∀ s ∈ slots, Active d s.1 ∧ Slot d s.1 s.2.1 s.2.2)
    (hbuf : ∀ s ∈ slots, BufOf d nl nu (Gf s.1 s.2.1 s.2.2) (Ff s.1 s.2.1 s.2.2) s.1 (buf s.1 s.2.1 s.2.2))
    (F : Flx K) {f f1 f2 : Nat} (hmem : (f, f1, f2) ∈ slots) {n y x : Int} (hn : nl ≤ n ∧ n ≤ nu)
    (hy : (subY d f f2).1 ≤ y ∧ y ≤ (subY d f f2).2) (hx : (subX d f f1).1 ≤ x ∧ x ≤ (subX d f f1).2) :
    faceFlux d (receiveCorrections d nl nu buf slots F) f n y x =
      cval d (Gf f f1 f2) (Ff f f1 f2) (opp f) f1 f2 n y x := by
  obtain ⟨l1, l2, rfl⟩ := List.append_of_mem hmem
  obtain ⟨ha, hs⟩ := hsl (f, f1, f2) (by simp)
  simp only at ha hs
  have hf : f < 6 := by unfold Active at ha; omega
  obtain ⟨h6, _, _, _, _, _, _, _, e7, e8⟩ := opp_facts (d := d) hf
  have hb := hbuf (f, f1, f2) (by simp)
  unfold BufOf at hb
  simp only at hb
  rw [load_eq hd nl nu _ _ (active_opp ha) (slot_opp hf hs), e7, e8] at hb
  have hsplit : receiveCorrections d nl nu buf (l1 ++ (f, f1, f2) :: l2) F =
      receiveCorrections d nl nu buf l2 (setFromFiner d nl nu f f1 f2 (buf f f1 f2)
        (receiveCorrections d nl nu buf l1 F)).1 := by
    unfold receiveCorrections; rw [List.foldl_append, List.foldl_cons]
  have key := set_recv hd nl nu hf (buf f f1 f2) (receiveCorrections d nl nu buf l1 F) _ hb
  simp only at key
  rw [hsplit]
  show dirFlux _ f (n, faceIdx d f y x) = _
  rw [recv_out hd nl nu Gf Ff buf l2 (fun s hs => hsl s (by simp [hs])) (fun s hs => hbuf s (by simp [hs])) _ f hf]
  · exact key.1 n y x ⟨hn.1, hn.2, hy.1, hy.2, hx.1, hx.2⟩
  · intro s hs' he n' y' x' hr
    obtain ⟨ha', hs''⟩ := hsl s (by simp [hs'])
    apply patch_disjoint hd hf (by unfold Active at ha'; omega) hs hs'' ?_ he hy hx ⟨hr.2.2.1, hr.2.2.2.1⟩ hr.2.2.2.2
    intro h
    rw [List.nodup_append, List.nodup_cons] at hnd
    apply hnd.2.1.1
    rw [h]; exact hs'

/-- A face with no finer neighbour keeps its fluxes. -/
theorem recv_face {d : Dims} (hd : d.Ok) (nl nu : Int) (Gf : Nat → Nat → Nat → Geom K) (Ff : Nat → Nat → Nat → Flx K)
    (buf : Nat → Nat → Nat → Nat → K) (slots : List (Nat × Nat × Nat))
    (hsl : ∀ s ∈ slots, Active d s.1 ∧ Slot d s.1 s.2.1 s.2.2)
    (hbuf : ∀ s ∈ slots, BufOf d nl nu (Gf s.1 s.2.1 s.2.2) (Ff s.1 s.2.1 s.2.2) s.1 (buf s.1 s.2.1 s.2.2))
    (F : Flx K) {g : Nat} (hg : g < 6) (hno : ∀ s ∈ slots, s.1 ≠ g) (n y x : Int) :
    faceFlux d (receiveCorrections d nl nu buf slots F) g n y x = faceFlux d F g n y x := by
  show dirFlux _ g _ = dirFlux _ g _
  apply recv_out hd nl nu Gf Ff buf slots hsl hbuf F g hg
  intro s hs he n' y' x' hr h
  have hf : s.1 < 6 := by have := (hsl s hs).1; unfold Active at this; omega
  have hne := hno s hs
  generalize s.1 = f at *
  rw [Prod.mk.injEq] at h
  have h1 := d.irange
  have h2 := hd.jrange
  have h3 := hd.krange
  have h4 := hd.x1
  have h5 := hd.x2
  have h6 := hd.x3
  obtain ⟨-, h⟩ := h
  clear hr
  unfold faceIdx at h
  interval_cases f <;> interval_cases g <;> simp at he hne h <;> omega

open Finset in
/-- Outflow through a corrected face. -/
theorem corrected_outflow {d : Dims} (hd : d.Ok) (nl nu : Int) (Gc : Geom K) (Gf : Nat → Nat → Nat → Geom K)
    (Ff : Nat → Nat → Nat → Flx K) (buf : Nat → Nat → Nat → Nat → K) (slots : List (Nat × Nat × Nat)) (hnd : slots.Nodup)
    (hsl : ∀ s ∈ slots, Active d s.1 ∧ Slot d s.1 s.2.1 s.2.2)
    (hbuf : ∀ s ∈ slots, BufOf d nl nu (Gf s.1 s.2.1 s.2.2) (Ff s.1 s.2.1 s.2.2) s.1 (buf s.1 s.2.1 s.2.2))
    (F : Flx K) {f : Nat} (ha : Active d f) (hall : ∀ f1 f2, Slot d f f1 f2 → (f, f1, f2) ∈ slots)
    (hfit : ∀ f1 f2, Slot d f f1 f2 → AreasFit d Gc (Gf f f1 f2) f f1 f2) {n : Int} (hn : nl ≤ n ∧ n ≤ nu) :
    outflow d Gc (receiveCorrections d nl nu buf slots F) n f =
      - ∑ f2 ∈ range 2, ∑ f1 ∈ range 2, if Slot d f f1 f2 then outflow d (Gf f f1 f2) (Ff f f1 f2) n (opp f) else 0 := by
  have hf : f < 6 := by unfold Active at ha; omega
  obtain ⟨h6, _, e1, e2, e3, e4, _, _, _, _⟩ := opp_facts (d := d) hf
  have hsg : (if opp f % 2 = 0 then (-1 : K) else 1) = - (if f % 2 = 0 then (-1 : K) else 1) := by
    interval_cases f <;> simp [opp]
  unfold outflow
  rw [if_pos ha]
  unfold outflowOn
  rw [slots_split hd f, mul_sum, ← sum_neg_distrib]
  apply sum_congr rfl; intro f2 _
  rw [mul_sum, ← sum_neg_distrib]
  apply sum_congr rfl; intro f1 _
  by_cases hs : Slot d f f1 f2
  · rw [if_pos hs, if_pos hs, if_pos (active_opp ha), hsg, e1, e2, e3, e4, neg_mul, neg_neg]
    congr 1
    rw [← sum_kidSum hd hs]
    apply sum_congr rfl; intro y hy
    apply sum_congr rfl; intro x hx
    rw [mem_Icc] at hy hx
    rw [recv_in hd nl nu Gf Ff buf slots hnd hsl hbuf F (hall f1 f2 hs) hn hy hx,
      cval_opp_mul hd Gc (Gf f f1 f2) (Ff f f1 f2) hf n y x (hfit f1 f2 hs) hy hx]
  · rw [if_neg hs, if_neg hs]; simp

end Verif.Grid
