import Verif.Lemmas.Scalars
import Verif.Model.Integrator
import Verif.Lemmas.Refine
import Verif.Lemmas.RkSteps
import Mathlib.Data.Sign.Basic
import Mathlib.Algebra.Module.Submodule.Basic
import Mathlib.Algebra.Module.Prod
import Mathlib.Algebra.Module.Pi
import Mathlib.Tactic.NormNum

/-!
# C60: passive scalars
-/
namespace Verif.Scalars
open Verif.Grid Verif.Recon Verif.Integrator
open Verif.Arr (loop Mem Arr store rng)

section flux
variable {K : Type} [Field K] [LinearOrder K] [IsStrictOrderedRing K]
variable {d : Dims} {ns : Nat} {R1 R2 R3 : Rec K} {fl : K} {scr : Int → Int → Scratch K} {r : A4 K} {H F0 : Flx K}
  {a b c : Row K}

omit [IsStrictOrderedRing K] in
/-- Donor cell: at every face of an interior cell the flux of a scalar is the mass flux times the concentration of the
cell it comes from, whatever was in the work arrays and in the flux arrays before. -/
theorem flux_donor {n k j i : Int} (hn : 0 ≤ n ∧ n < ns) (hc : Active d k j i) :
    let F := calculateFluxes d ns .donor .donor .donor fl scr r H F0 a b c
    let src := fun (h lo hi : K) => h * if 0 ≤ h then lo else hi
    (F.x1 (n, k, j, i) = src (H.x1 (0, k, j, i)) (r (n, k, j, i - 1)) (r (n, k, j, i)) ∧
      F.x1 (n, k, j, i + 1) = src (H.x1 (0, k, j, i + 1)) (r (n, k, j, i)) (r (n, k, j, i + 1))) ∧
    (d.nx2 > 1 → F.x2 (n, k, j, i) = src (H.x2 (0, k, j, i)) (r (n, k, j - 1, i)) (r (n, k, j, i)) ∧
      F.x2 (n, k, j + 1, i) = src (H.x2 (0, k, j + 1, i)) (r (n, k, j, i)) (r (n, k, j + 1, i))) ∧
    (d.nx3 > 1 → F.x3 (n, k, j, i) = src (H.x3 (0, k, j, i)) (r (n, k - 1, j, i)) (r (n, k, j, i)) ∧
      F.x3 (n, k + 1, j, i) = src (H.x3 (0, k + 1, j, i)) (r (n, k, j, i)) (r (n, k + 1, j, i))) := by
  obtain ⟨hk, hj, hi⟩ := hc
  have e : ∀ h x y : K, up h x y = h * if 0 ≤ h then x else y := by
    intro h x y; unfold up; split <;> rfl
  have hR : ∀ mm flat m nwave, (Rec.donor : Rec K) = .plm mm flat m nwave → mm = true → n < nwave := by
    intro _ _ _ _ h; cases h
  simp only [calculateFluxes]
  refine ⟨⟨?_, ?_⟩, fun h2 => ⟨?_, ?_⟩, fun h3 => ⟨?_, ?_⟩⟩
  · rw [sweepX1_val hR hn hk hj ⟨hi.1, by omega⟩, ← e]; rfl
  · rw [sweepX1_val hR hn hk hj ⟨by omega, by omega⟩, ← e, add_sub_cancel_right]; rfl
  · rw [if_pos h2, sweepX2_val hn hk ⟨hj.1, by omega⟩ hi, ← e]; rfl
  · rw [if_pos h2, sweepX2_val hn hk ⟨by omega, by omega⟩ hi, ← e, add_sub_cancel_right]; rfl
  · rw [if_pos h3, sweepX3_val hn ⟨hk.1, by omega⟩ hj hi, ← e]; rfl
  · rw [if_pos h3, sweepX3_val hn ⟨by omega, by omega⟩ hj hi, ← e, add_sub_cancel_right]; rfl

omit [IsStrictOrderedRing K] in
/-- The six fluxes of a cell in terms of the reconstructed values. -/
theorem flux_val (hR : ∀ mm flat m nwave, R1 = .plm mm flat m nwave → mm = true → (ns : Int) ≤ nwave)
    {n k j i : Int} (hn : 0 ≤ n ∧ n < ns) (hc : Active d k j i) :
    let F := calculateFluxes d ns R1 R2 R3 fl scr r H F0 a b c
    let v1 := fun x => cellVal 1 R1 x (sten (fun i => r (n, k, j, i)) x)
    let v2 := fun x => cellVal 2 R2 x (sten (fun j => r (n, k, j, i)) x)
    let v3 := fun x => cellVal 3 R3 x (sten (fun k => r (n, k, j, i)) x)
    (F.x1 (n, k, j, i) = up (H.x1 (0, k, j, i)) (fv R1 fl (v1 (i - 1)).2) (fv R1 fl (v1 i).1) ∧
      F.x1 (n, k, j, i + 1) = up (H.x1 (0, k, j, i + 1)) (fv R1 fl (v1 i).2) (fv R1 fl (v1 (i + 1)).1)) ∧
    (d.nx2 > 1 → F.x2 (n, k, j, i) = up (H.x2 (0, k, j, i)) (fv R2 fl (v2 (j - 1)).2) (fv R2 fl (v2 j).1) ∧
      F.x2 (n, k, j + 1, i) = up (H.x2 (0, k, j + 1, i)) (fv R2 fl (v2 j).2) (fv R2 fl (v2 (j + 1)).1)) ∧
    (d.nx3 > 1 → F.x3 (n, k, j, i) = up (H.x3 (0, k, j, i)) (fv R3 fl (v3 (k - 1)).2) (fv R3 fl (v3 k).1) ∧
      F.x3 (n, k + 1, j, i) = up (H.x3 (0, k + 1, j, i)) (fv R3 fl (v3 k).2) (fv R3 fl (v3 (k + 1)).1)) := by
  obtain ⟨hk, hj, hi⟩ := hc
  have hR' : ∀ mm flat m nwave, R1 = .plm mm flat m nwave → mm = true → n < nwave :=
    fun mm flat m nwave h h' => lt_of_lt_of_le hn.2 (hR mm flat m nwave h h')
  simp only [calculateFluxes]
  refine ⟨⟨?_, ?_⟩, fun h2 => ⟨?_, ?_⟩, fun h3 => ⟨?_, ?_⟩⟩
  · rw [sweepX1_val hR' hn hk hj ⟨hi.1, by omega⟩]; rfl
  · rw [sweepX1_val hR' hn hk hj ⟨by omega, by omega⟩, add_sub_cancel_right]; rfl
  · rw [if_pos h2, sweepX2_val hn hk ⟨hj.1, by omega⟩ hi]; rfl
  · rw [if_pos h2, sweepX2_val hn hk ⟨by omega, by omega⟩ hi, add_sub_cancel_right]; rfl
  · rw [if_pos h3, sweepX3_val hn ⟨hk.1, by omega⟩ hj hi]; rfl
  · rw [if_pos h3, sweepX3_val hn ⟨by omega, by omega⟩ hj hi, add_sub_cancel_right]; rfl

/-- Where the concentration of a scalar has one value `q` (in the interior and the ghost cells), its flux at every face of
an interior cell is `q` times the mass flux, for donor cell, PLM and PPM. -/
theorem flux_uniform (h1 : R1.Consistent ns) (h2 : R2.Consistent ns) (h3 : R3.Consistent ns) {n k j i : Int} {q : K}
    (hn : 0 ≤ n ∧ n < ns) (hc : Active d k j i) (hr : ∀ k j i, r (n, k, j, i) = q)
    (hf : R1.floors = true ∨ R2.floors = true ∨ R3.floors = true → fl ≤ q) :
    let F := calculateFluxes d ns R1 R2 R3 fl scr r H F0 a b c
    (F.x1 (n, k, j, i) = q * H.x1 (0, k, j, i) ∧ F.x1 (n, k, j, i + 1) = q * H.x1 (0, k, j, i + 1)) ∧
    (d.nx2 > 1 → F.x2 (n, k, j, i) = q * H.x2 (0, k, j, i) ∧ F.x2 (n, k, j + 1, i) = q * H.x2 (0, k, j + 1, i)) ∧
    (d.nx3 > 1 → F.x3 (n, k, j, i) = q * H.x3 (0, k, j, i) ∧ F.x3 (n, k + 1, j, i) = q * H.x3 (0, k + 1, j, i)) := by
  have key : ∀ (dir : Nat) (R : Rec K) (x : Int), R.Consistent ns → (R.floors = true → fl ≤ q) →
      fv R fl (cellVal dir R x ⟨q, q, q, q, q⟩).2 = q ∧ fv R fl (cellVal dir R x ⟨q, q, q, q, q⟩).1 = q := by
    intro dir R x hR hfl
    rw [cellVal_const hR]
    exact ⟨fv_eq hfl, fv_eq hfl⟩
  have hu : ∀ h : K, up h q q = q * h := by intro h; unfold up; split <;> ring
  have hv := flux_val (d := d) (ns := ns) (R1 := R1) (R2 := R2) (R3 := R3) (fl := fl) (scr := scr) (r := r) (H := H)
    (F0 := F0) (a := a) (b := b) (c := c)
    (fun mm flat m nwave e => by rw [e] at h1; exact h1) hn hc
  simp only [sten, hr] at hv
  simp only [(key 1 R1 _ h1 (fun h => hf (Or.inl h))).1, (key 1 R1 _ h1 (fun h => hf (Or.inl h))).2,
    (key 2 R2 _ h2 (fun h => hf (Or.inr (Or.inl h)))).1, (key 2 R2 _ h2 (fun h => hf (Or.inr (Or.inl h)))).2,
    (key 3 R3 _ h3 (fun h => hf (Or.inr (Or.inr h)))).1, (key 3 R3 _ h3 (fun h => hf (Or.inr (Or.inr h)))).2, hu] at hv
  exact hv

/-- Update by the divergence of these fluxes: a scalar that is `q` times the density stays `q` times the density. -/
theorem uniform_update (h1 : R1.Consistent ns) (h2 : R2.Consistent ns) (h3 : R3.Consistent ns) {n k j i : Int} {q : K}
    (hn : 0 ≤ n ∧ n < ns) (hc : Active d k j i) (hr : ∀ k j i, r (n, k, j, i) = q)
    (hf : R1.floors = true ∨ R2.floors = true ∨ R3.floors = true → fl ≤ q)
    {nh : Nat} (hh : 0 < nh) (G : Geom K) (w : K) (u s : A4 K) (hs : s (n, k, j, i) = q * u (0, k, j, i)) :
    addFluxDivergence d ns G (calculateFluxes d ns R1 R2 R3 fl scr r H F0 a b c) w s (n, k, j, i) =
      q * addFluxDivergence d nh G H w u (0, k, j, i) := by
  obtain ⟨e1, e2, e3⟩ := flux_uniform (scr := scr) (H := H) (F0 := F0) (a := a) (b := b) (c := c) h1 h2 h3 hn hc hr hf
  obtain ⟨hk, hj, hi⟩ := hc
  rw [addFlux_in d ns G _ w s hn hk hj hi, addFlux_in d nh G H w u ⟨le_rfl, by exact_mod_cast hh⟩ hk hj hi, hs]
  simp only [dflx]
  rw [e1.1, e1.2]
  by_cases g2 : d.nx2 > 1 <;> by_cases g3 : d.nx3 > 1
  · rw [if_pos g2, if_pos g3, if_pos g2, if_pos g3, (e2 g2).1, (e2 g2).2, (e3 g3).1, (e3 g3).2]; ring
  · rw [if_pos g2, if_neg g3, if_pos g2, if_neg g3, (e2 g2).1, (e2 g2).2]; ring
  · rw [if_neg g2, if_pos g3, if_neg g2, if_pos g3, (e3 g3).1, (e3 g3).2]; ring
  · rw [if_neg g2, if_neg g3, if_neg g2, if_neg g3]; ring

/-- Maximum principle: after an update with limited reconstruction the concentration lies between the least and the
greatest concentration in the cell and its face neighbours before, provided the mass leaving the cell, times `kap`, is at
most its mass. -/
theorem scalar_bounds {kap lo hi : K} (h1 : R1.Limited false ns kap) (h2 : d.nx2 > 1 → R2.Limited false ns kap)
    (h3 : d.nx3 > 1 → R3.Limited true ns kap) {n k j i : Int} (hn : 0 ≤ n ∧ n < ns) (hc : Active d k j i)
    (hfl : R1.floors = true ∨ R2.floors = true ∨ R3.floors = true → fl ≤ lo)
    (hlo : ∀ k' j' i', Near d k j i k' j' i' → lo ≤ r (n, k', j', i') ∧ r (n, k', j', i') ≤ hi)
    {nh : Nat} (hh : 0 < nh) (G : Geom K) (w : K) (u s : A4 K) (hw : 0 ≤ w) (hV : 0 < G.vol (k, j, i))
    (hA : ∀ p, 0 ≤ G.a1 p ∧ 0 ≤ G.a2 p ∧ 0 ≤ G.a3 p)
    (hs : s (n, k, j, i) = r (n, k, j, i) * u (0, k, j, i))
    (hout : kap * (w * outflow d G H k j i) ≤ u (0, k, j, i) * G.vol (k, j, i)) :
    let u' := addFluxDivergence d nh G H w u
    let s' := addFluxDivergence d ns G (calculateFluxes d ns R1 R2 R3 fl scr r H F0 a b c) w s
    lo * u' (0, k, j, i) ≤ s' (n, k, j, i) ∧ s' (n, k, j, i) ≤ hi * u' (0, k, j, i) := by
  have hv := flux_val (d := d) (ns := ns) (R1 := R1) (R2 := R2) (R3 := R3) (fl := fl) (scr := scr) (r := r) (H := H)
    (F0 := F0) (a := a) (b := b) (c := c) (fun mm flat m nwave e => by rw [e] at h1; exact h1.2.1) hn hc
  obtain ⟨hk, hj, hi'⟩ := hc
  intro u' s'
  rw [show s' (n, k, j, i) = _ from addFlux_in d ns G _ w s hn hk hj hi',
    show u' (0, k, j, i) = _ from addFlux_in d nh G H w u ⟨le_rfl, by exact_mod_cast hh⟩ hk hj hi', hs]
  clear_value u' s'
  clear hs
  simp only at hv
  generalize calculateFluxes d ns R1 R2 R3 fl scr r H F0 a b c = F at *
  obtain ⟨⟨e1, e1'⟩, e2, e3⟩ := hv
  have cc := hlo k j i (Or.inl ⟨rfl, rfl, Or.inl rfl⟩)
  obtain ⟨l1, u1⟩ := line_vals (Or.inl rfl) h1 (fun i => r (n, k, j, i)) i (fun h => hfl (Or.inl h))
    (fun x hx => hlo k j x (Or.inl ⟨rfl, rfl, hx.elim (fun h => Or.inr (Or.inl h)) (fun h => h.elim Or.inl (fun h => Or.inr (Or.inr h)))⟩))
  have d1l := faces_lo (h1 := H.x1 (0, k, j, i + 1)) (h0 := H.x1 (0, k, j, i)) (hA (k, j, i + 1)).1 (hA (k, j, i)).1
    l1.1 l1.2.1 l1.2.2.1 l1.2.2.2
  have d1u := faces_hi (h1 := H.x1 (0, k, j, i + 1)) (h0 := H.x1 (0, k, j, i)) (hA (k, j, i + 1)).1 (hA (k, j, i)).1
    u1.1 u1.2.1 u1.2.2.1 u1.2.2.2
  rw [← e1, ← e1'] at d1l d1u
  have D2 := fun g : d.nx2 > 1 => line_vals (dir := 2) (Or.inr (Or.inl rfl)) (h2 g) (fun j => r (n, k, j, i)) j
    (fun h => hfl (Or.inr (Or.inl h))) (fun x hx => by
      rcases hx with h | h | h
      · exact hlo k x i (Or.inr (Or.inl ⟨g, rfl, rfl, Or.inl h⟩))
      · exact hlo k x i (Or.inl ⟨rfl, h, Or.inl rfl⟩)
      · exact hlo k x i (Or.inr (Or.inl ⟨g, rfl, rfl, Or.inr h⟩)))
  have D3 := fun g : d.nx3 > 1 => line_vals (dir := 3) (Or.inr (Or.inr rfl)) (h3 g) (fun k => r (n, k, j, i)) k
    (fun h => hfl (Or.inr (Or.inr h))) (fun x hx => by
      rcases hx with h | h | h
      · exact hlo x j i (Or.inr (Or.inr ⟨g, rfl, rfl, Or.inl h⟩))
      · exact hlo x j i (Or.inl ⟨h, rfl, Or.inl rfl⟩)
      · exact hlo x j i (Or.inr (Or.inr ⟨g, rfl, rfl, Or.inr h⟩)))
  refine bound_fin hV hw cc.1 cc.2 hout ?_ ?_
  · simp only [dflx, outflow, ite_add]
    refine sum_lo d1l (opt_lo fun g => ?_) (opt_lo fun g => ?_)
    · obtain ⟨l, -⟩ := D2 g
      rw [(e2 g).1, (e2 g).2]
      exact faces_lo (hA _).2.1 (hA _).2.1 l.1 l.2.1 l.2.2.1 l.2.2.2
    · obtain ⟨l, -⟩ := D3 g
      rw [(e3 g).1, (e3 g).2]
      exact faces_lo (hA _).2.2 (hA _).2.2 l.1 l.2.1 l.2.2.1 l.2.2.2
  · simp only [dflx, outflow, ite_add]
    refine sum_hi d1u (opt_hi fun g => ?_) (opt_hi fun g => ?_)
    · obtain ⟨-, l⟩ := D2 g
      rw [(e2 g).1, (e2 g).2]
      exact faces_hi (hA _).2.1 (hA _).2.1 l.1 l.2.1 l.2.2.1 l.2.2.2
    · obtain ⟨-, l⟩ := D3 g
      rw [(e3 g).1, (e3 g).2]
      exact faces_hi (hA _).2.2 (hA _).2.2 l.1 l.2.1 l.2.2.1 l.2.2.2

/-- Limited reconstruction: the flux at the two faces of an interior cell in each direction is the mass flux times a value
between the concentrations on the two sides of the face. -/
theorem flux_limited {kap : K} (h1 : R1.Limited false ns kap) (h2 : d.nx2 > 1 → R2.Limited false ns kap)
    (h3 : d.nx3 > 1 → R3.Limited true ns kap) {n k j i : Int} (hn : 0 ≤ n ∧ n < ns) (hc : Active d k j i)
    (hfl : R1.floors = true ∨ R2.floors = true ∨ R3.floors = true → ∀ k' j' i', Near d k j i k' j' i' → fl ≤ r (n, k', j', i')) :
    let F := calculateFluxes d ns R1 R2 R3 fl scr r H F0 a b c
    ((∃ v, Between (r (n, k, j, i - 1)) (r (n, k, j, i)) v ∧ F.x1 (n, k, j, i) = H.x1 (0, k, j, i) * v) ∧
      ∃ v, Between (r (n, k, j, i)) (r (n, k, j, i + 1)) v ∧ F.x1 (n, k, j, i + 1) = H.x1 (0, k, j, i + 1) * v) ∧
    (d.nx2 > 1 → (∃ v, Between (r (n, k, j - 1, i)) (r (n, k, j, i)) v ∧ F.x2 (n, k, j, i) = H.x2 (0, k, j, i) * v) ∧
      ∃ v, Between (r (n, k, j, i)) (r (n, k, j + 1, i)) v ∧ F.x2 (n, k, j + 1, i) = H.x2 (0, k, j + 1, i) * v) ∧
    (d.nx3 > 1 → (∃ v, Between (r (n, k - 1, j, i)) (r (n, k, j, i)) v ∧ F.x3 (n, k, j, i) = H.x3 (0, k, j, i) * v) ∧
      ∃ v, Between (r (n, k, j, i)) (r (n, k + 1, j, i)) v ∧ F.x3 (n, k + 1, j, i) = H.x3 (0, k + 1, j, i) * v) := by
  have hv := flux_val (d := d) (ns := ns) (R1 := R1) (R2 := R2) (R3 := R3) (fl := fl) (scr := scr) (r := r) (H := H)
    (F0 := F0) (a := a) (b := b) (c := c) (fun mm flat m nwave e => by rw [e] at h1; exact h1.2.1) hn hc
  simp only at hv ⊢
  -- both values at the face between cells `x - 1` and `x` of a line
  have face : ∀ (dir : Nat) (R : Rec K) (q : Int → K) (x : Int) (h : K), (dir = 1 ∨ dir = 2 ∨ dir = 3) →
      R.Limited (dir == 3) ns kap → (R.floors = true → fl ≤ q (x - 1) ∧ fl ≤ q x) →
      ∃ v, Between (q (x - 1)) (q x) v ∧
        up h (fv R fl (cellVal dir R (x - 1) (sten q (x - 1))).2) (fv R fl (cellVal dir R x (sten q x)).1) = h * v := by
    intro dir R q x h hd hR hf
    have m1 := (cellVal_mono (ns := ns) hd hR (x - 1) (sten q (x - 1))).btw.2
    have m2 := (cellVal_mono (ns := ns) hd hR x (sten q x)).btw.1
    simp only [sten, sub_add_cancel] at m1 m2
    simp only [sten, sub_add_cancel]
    rw [fv_eq (fun g => (le_min (hf g).1 (hf g).2).trans m1.1), fv_eq (fun g => (le_min (hf g).1 (hf g).2).trans m2.1)]
    unfold up
    split
    · exact ⟨_, m1, rfl⟩
    · exact ⟨_, m2, rfl⟩
  have c0 : Near d k j i k j i := Or.inl ⟨rfl, rfl, Or.inl rfl⟩
  refine ⟨⟨?_, ?_⟩, fun g => ⟨?_, ?_⟩, fun g => ⟨?_, ?_⟩⟩
  · rw [hv.1.1]
    exact face 1 R1 (fun i => r (n, k, j, i)) i _ (Or.inl rfl) h1
      (fun g => ⟨hfl (Or.inl g) _ _ _ (Or.inl ⟨rfl, rfl, Or.inr (Or.inl rfl)⟩), hfl (Or.inl g) _ _ _ c0⟩)
  · rw [hv.1.2]
    have := face 1 R1 (fun i => r (n, k, j, i)) (i + 1) (H.x1 (0, k, j, i + 1)) (Or.inl rfl) h1
    simp only [add_sub_cancel_right] at this
    exact this (fun g => ⟨hfl (Or.inl g) _ _ _ c0, hfl (Or.inl g) _ _ _ (Or.inl ⟨rfl, rfl, Or.inr (Or.inr rfl)⟩)⟩)
  · rw [(hv.2.1 g).1]
    exact face 2 R2 (fun j => r (n, k, j, i)) j _ (Or.inr (Or.inl rfl)) (h2 g)
      (fun g' => ⟨hfl (Or.inr (Or.inl g')) _ _ _ (Or.inr (Or.inl ⟨g, rfl, rfl, Or.inl rfl⟩)), hfl (Or.inr (Or.inl g')) _ _ _ c0⟩)
  · rw [(hv.2.1 g).2]
    have := face 2 R2 (fun j => r (n, k, j, i)) (j + 1) (H.x2 (0, k, j + 1, i)) (Or.inr (Or.inl rfl)) (h2 g)
    simp only [add_sub_cancel_right] at this
    exact this (fun g' => ⟨hfl (Or.inr (Or.inl g')) _ _ _ c0,
      hfl (Or.inr (Or.inl g')) _ _ _ (Or.inr (Or.inl ⟨g, rfl, rfl, Or.inr rfl⟩))⟩)
  · rw [(hv.2.2 g).1]
    exact face 3 R3 (fun k => r (n, k, j, i)) k _ (Or.inr (Or.inr rfl)) (h3 g)
      (fun g' => ⟨hfl (Or.inr (Or.inr g')) _ _ _ (Or.inr (Or.inr ⟨g, rfl, rfl, Or.inl rfl⟩)), hfl (Or.inr (Or.inr g')) _ _ _ c0⟩)
  · rw [(hv.2.2 g).2]
    have := face 3 R3 (fun k => r (n, k, j, i)) (k + 1) (H.x3 (0, k + 1, j, i)) (Or.inr (Or.inr rfl)) (h3 g)
    simp only [add_sub_cancel_right] at this
    exact this (fun g' => ⟨hfl (Or.inr (Or.inr g')) _ _ _ c0,
      hfl (Or.inr (Or.inr g')) _ _ _ (Or.inr (Or.inr ⟨g, rfl, rfl, Or.inr rfl⟩))⟩)

end flux

/-! ## Conversion -/

section conv
variable {K : Type} [Field K] [LinearOrder K] [IsStrictOrderedRing K]

/-- Conversion to concentrations respects the floor, changes `s` only where it lies below the floor, and leaves `s` and `r`
consistent. -/
theorem convert_floor {fl d s : K} (hd : 0 < d) :
    let p := consToPrim fl d s
    fl ≤ p.2 ∧ p.1 = p.2 * d ∧ p.1 = max s (fl * d) ∧ (fl ≤ s / d → p = (s, s / d)) := by
  simp only [consToPrim]
  by_cases h : s < fl * d
  · rw [if_pos h]
    refine ⟨(le_div_iff₀ hd).2 le_rfl, (div_mul_cancel₀ _ hd.ne').symm, (max_eq_right h.le).symm, fun h' => ?_⟩
    exact absurd ((le_div_iff₀ hd).1 h') (not_le.2 h)
  · rw [if_neg h]
    push Not at h
    exact ⟨(le_div_iff₀ hd).2 h, (div_mul_cancel₀ _ hd.ne').symm, (max_eq_left h).symm, fun _ => rfl⟩

/-- Round trips: concentrations at or above the floor survive conversion to `s` and back; converting twice changes nothing. -/
theorem convert_round_trip {fl d : K} (hd : 0 < d) :
    (∀ r, fl ≤ r → consToPrim fl d (primToCons r d) = (r * d, r)) ∧
    ∀ s, primToCons (consToPrim fl d s).2 d = (consToPrim fl d s).1 ∧
      consToPrim fl d (consToPrim fl d s).1 = consToPrim fl d s := by
  constructor
  · intro r hr
    have := (convert_floor (fl := fl) (s := r * d) hd).2.2.2
    rw [mul_div_cancel_right₀ _ hd.ne'] at this
    exact this hr
  · intro s
    obtain ⟨h1, h2, h3, h4⟩ := convert_floor (fl := fl) (s := s) hd
    refine ⟨h2.symm, ?_⟩
    have := (convert_floor (fl := fl) (s := (consToPrim fl d s).1) hd).2.2.2
    have e : (consToPrim fl d s).1 / d = (consToPrim fl d s).2 := by rw [h2, mul_div_cancel_right₀ _ hd.ne']
    rw [e] at this
    exact (this h1).trans rfl

/-- With `scalar_bounds`: the new concentration lies between the old ones around it. -/
theorem convert_bounds {fl lo hi d s : K} (hd : 0 < d) (hf : fl ≤ lo) (h : lo * d ≤ s ∧ s ≤ hi * d) :
    lo ≤ (consToPrim fl d s).2 ∧ (consToPrim fl d s).2 ≤ hi ∧ (consToPrim fl d s).1 = s := by
  have h4 := (convert_floor (fl := fl) (s := s) hd).2.2.2
    (hf.trans ((le_div_iff₀ hd).2 h.1))
  rw [h4]
  exact ⟨(le_div_iff₀ hd).2 h.1, (div_le_iff₀ hd).2 h.2, rfl⟩

end conv

/-! ## The floor of the fourth-order conversion -/

section fourth
variable {K : Type} [Field K] [LinearOrder K]

/-- The floor applied at the end of the fourth-order conversion does not act on the cells: in every cell whose position in
the array, counted in rows of `x1`, is at least `NSCALARS`, the value stored is the unfloored one, however far below the
floor. In particular in all interior cells of a three-dimensional block with `NSCALARS ≤ nx2` (array size). -/
theorem fourth_order_floor_missed (A : Arr) (fl : K) (ns : Nat) (kl ku jl ju il iu : Int)
    (val : Int → Int → Int → Int → K) (m : Mem K) {n k j i : Int} (hn : 0 ≤ n ∧ n < ns) (hk : kl ≤ k ∧ k ≤ ku)
    (hj : jl ≤ j ∧ j ≤ ju) (hi : il ≤ i ∧ i ≤ iu) (h1 : 0 ≤ il ∧ iu < A.nx1) (h2 : 0 ≤ jl ∧ ju < A.nx2)
    (h3 : 0 ≤ kl ∧ ku < A.nx3) (hrow : (ns : Int) ≤ j + A.nx2 * (k + A.nx3 * n)) :
    cellAverage A fl ns kl ku jl ju il iu val m (A.at4 n k j i) = val n k j i := by
  have fl_other : ∀ n' i' : Int, n' < ns → il ≤ i' → i' ≤ iu → A.at4 n k j i ≠ A.at2 n' i' := by
    intro n' i' hn' a b e
    unfold Arr.at4 Arr.at2 at e
    have := (Verif.Arr.horner_inj (by omega) (by omega) (by omega) (by omega) (add_left_cancel e)).2
    omega
  have other : ∀ n' k' j' i' : Int, kl ≤ k' → k' ≤ ku → jl ≤ j' → j' ≤ ju → il ≤ i' → i' ≤ iu →
      A.at4 n k j i = A.at4 n' k' j' i' → n = n' ∧ k = k' ∧ j = j' ∧ i = i' := by
    intro n' k' j' i' a a' b b' c c' e
    unfold Arr.at4 at e
    obtain ⟨e1, e2⟩ := Verif.Arr.horner_inj (by omega) (by omega) (by omega) (by omega) (add_left_cancel e)
    obtain ⟨e3, e4⟩ := Verif.Arr.horner_inj (by omega) (by omega) (by omega) (by omega) e2
    obtain ⟨e5, e6⟩ := Verif.Arr.horner_inj (by omega) (by omega) (by omega) (by omega) e4
    exact ⟨e6, e5, e3, e1⟩
  have keep : ∀ n' k' j' i' : Int, n' < ns → kl ≤ k' → k' ≤ ku → jl ≤ j' → j' ≤ ju → il ≤ i' → i' ≤ iu →
      ¬ (n' = n ∧ k' = k ∧ j' = j ∧ i' = i) → ∀ m : Mem K,
      applyFloor A fl n' i' (store m (A.at4 n' k' j' i') (val n' k' j' i')) (A.at4 n k j i) = m (A.at4 n k j i) := by
    intro n' k' j' i' hn' a a' b b' c c' hne m
    unfold applyFloor
    rw [store, if_neg (fl_other n' i' hn' c c'), store, if_neg]
    intro e
    obtain ⟨e1, e2, e3, e4⟩ := other n' k' j' i' a a' b b' c c' e
    exact hne ⟨e1.symm, e2.symm, e3.symm, e4.symm⟩
  unfold cellAverage
  refine loop_hit (fun m : Mem K => m (A.at4 n k j i)) _ _ _ _ n hn.1 (by omega) (fun m => ?_) (fun n' a a' hne m => ?_) m
  · refine loop_hit (fun m : Mem K => m (A.at4 n k j i)) _ _ _ _ k hk.1 hk.2 (fun m => ?_) (fun k' b b' hne m => ?_) m
    · refine loop_hit (fun m : Mem K => m (A.at4 n k j i)) _ _ _ _ j hj.1 hj.2 (fun m => ?_) (fun j' c c' hne m => ?_) m
      · refine loop_hit (fun m : Mem K => m (A.at4 n k j i)) _ _ _ _ i hi.1 hi.2 (fun m => ?_) (fun i' e e' hne m => ?_) m
        · show applyFloor A fl n i _ _ = _
          unfold applyFloor
          rw [store, if_neg (fl_other n i hn.2 hi.1 hi.2), store, if_pos rfl]
        · exact keep n k j i' hn.2 hk.1 hk.2 hj.1 hj.2 e e' (fun h => hne h.2.2.2) m
      · exact loop_keep (fun m : Mem K => m (A.at4 n k j i)) _ _ _
          (fun i' e e' m => keep n k j' i' hn.2 hk.1 hk.2 c c' e e' (fun h => hne h.2.2.1) m) m
    · exact loop_keep (fun m : Mem K => m (A.at4 n k j i)) _ _ _ (fun j' c c' m =>
        loop_keep (fun m : Mem K => m (A.at4 n k j i)) _ _ _
          (fun i' e e' m => keep n k' j' i' hn.2 b b' c c' e e' (fun h => hne h.2.1) m) m) m
  · exact loop_keep (fun m : Mem K => m (A.at4 n k j i)) _ _ _ (fun k' b b' m =>
      loop_keep (fun m : Mem K => m (A.at4 n k j i)) _ _ _ (fun j' c c' m =>
        loop_keep (fun m : Mem K => m (A.at4 n k j i)) _ _ _
          (fun i' e e' m => keep n' k' j' i' (by omega) b b' c c' e e' (fun h => hne h.1) m) m) m) m

/-- The interior of a three-dimensional block: every value below the floor stays below it. -/
theorem fourth_order_floor_missed_3d (ng nx1 nx2 nx3 : Int) (hg : 0 < ng) (h1 : 0 < nx1) (h2 : 0 < nx2) (h3 : 0 < nx3)
    (fl : K) (ns : Nat) (hs : (ns : Int) ≤ nx2 + 2 * ng) (val : Int → Int → Int → Int → K) (m : Mem K) (base : Int)
    {n k j i : Int} (hn : 0 ≤ n ∧ n < ns) (hk : ng ≤ k ∧ k < ng + nx3) (hj : ng ≤ j ∧ j < ng + nx2)
    (hi : ng ≤ i ∧ i < ng + nx1) (hv : val n k j i < fl) :
    let A : Arr := ⟨base, nx1 + 2 * ng, nx2 + 2 * ng, nx3 + 2 * ng, ns, 1, 1⟩
    cellAverage A fl ns ng (ng + nx3 - 1) ng (ng + nx2 - 1) ng (ng + nx1 - 1) val m (A.at4 n k j i) < fl := by
  intro A
  rw [fourth_order_floor_missed A fl ns _ _ _ _ _ _ val m hn ⟨hk.1, by omega⟩ ⟨hj.1, by omega⟩ ⟨hi.1, by omega⟩
    ⟨by omega, by simp only [A]; omega⟩ ⟨by omega, by simp only [A]; omega⟩ ⟨by omega, by simp only [A]; omega⟩ ?_]
  · exact hv
  · simp only [A]
    have p : 0 ≤ (nx3 + 2 * ng) * n := mul_nonneg (by omega) hn.1
    have q : (nx2 + 2 * ng) * 1 ≤ (nx2 + 2 * ng) * (k + (nx3 + 2 * ng) * n) :=
      mul_le_mul_of_nonneg_left (by omega) (by omega)
    linarith [hj.1]

/-- What the floor does instead: it raises `r(0,0,n,i)` (a ghost cell). -/
theorem fourth_order_floor_hits (A : Arr) (fl : K) (n i : Int) (m : Mem K) (p : Int) :
    applyFloor A fl n i m p = if p = A.at4 0 0 n i then (if m p > fl then m p else fl) else m p := by
  have e : A.at2 n i = A.at4 0 0 n i := by unfold Arr.at2 Arr.at4; ring
  unfold applyFloor store
  rw [e]
  split
  · next h => rw [h]
  · rfl

/-- The work array of the fourth-order conversion is `Hydro::scr1_nkji_`, which has room for `NHYDRO` variables
(hydro.cpp:140): with more scalars than that, the Laplacian of scalar `n ≥ NHYDRO` is written past its end. -/
theorem fourth_order_work_overrun (base nc1 nc2 nc3 nhydro n k j i : Int) (h1 : 0 < nc1) (h2 : 0 < nc2) (h3 : 0 < nc3)
    (hk : 0 ≤ k) (hj : 0 ≤ j) (hi : 0 ≤ i) (hn : nhydro ≤ n) :
    let A : Arr := ⟨base, nc1, nc2, nc3, nhydro, 1, 1⟩
    A.base + A.size ≤ A.at4 n k j i := by
  intro A
  simp only [A, Arr.at4, Arr.size]
  have a : nc3 * nhydro ≤ k + nc3 * n := by nlinarith
  have b : nc2 * (nc3 * nhydro) ≤ j + nc2 * (k + nc3 * n) := by nlinarith
  nlinarith

end fourth

/-! ## Diffusion -/

section diffusion
variable {K : Type} [Field K] [LinearOrder K] [IsStrictOrderedRing K]

omit [IsStrictOrderedRing K] in
/-- A uniform concentration has no diffusive flux: adding the diffusive fluxes changes nothing for that scalar. -/
theorem diffusion_uniform (d : Dims) (ns : Nat) (mag : Bool) (M : Metric K) (nu q : K) (r : A4 K) (rho : A3 K) (F : Flx K)
    {n : Int} (hr : ∀ k j i, r (n, k, j, i) = q) (k j i : Int) :
    let D := addDiffusion d (diffusiveFlux d ns mag M nu r rho) F
    D.x1 (n, k, j, i) = F.x1 (n, k, j, i) ∧ D.x2 (n, k, j, i) = F.x2 (n, k, j, i) ∧ D.x3 (n, k, j, i) = F.x3 (n, k, j, i) := by
  simp only [addDiffusion, diffusiveFlux, hr, sub_self, zero_div, mul_zero, ite_self, add_zero]
  refine ⟨trivial, ?_, ?_⟩ <;> split <;> simp only [hr, sub_self, zero_div, mul_zero, ite_self, add_zero]

/-- The diffusive flux runs from the higher to the lower concentration, with no flux between equal concentrations, at every
face of the interior cells. -/
theorem diffusion_downhill (d : Dims) (ns : Nat) (mag : Bool) (M : Metric K) (nu : K) (r : A4 K) (rho : A3 K)
    (hnu : 0 < nu) (hrho : ∀ p, 0 < rho p)
    (hM : ∀ x, 0 < M.dx1v x ∧ 0 < M.dx2v x ∧ 0 < M.dx3v x ∧ 0 < M.h2v x ∧ 0 < M.h31v x ∧ 0 < M.h32v x) {n k j i : Int}
    (hn : 0 ≤ n ∧ n < ns) :
    let D := diffusiveFlux d ns mag M nu r rho
    (d.ks ≤ k ∧ k ≤ d.ke → d.js ≤ j ∧ j ≤ d.je → d.is ≤ i ∧ i ≤ d.ie + 1 →
        SignType.sign (D.x1 (n, k, j, i)) = SignType.sign (r (n, k, j, i - 1) - r (n, k, j, i))) ∧
      (d.nx2 > 1 → d.ks ≤ k ∧ k ≤ d.ke → d.js ≤ j ∧ j ≤ d.je + 1 → d.is ≤ i ∧ i ≤ d.ie →
        SignType.sign (D.x2 (n, k, j, i)) = SignType.sign (r (n, k, j - 1, i) - r (n, k, j, i))) ∧
      (d.nx3 > 1 → d.ks ≤ k ∧ k ≤ d.ke + 1 → d.js ≤ j ∧ j ≤ d.je → d.is ≤ i ∧ i ≤ d.ie →
        SignType.sign (D.x3 (n, k, j, i)) = SignType.sign (r (n, k - 1, j, i) - r (n, k, j, i))) := by
  have key : ∀ a b c x y : K, 0 < a → 0 < b → 0 < c →
      SignType.sign (0 - nu * (1 / 2 * (a + b)) * ((y - x) / c)) = SignType.sign (x - y) := by
    intro a b c x y ha hb hc
    have e : 0 - nu * (1 / 2 * (a + b)) * ((y - x) / c) = (nu * (1 / 2 * (a + b)) / c) * (x - y) := by ring
    have h : 0 < nu * (1 / 2 * (a + b)) / c := div_pos (mul_pos hnu (by linarith)) hc
    rw [e, sign_mul, sign_pos h, one_mul]
  have gk : ∀ (c : Prop) [Decidable c], (0 : Int) ≤ if c then 1 else 0 := by intro c _; split <;> omega
  have g1 := gk (mag = true)
  have g2 := gk (mag = true ∧ d.nx2 > 1)
  have g3 := gk (mag = true ∧ d.nx3 > 1)
  simp only [diffusiveFlux]
  refine ⟨fun hk hj hi => ?_, fun hd hk hj hi => ?_, fun hd hk hj hi => ?_⟩
  · rw [if_pos ⟨⟨hn.1, by omega⟩, by omega, by omega, by omega, by omega, by omega, by omega⟩]
    exact key _ _ _ _ _ (hrho _) (hrho _) (hM _).1
  · rw [if_pos ⟨hd, ⟨hn.1, by omega⟩, by omega, by omega, by omega, by omega, by omega, by omega⟩, div_div]
    exact key _ _ _ _ _ (hrho _) (hrho _) (mul_pos (hM _).2.2.2.1 (hM _).2.1)
  · rw [if_pos ⟨hd, ⟨hn.1, by omega⟩, by omega, by omega, by omega, by omega, by omega, by omega⟩, div_div, div_div]
    exact key _ _ _ _ _ (hrho _) (hrho _) (mul_pos (hM _).2.2.1 (mul_pos (hM _).2.2.2.2.1 (hM _).2.2.2.2.2))

end diffusion

/-! ## Restriction and prolongation -/

section refine
variable {K : Type} [Field K] [LinearOrder K] [IsStrictOrderedRing K]

/-- Restriction: a scalar that is `q` times the density in the fine cells is so in the coarse cells. -/
theorem restrict_uniform (d : Dims) (ho : d.Ok) (G : Geom K) (fu cu fs cs : A4 K) (sn en sn' en' : Int) (b : Box)
    {n n' k j i : Int} {q : K} (hn : sn ≤ n ∧ n ≤ en) (hn' : sn' ≤ n' ∧ n' ≤ en') (hb : b.Has d k j i)
    (h : ∀ c ∈ fines d k j i, fs (n, c) = q * fu (n', c)) :
    restrictCC d G fs sn en b.si b.ei b.sj b.ej b.sk b.ek cs (n, k, j, i) =
      q * restrictCC d G fu sn' en' b.si b.ei b.sj b.ej b.sk b.ek cu (n', k, j, i) := by
  rw [restrictCC_eq d ho G fs cs sn en b n k j i hn hb, restrictCC_eq d ho G fu cu sn' en' b n' k j i hn' hb, ← mul_div_assoc,
    Finset.mul_sum]
  congr 1
  exact Finset.sum_congr rfl (fun c hc => by rw [h c hc]; ring)

/-- The limited gradient of a multiple. -/
theorem slope_mul (q m c p dm dp : K) : slope (q * m) (q * c) (q * p) dm dp = q * slope m c p dm dp := by
  unfold slope
  have e1 : (q * c - q * m) / dm = q * ((c - m) / dm) := by ring
  have e2 : (q * p - q * c) / dp = q * ((p - c) / dp) := by ring
  simp only [e1, e2]
  generalize (c - m) / dm = x
  generalize (p - c) / dp = y
  rw [abs_mul, abs_mul, ← mul_min_of_nonneg _ _ (abs_nonneg q)]
  by_cases hx : x = 0
  · simp [hx]
  by_cases hy : y = 0
  · simp [hy]
  rcases lt_trichotomy q 0 with hq | hq | hq
  · have sx : ∀ z : K, z ≠ 0 → Grid.sign (q * z) = -Grid.sign z := by
      intro z hz
      unfold Grid.sign
      rcases lt_or_gt_of_ne hz with h | h
      · rw [if_neg (not_lt.2 (mul_pos_of_neg_of_neg hq h).le), if_pos h]; ring
      · rw [if_pos (mul_neg_of_neg_of_pos hq h), if_neg (not_lt.2 h.le)]
    rw [sx x hx, sx y hy, abs_of_neg hq]; ring
  · simp [hq]
  · have sx : ∀ z : K, Grid.sign (q * z) = Grid.sign z := by
      intro z
      unfold Grid.sign
      by_cases h : z < 0
      · rw [if_pos (mul_neg_of_pos_of_neg hq h), if_pos h]
      · rw [if_neg (not_lt.2 (mul_nonneg hq.le (not_lt.1 h))), if_neg h]
    rw [sx x, sx y, abs_of_pos hq]; ring

/-- Prolongation: a scalar that is `q` times the density in the coarse cells is so in the fine cells. -/
theorem prolong_uniform (d : Dims) (ho : d.Ok) (C F : Crd K) (fu cu fs cs : A4 K) (sn en sn' en' : Int) (b : Box)
    {n n' k j i : Int} {q : K} (hn : sn ≤ n ∧ n ≤ en) (hn' : sn' ≤ n' ∧ n' ≤ en') (hb : b.Has d k j i)
    (h : ∀ c, cs (n, c) = q * cu (n', c)) (c : Int × Int × Int) (hc : c ∈ fines d k j i) :
    prolongCC d C F cs sn en b.si b.ei b.sj b.ej b.sk b.ek fs (n, c) =
      q * prolongCC d C F cu sn' en' b.si b.ei b.sj b.ej b.sk b.ek fu (n', c) := by
  rw [prolongCC_eq d ho C F fs cs sn en b n k j i hn hb c hc, prolongCC_eq d ho C F fu cu sn' en' b n' k j i hn' hb c hc]
  have e2 : g2 d C cs n k j i = q * g2 d C cu n' k j i := by
    unfold g2; split
    · simp only [h, slope_mul]
    · rw [mul_zero]
  have e3 : g3 d C cs n k j i = q * g3 d C cu n' k j i := by
    unfold g3; split
    · simp only [h, slope_mul]
    · rw [mul_zero]
  have e1 : g1 C cs n k j i = q * g1 C cu n' k j i := by
    unfold g1; simp only [h, slope_mul]
  rw [e1, e2, e3, h]
  ring

end refine

/-! ## A time step -/

section step

theorem weightedAve_mem {V : Type} [AddCommGroup V] [Module ℚ V] (W : Submodule ℚ V) {w : Wghts} {o a v : V}
    {b c e : Option V} (ho : o ∈ W) (ha : a ∈ W) (hb : ∀ x ∈ b, x ∈ W) (hc : ∀ x ∈ c, x ∈ W) (he : ∀ x ∈ e, x ∈ W)
    (h : weightedAve w o a b c e = some v) : v ∈ W := by
  unfold weightedAve at h
  cases b <;> cases c <;> cases e <;> simp only [Option.bind_eq_bind, Option.bind_none, Option.bind_some] at h
  all_goals
    repeat' split at h
  all_goals cases h
  all_goals
    simp only [Option.mem_def, Option.some.injEq, forall_eq', reduceCtorEq, false_implies, implies_true] at hb hc he
    repeat' first
      | assumption
      | apply W.add_mem
      | apply W.smul_mem

/-- A subspace that fluxes and sources (from states as they occur at the beginning of the stages) and orbital advection do
not leave is not left by a step, for every integrator. -/
theorem step_mem {V : Type} [AddCommGroup V] [Module ℚ V] (W : Submodule ℚ V) (g : Integ) (orb : Nat) (sm : Bool)
    (P : Phys V) (Good : V → Prop) (hf : ∀ low u, u ∈ W → Good u → P.flux low u ∈ W)
    (hs : ∀ t u, u ∈ W → Good u → P.src t u ∈ W) (ho : ∀ t u, u ∈ W → P.orb t u ∈ W) {u v : V} (hu : u ∈ W)
    (hg : ∀ x ∈ stepInputs g orb sm P u, Good x) (h : step g orb sm P u = some v) : v ∈ W := by
  have hint : ∀ n st kL kS (r r' : Regs V), kL ∈ W → kS ∈ W → (r.u ∈ W ∧ r.u1 ∈ W ∧ ∀ x ∈ r.u2, x ∈ W) →
      integrate g n st kL kS r = some r' → r'.u ∈ W ∧ r'.u1 ∈ W ∧ ∀ x ∈ r'.u2, x ∈ W := by
    rintro n st kL kS r r' hL hS ⟨h1, h2, h3⟩ h
    have two : ∀ u' u1' u2', u' ∈ W → u1' ∈ W → (∀ x ∈ u2', x ∈ W) →
        some (⟨u' + st.beta • kL + st.beta • kS, u1', u2'⟩ : Regs V) = some r' →
        r'.u ∈ W ∧ r'.u1 ∈ W ∧ ∀ x ∈ r'.u2, x ∈ W := by
      intro u' u1' u2' a1 a2 a3 e
      cases e
      exact ⟨W.add_mem (W.add_mem a1 (W.smul_mem _ hL)) (W.smul_mem _ hS), a2, a3⟩
    have one : ∀ u' u1', u' ∈ W → u1' ∈ W →
        (if n = 4 ∧ g = .ssprk54 then do
          let u2 ← r.u2
          let u2 ← weightedAve ⟨-1, 0, 0, 0, 0⟩ u2 u1' (some u2) none none
          some (⟨u' + st.beta • kL + st.beta • kS, u1', some (u2 + (63692468666290/10^15 : ℚ) • kL)⟩ : Regs V)
        else some ⟨u' + st.beta • kL + st.beta • kS, u1', r.u2⟩) = some r' →
        r'.u ∈ W ∧ r'.u1 ∈ W ∧ ∀ x ∈ r'.u2, x ∈ W := by
      intro u' u1' a1 a2 e
      split at e
      · simp only [Option.bind_eq_bind, Option.bind_eq_some_iff] at e
        obtain ⟨y, ey, z, ez, ew⟩ := e
        refine two u' u1' _ a1 a2 ?_ ew
        intro x hx
        cases hx
        exact W.add_mem (weightedAve_mem W (h3 y ey) a2 (by simpa using h3 y ey) (by simp) (by simp) ez) (W.smul_mem _ hL)
      · exact two u' u1' _ a1 a2 h3 e
    unfold integrate at h
    simp only [Option.bind_eq_bind, Option.bind_eq_some_iff] at h
    obtain ⟨u1, e1, e2⟩ := h
    have m1 : u1 ∈ W := weightedAve_mem W h2 h1 h3 (by simp) (by simp) e1
    split at e2
    · exact one _ _ m1 h1 e2
    · simp only [Option.bind_eq_some_iff, Option.map_eq_some_iff] at e2
      obtain ⟨_, ⟨x, ex, rfl⟩, e3⟩ := e2
      exact one _ _ (weightedAve_mem W h1 m1 h3 (by simp) (by simp) ex) m1 e3
  have hstage : ∀ first n st (r r' : Regs V), Good r.u → (r.u ∈ W ∧ r.u1 ∈ W ∧ ∀ x ∈ r.u2, x ∈ W) →
      stageStep g P first n st r = some r' → r'.u ∈ W ∧ r'.u1 ∈ W ∧ ∀ x ∈ r'.u2, x ∈ W := by
    intro first n st r r' hgr hr h
    have fin : ∀ r1 : Regs V, (r1.u ∈ W ∧ r1.u1 ∈ W ∧ ∀ x ∈ r1.u2, x ∈ W) →
        some (if st.orbital then ⟨P.orb (st.ebeta - st.sbeta) r1.u, r1.u1, r1.u2⟩ else r1) = some r' →
        r'.u ∈ W ∧ r'.u1 ∈ W ∧ ∀ x ∈ r'.u2, x ∈ W := by
      intro r1 m e
      cases e
      split
      · exact ⟨ho _ _ m.1, m.2⟩
      · exact m
    unfold stageStep at h
    by_cases hm : st.main = true
    · rw [if_pos hm] at h
      simp only [Option.bind_eq_bind, Option.bind_eq_some_iff] at h
      obtain ⟨r1, e1, e2⟩ := h
      exact fin r1 (hint _ _ _ _ _ _ (hf _ _ hr.1 hgr) (hs _ _ hr.1 hgr) hr e1) e2
    · rw [if_neg hm] at h
      exact fin r hr h
  have hrun : ∀ first sts n (r r' : Regs V), (∀ x ∈ stageInputs g P first n sts r, Good x) → (r.u ∈ W ∧ r.u1 ∈ W ∧ ∀ x ∈ r.u2, x ∈ W) →
      runStages g P first n sts r = some r' → r'.u ∈ W ∧ r'.u1 ∈ W ∧ ∀ x ∈ r'.u2, x ∈ W := by
    intro first sts
    induction sts with
    | nil => intro n r r' _ hr h; simp only [runStages] at h; cases h; exact hr
    | cons st sts ih =>
      intro n r r' hgr hr h
      simp only [runStages, Option.bind_eq_some_iff] at h
      obtain ⟨r1, e1, e2⟩ := h
      simp only [stageInputs, e1, List.mem_cons, forall_eq_or_imp] at hgr
      exact ih _ _ _ hgr.2 (hstage _ _ _ _ _ hgr.1 hr e1) e2
  unfold step at h
  unfold stepInputs at hg
  cases hst : stages g orb sm with
  | none => rw [hst] at h; cases h
  | some sts =>
    rw [hst] at h hg
    simp only [Option.map_eq_some_iff] at h
    obtain ⟨r', e, rfl⟩ := h
    refine (hrun _ _ _ _ _ hg ?_ e).1
    refine ⟨hu, W.zero_mem, ?_⟩
    split
    · intro x hx; cases hx; exact hu
    · simp

/-- Uniform concentrations stay uniform over a step of every integrator, with donor cell, PLM or PPM, whatever the mass
fluxes of the Riemann solver are and whatever the work arrays contain: if scalar `n` is `q n` times the density in the
interior cells, it is so after the step, as long as the density is positive at the beginning of each stage. `fill` is any way
to fill the ghost cells that keeps uniform concentrations uniform and a positive density positive; `src` and `orb` are any
sources and orbital advection that keep them uniform. -/
theorem uniform_step (d : Dims) (ns nh : Nat) (R1 R2 R3 : Rec ℚ) (fl : ℚ) (scr : Int → Int → Scratch ℚ) (G : Geom ℚ)
    (F0 : Flx ℚ) (a b c : Row ℚ) (dt : ℚ) (fill : A4 ℚ × A4 ℚ → A4 ℚ × A4 ℚ) (hyd : Bool → A4 ℚ × A4 ℚ → Flx ℚ)
    (src orb : ℚ → A4 ℚ × A4 ℚ → A4 ℚ × A4 ℚ) (g : Integ) (o : Nat) (sm : Bool) (q : Int → ℚ)
    (h1 : R1.Consistent ns) (h2 : R2.Consistent ns) (h3 : R3.Consistent ns) (hh : 0 < nh)
    (hq : ∀ n : Int, 0 ≤ n → n < ns → fl ≤ q n)
    (hfill : ∀ us ∈ Proportional d ns q, Positive d us → ∀ n k j i : Int, 0 ≤ n → n < ns →
      0 < (fill us).1 (0, k, j, i) ∧ (fill us).2 (n, k, j, i) = q n * (fill us).1 (0, k, j, i))
    (hsrc : ∀ t, ∀ us ∈ Proportional d ns q, src t us ∈ Proportional d ns q)
    (horb : ∀ t, ∀ us ∈ Proportional d ns q, orb t us ∈ Proportional d ns q)
    {us us' : A4 ℚ × A4 ℚ} (h0 : us ∈ Proportional d ns q)
    (hpos : ∀ x ∈ stepInputs g o sm ⟨fluxDivergence d ns nh R1 R2 R3 fl scr G F0 a b c dt fill hyd, src, orb⟩ us, Positive d x)
    (hstep : step g o sm ⟨fluxDivergence d ns nh R1 R2 R3 fl scr G F0 a b c dt fill hyd, src, orb⟩ us = some us') :
    us' ∈ Proportional d ns q := by
  refine step_mem _ g o sm _ (Positive d) ?_ (fun t us hus _ => hsrc t us hus) horb h0 hpos hstep
  intro low us hus hp n k j i n0 n1 hc
  have hr : ∀ k j i, (fun p : Int × Int × Int × Int => (consToPrim fl ((fill us).1 (0, p.2)) ((fill us).2 p)).2) (n, k, j, i) = q n := by
    intro k j i
    obtain ⟨e1, e2⟩ := hfill us hus hp n k j i n0 n1
    have := (convert_round_trip (fl := fl) e1).1 (q n) (hq n n0 n1)
    simp only [primToCons] at this
    simp only [e2, this]
  simp only [fluxDivergence]
  cases low
  · simp only [Bool.false_eq_true, if_false]
    exact uniform_update h1 h2 h3 ⟨n0, n1⟩ hc hr (fun _ => hq n n0 n1) hh G dt _ _ (by simp)
  · simp only [if_true]
    exact uniform_update (R1 := .donor) (R2 := .donor) (R3 := .donor) trivial trivial trivial ⟨n0, n1⟩ hc hr
      (fun _ => hq n n0 n1) hh G dt _ _ (by simp)

end step

/-! ## The hypotheses can be met -/

section sample

/-- A block of 8 x 4 cells with two ghost cells. -/
private def dS : Dims := ⟨2, 8, 4, 1⟩

private theorem dS_cell {k j i : Int} (h : k = 0 ∧ (2 ≤ j ∧ j ≤ 5) ∧ 2 ≤ i ∧ i ≤ 9) : Active dS k j i := by
  obtain ⟨rfl, h⟩ := h
  exact ⟨⟨by decide, by decide⟩, h⟩

private def fl0 : Line ℚ := cartLine (fun i => (i : ℚ))

private theorem plm_limited (third mm : Bool) : (Rec.plm mm true fl0 4).Limited third 2 (2 : ℚ) ∧
    (Rec.plm mm true fl0 4).Consistent 2 := by
  refine ⟨⟨le_refl _, fun _ => by norm_num, fun i => ?_⟩, fun _ => by norm_num⟩
  obtain ⟨h1, h2, -⟩ := smooth_of_ratio (fun i : Int => (i : ℚ)) i (by push_cast; linarith) (by push_cast; linarith)
    (by push_cast; linarith)
  exact ⟨h1, h2, fun _ h => by cases h⟩

private def w2 : Weights ℚ := { (uniformW : Weights ℚ) with hp := fun _ => 2, hm := fun _ => 2 }

private theorem ppm_limited (third ext : Bool) : (Rec.ppm ext false false w2).Limited third 2 (3 : ℚ) ∧
    (Rec.ppm ext false false w2).Consistent 2 := by
  refine ⟨⟨Or.inl rfl, fun i => ?_⟩, fun i => ?_⟩ <;> norm_num [w2]

/-- Unit cells; density 2; the second scalar has concentration 3 + (1 in even columns); mass flux 1/4 to the right and
-1/8 in x2. -/
private def gS : Geom ℚ := ⟨fun _ => 1, fun _ => 1, fun _ => 1, fun _ => 1⟩
private def hS : Flx ℚ := ⟨fun p => if p.1 = 0 then 1/4 else 5, fun p => if p.1 = 0 then -1/8 else 6, fun _ => 0⟩
private def rS : A4 ℚ := fun p => if p.2.2.2 % 2 = 0 then 4 else 3

example : let F := calculateFluxes dS 2 (.plm false true fl0 4) (.plm true true fl0 4) .donor 0 (fun _ _ => (0, 0, 0)) rS hS hS 0 0 0
    let s' := addFluxDivergence dS 2 gS F 1 (fun p => rS p * 2) (1, 0, 3, 4)
    let u' := addFluxDivergence dS 4 gS hS 1 (fun _ => 2) (0, 0, 3, 4)
    3 * u' ≤ s' ∧ s' ≤ 4 * u' := by
  have h := scalar_bounds (d := dS) (ns := 2) (R1 := .plm false true fl0 4) (R2 := .plm true true fl0 4) (R3 := .donor)
    (fl := 0) (scr := fun _ _ => (0, 0, 0)) (r := rS) (H := hS) (F0 := hS) (a := 0) (b := 0) (c := 0) (kap := 2) (lo := 3) (hi := 4)
    (plm_limited _ _).1 (fun _ => (plm_limited _ _).1) (fun h => absurd h (by decide)) (n := 1) (k := 0) (j := 3) (i := 4)
    ⟨by norm_num, by norm_num⟩ (dS_cell (by norm_num)) (fun h => by rcases h with h | h | h <;> cases h)
    (fun k' j' i' _ => by simp only [rS]; split <;> norm_num) (nh := 4) (by norm_num) gS 1 (fun _ => 2) (fun p => rS p * 2)
    (by norm_num) (by norm_num [gS]) (fun p => by norm_num [gS]) rfl (by norm_num [outflow, gS, hS, dS])
  exact h

example : Active dS 0 3 4 ∧ (Rec.donor : Rec ℚ).Consistent 2 ∧ (Rec.ppm true false false w2).Consistent 2 ∧
    (Rec.ppm false false false w2).Limited true 2 3 ∧ (Rec.donor : Rec ℚ).Limited true 2 1 :=
  ⟨dS_cell (by norm_num), trivial, (ppm_limited true _).2, (ppm_limited _ _).1, le_refl _⟩

example : consToPrim (1/100) (2 : ℚ) 0 = (1/50, 1/100) ∧ consToPrim (1/100) (2 : ℚ) (1/2) = (1/2, 1/4) := by
  norm_num [consToPrim]

example : ((2 : Nat) : Int) ≤ 16 + 2 * 2 ∧ (2 : Int) ≤ 3 ∧ (3 : Int) < 2 + 16 := by norm_num

private def mS : Metric ℚ := ⟨fun _ => 1, fun _ => 1, fun _ => 1, fun _ => 2, fun _ => 1, fun _ => 1⟩

example : (diffusiveFlux dS 2 false mS (1/2) rS (fun _ => 2)).x1 (1, 0, 3, 4) = -1 ∧
    (diffusiveFlux dS 2 false mS (1/2) rS (fun _ => 2)).x1 (1, 0, 3, 5) = 1 ∧
    (diffusiveFlux dS 2 false mS (1/2) rS (fun _ => 2)).x2 (1, 0, 3, 4) = 0 := by
  norm_num [diffusiveFlux, dS, mS, rS, Dims.ks, Dims.ke, Dims.js, Dims.je, Dims.is, Dims.ie]

/-- Outflow boundaries: ghost cells take the nearest interior cell. -/
private def clampI (lo hi x : Int) : Int := max lo (min hi x)
private def fillS (us : A4 ℚ × A4 ℚ) : A4 ℚ × A4 ℚ :=
  (fun p => us.1 (p.1, clampI 0 0 p.2.1, clampI 2 5 p.2.2.1, clampI 2 9 p.2.2.2),
   fun p => us.2 (p.1, clampI 0 0 p.2.1, clampI 2 5 p.2.2.1, clampI 2 9 p.2.2.2))

private def qS : Int → ℚ := fun n => n + 3
private def usS : A4 ℚ × A4 ℚ := (fun p => 2 + p.2.2.2 ^ 2, fun p => (p.1 + 3) * (2 + p.2.2.2 ^ 2))

example : ∃ us', step .rk1 0 false ⟨fluxDivergence dS 2 4 (.ppm true false false w2) (.plm true true fl0 4) .donor (1/100)
      (fun _ _ => (0, 0, 0)) gS hS 0 0 0 (1/2) fillS (fun _ us => ⟨fun p => us.1 p / 4, fun _ => 1, fun _ => 0⟩),
      fun _ us => us, fun _ us => us⟩ usS = some us' ∧ us' ∈ Proportional dS 2 qS := by
  obtain ⟨us', h⟩ : ∃ us', step .rk1 0 false ⟨fluxDivergence dS 2 4 (.ppm true false false w2) (.plm true true fl0 4) .donor (1/100)
      (fun _ _ => (0, 0, 0)) gS hS 0 0 0 (1/2) fillS (fun _ us => ⟨fun p => us.1 p / 4, fun _ => 1, fun _ => 0⟩),
      fun _ us => us, fun _ us => us⟩ usS = some us' := ⟨_, rk1_step false _ _⟩
  refine ⟨us', h, uniform_step dS 2 4 _ _ .donor (1/100) _ gS hS 0 0 0 (1/2) fillS _ _ _ .rk1 0 false qS (ppm_limited true _).2
    (plm_limited true _).2 trivial (by norm_num) ?_ ?_ (fun _ _ h => h) (fun _ _ h => h) ?_ ?_ h⟩
  · intro n h0 _
    have : (0 : ℚ) ≤ n := by exact_mod_cast h0
    simp only [qS]; linarith
  · intro us hus hp n k j i h0 h1
    have hA : Active dS (clampI 0 0 k) (clampI 2 5 j) (clampI 2 9 i) := by
      refine dS_cell ?_; simp only [clampI]; omega
    exact ⟨hp _ _ _ hA, hus n _ _ _ h0 h1 hA⟩
  · intro n k j i _ _ _
    simp only [usS, qS]
  · intro x hx
    obtain ⟨st, e⟩ : ∃ st, stages .rk1 0 false = some [st] := ⟨_, rfl⟩
    have : x = usS := by
      simp only [stepInputs, e, stageInputs, List.mem_cons] at hx
      rcases hx with hx | hx
      · exact hx
      · split at hx <;> simp at hx
    subst this
    intro k j i _
    simp only [usS]; positivity

end sample
end Verif.Scalars
