import Verif.Lemmas.Flux
import Mathlib.Algebra.Field.Rat
import Mathlib.Tactic.NormNum
import Mathlib.Data.Fintype.Prod
import Mathlib.Data.Fintype.Option

/-!
# Conservation of the flux-divergence update, with flux correction (C39)

Exact arithmetic over an arbitrary field. Blocks of the mesh have equal numbers of cells. One variable
is followed; the claims hold for each.
-/
namespace Verif.Grid
open Finset
variable {K : Type} [Field K]

/-- The update changes the volume integral of each variable over a block by exactly the weighted
outflow through the faces of the block: interior fluxes cancel, whatever they are. -/
theorem block_balance {d : Dims} (hd : d.Ok) (nv : Nat) (G : Geom K) (F : Flx K) (w : K) (u : A4 K) {n : Int}
    (hn : 0 ≤ n ∧ n < nv)
    (hv : ∀ k j i, d.ks ≤ k → k ≤ d.ke → d.js ≤ j → j ≤ d.je → d.is ≤ i → i ≤ d.ie → G.vol (k, j, i) ≠ 0) :
    content d G (addFluxDivergence d nv G F w u) n = content d G u n - w * ∑ f ∈ range 6, outflow d G F n f := by
  have e : content d G (addFluxDivergence d nv G F w u) n =
      ∑ k ∈ Icc d.ks d.ke, ∑ j ∈ Icc d.js d.je, ∑ i ∈ Icc d.is d.ie,
        (G.vol (k, j, i) * u (n, k, j, i) - w * dflx d G F n k j i) := by
    unfold content
    apply sum_congr rfl; intro k hk
    apply sum_congr rfl; intro j hj
    apply sum_congr rfl; intro i hi
    rw [mem_Icc] at hk hj hi
    rw [addFlux_in d nv G F w u hn hk hj hi]
    have := hv k j i hk.1 hk.2 hj.1 hj.2 hi.1 hi.2
    field_simp
  rw [e]
  simp only [sum_sub_distrib, ← mul_sum]
  rw [sum_dflx hd]
  rfl

/-- Only active cells of the `nv` variables are changed. -/
theorem update_only_active (d : Dims) (nv : Nat) (G : Geom K) (F : Flx K) (w : K) (u : A4 K) {n k j i : Int}
    (h : ¬ (0 ≤ n ∧ n < nv ∧ d.ks ≤ k ∧ k ≤ d.ke ∧ d.js ≤ j ∧ j ≤ d.je ∧ d.is ≤ i ∧ i ≤ d.ie)) :
    addFluxDivergence d nv G F w u (n, k, j, i) = u (n, k, j, i) :=
  addFlux_out d nv G F w u (fun h' => h ⟨h'.1.1, h'.1.2, h'.2.1.1, h'.2.1.2, h'.2.2.1.1, h'.2.2.1.2, h'.2.2.2.1, h'.2.2.2.2⟩)

/-- A coarse block whose face `f` touches finer blocks, after the corrections have been received in any order: what
leaves it through that face is what enters the finer blocks. -/
theorem correction_exact {d : Dims} (hd : d.Ok) (nl nu : Int) (Gc : Geom K) (Gf : Nat → Nat → Nat → Geom K)
    (Ff : Nat → Nat → Nat → Flx K) (buf : Nat → Nat → Nat → Nat → K) (slots : List (Nat × Nat × Nat)) (hnd : slots.Nodup)
    (hsl : ∀ s ∈ slots, Active d s.1 ∧ Slot d s.1 s.2.1 s.2.2)
    (hbuf : ∀ s ∈ slots, BufOf d nl nu (Gf s.1 s.2.1 s.2.2) (Ff s.1 s.2.1 s.2.2) s.1 (buf s.1 s.2.1 s.2.2))
    (F : Flx K) {f : Nat} (ha : Active d f) (hall : ∀ f1 f2, Slot d f f1 f2 → (f, f1, f2) ∈ slots)
    (hfit : ∀ f1 f2, Slot d f f1 f2 → AreasFit d Gc (Gf f f1 f2) f f1 f2) {n : Int} (hn : nl ≤ n ∧ n ≤ nu) :
    outflow d Gc (receiveCorrections d nl nu buf slots F) n f =
      - ∑ f2 ∈ range 2, ∑ f1 ∈ range 2, if Slot d f f1 f2 then outflow d (Gf f f1 f2) (Ff f f1 f2) n (opp f) else 0 :=
  corrected_outflow hd nl nu Gc Gf Ff buf slots hnd hsl hbuf F ha hall hfit hn

/-- Faces without finer neighbours keep their fluxes. -/
theorem correction_other_faces {d : Dims} (hd : d.Ok) (nl nu : Int) (Gf : Nat → Nat → Nat → Geom K)
    (Ff : Nat → Nat → Nat → Flx K) (buf : Nat → Nat → Nat → Nat → K) (slots : List (Nat × Nat × Nat))
    (hsl : ∀ s ∈ slots, Active d s.1 ∧ Slot d s.1 s.2.1 s.2.2)
    (hbuf : ∀ s ∈ slots, BufOf d nl nu (Gf s.1 s.2.1 s.2.2) (Ff s.1 s.2.1 s.2.2) s.1 (buf s.1 s.2.1 s.2.2))
    (F : Flx K) {g : Nat} (hg : g < 6) (hno : ∀ s ∈ slots, s.1 ≠ g) (n : Int) (G : Geom K) :
    outflow d G (receiveCorrections d nl nu buf slots F) n g = outflow d G F n g := by
  unfold outflow outflowOn
  simp only [recv_face hd nl nu Gf Ff buf slots hsl hbuf F hg hno]

/-- The receiver consumes exactly as many values as the finer block has sent. -/
theorem message_length {d : Dims} (hd : d.Ok) (nl nu : Int) (Gf : Geom K) (Ff F : Flx K) {f f1 f2 : Nat}
    (ha : Active d f) (hs : Slot d f f1 f2) (buf : Nat → K) (hbuf : BufOf d nl nu Gf Ff f buf) :
    (setFromFiner d nl nu f f1 f2 buf F).2 = (loadToCoarser d nl nu Gf Ff (opp f)).length := by
  have hf : f < 6 := by unfold Active at ha; omega
  obtain ⟨h6, _, _, _, _, _, _, _, e7, e8⟩ := opp_facts (d := d) hf
  unfold BufOf at hbuf
  rw [load_eq hd nl nu _ _ (active_opp ha) (slot_opp hf hs), e7, e8] at hbuf ⊢
  rw [(set_recv hd nl nu hf buf F _ hbuf).2.2]
  simp [Verif.Arr.length_prodL, Verif.Arr.length_rng]

section
open Classical

private def nbr {B : Type} (l : Link B) (b : B) : B := match l with
  | .same b' => b'
  | .coarser b' _ _ => b'
  | _ => b
private def pos1 {B : Type} : Link B → Nat | .coarser _ f1 _ => f1 | _ => 0
private def pos2 {B : Type} : Link B → Nat | .coarser _ _ f2 => f2 | _ => 0
private noncomputable def kid {B : Type} (l : Link B) (b : B) (f1 f2 : Nat) : B := match l with
  | .finer c => c f1 f2
  | _ => b

/-- Whole-mesh conservation. Blocks `B` with mutual neighbour relations, blocks of the same level
using the same fluxes at common faces, finer cell faces making up the coarser ones; every block
updates with its fluxes after the corrections from its finer face neighbours arrived, in any order.
Then the total changes only by the outflow through the edge of the domain: with periodic boundaries
it is conserved exactly. -/
theorem total_conserved {B : Type} [Fintype B] {d : Dims} (hd : d.Ok) (nv : Nat) (G : B → Geom K)
    (F : B → Flx K) (w : K) (u : B → A4 K) (link : B → Nat → Link B) (hm : Mutual d link) {n : Int} (hn : 0 ≤ n ∧ n < nv)
    (hv : ∀ b k j i, d.ks ≤ k → k ≤ d.ke → d.js ≤ j → j ≤ d.je → d.is ≤ i → i ≤ d.ie → (G b).vol (k, j, i) ≠ 0)
    (hsame : ∀ b f b', Active d f → link b f = .same b' → FluxesAgree d (G b) (G b') (F b) (F b') n f)
    (hfit : ∀ b f c, Active d f → link b f = .finer c → ∀ f1 f2, Slot d f f1 f2 →
      AreasFit d (G b) (G (c f1 f2)) f f1 f2)
    (slots : B → List (Nat × Nat × Nat)) (hnd : ∀ b, (slots b).Nodup)
    (hslots : ∀ b f f1 f2, (f, f1, f2) ∈ slots b ↔ Active d f ∧ Slot d f f1 f2 ∧ ∃ c, link b f = .finer c)
    (buf : B → Nat → Nat → Nat → Nat → K)
    (hbuf : ∀ b f c f1 f2, Active d f → link b f = .finer c → Slot d f f1 f2 →
      BufOf d 0 (nv - 1) (G (c f1 f2)) (F (c f1 f2)) f (buf b f f1 f2)) :
    ∑ b, content d (G b) (addFluxDivergence d nv (G b)
        (receiveCorrections d 0 (nv - 1) (buf b) (slots b) (F b)) w (u b)) n =
      ∑ b, content d (G b) (u b) n -
        w * ∑ b, ∑ f ∈ range 6, if link b f = .edge then outflow d (G b) (F b) n f else 0 := by
  have e : ∀ b, content d (G b) (addFluxDivergence d nv (G b)
        (receiveCorrections d 0 (nv - 1) (buf b) (slots b) (F b)) w (u b)) n = _ :=
    fun b => block_balance hd nv (G b) _ w (u b) hn (hv b)
  simp only [e, sum_sub_distrib, ← mul_sum]
  congr 2
  -- outflows after correction
  set o : B → Nat → K := fun b f => outflow d (G b) (F b) n f with ho
  have hinact : ∀ b f, ¬ Active d f → o b f = 0 := by
    intro b f h; simp only [ho]; unfold outflow; rw [if_neg h]
  have hcor : ∀ b f, f < 6 →
      outflow d (G b) (receiveCorrections d 0 (nv - 1) (buf b) (slots b) (F b)) n f =
        (if link b f = .edge then o b f else 0) +
        (if ∃ b', link b f = .same b' then o b f else 0) +
        ((if ∃ b' f1 f2, link b f = .coarser b' f1 f2 then o b f else 0) -
        (if ∃ c, link b f = .finer c then ∑ f2 ∈ range 2, ∑ f1 ∈ range 2,
          (if Active d f ∧ Slot d f f1 f2 then o (kid (link b f) b f1 f2) (opp f) else 0) else 0)) := by
    intro b f hf
    have hsl : ∀ s ∈ slots b, Active d s.1 ∧ Slot d s.1 s.2.1 s.2.2 := by
      rintro ⟨f, f1, f2⟩ h; have := (hslots b f f1 f2).1 h; exact ⟨this.1, this.2.1⟩
    have hb : ∀ s ∈ slots b, BufOf d 0 (nv - 1) (G (kid (link b s.1) b s.2.1 s.2.2))
        (F (kid (link b s.1) b s.2.1 s.2.2)) s.1 (buf b s.1 s.2.1 s.2.2) := by
      rintro ⟨f, f1, f2⟩ h
      obtain ⟨h1, h2, c, h3⟩ := (hslots b f f1 f2).1 h
      simp only [h3, kid]
      exact hbuf b f c f1 f2 h1 h3 h2
    by_cases hfin : ∃ c, link b f = .finer c
    · obtain ⟨c, hc⟩ := hfin
      simp only [hc, reduceCtorEq, exists_false, if_false, zero_add, zero_sub, Link.finer.injEq, exists_eq', if_true]
      by_cases ha : Active d f
      · rw [corrected_outflow hd 0 (nv - 1) (G b) (fun f f1 f2 => G (kid (link b f) b f1 f2))
          (fun f f1 f2 => F (kid (link b f) b f1 f2)) (buf b) (slots b) (hnd b) hsl hb (F b) ha
          (fun f1 f2 hs => (hslots b f f1 f2).2 ⟨ha, hs, c, hc⟩)
          (fun f1 f2 hs => by simp only [hc, kid]; exact hfit b f c ha hc f1 f2 hs) ⟨hn.1, by omega⟩]
        simp only [ha, true_and, hc, ho]
      · simp only [ha, false_and, if_false, sum_const_zero, neg_zero]
        unfold outflow; rw [if_neg ha]
    · rw [correction_other_faces hd 0 (nv - 1) (fun f f1 f2 => G (kid (link b f) b f1 f2))
          (fun f f1 f2 => F (kid (link b f) b f1 f2)) (buf b) (slots b) hsl hb (F b) hf
          (fun s hs => by
            rintro rfl
            exact hfin ((hslots b s.1 s.2.1 s.2.2).1 hs).2.2)]
      rw [if_neg hfin]
      rcases h : link b f with _ | b' | c | ⟨b', f1, f2⟩
      · simp [ho]
      · simp [ho]
      · exact absurd ⟨c, h⟩ hfin
      · simp [ho]
  have step : ∑ b, ∑ f ∈ range 6, outflow d (G b) (receiveCorrections d 0 (nv - 1) (buf b) (slots b) (F b)) n f =
      ∑ b, ∑ f ∈ range 6, (if link b f = .edge then o b f else 0) +
      ∑ b, ∑ f ∈ range 6, (if ∃ b', link b f = .same b' then o b f else 0) +
      (∑ b, ∑ f ∈ range 6, (if ∃ b' f1 f2, link b f = .coarser b' f1 f2 then o b f else 0) -
      ∑ b, ∑ f ∈ range 6, (if ∃ c, link b f = .finer c then ∑ f2 ∈ range 2, ∑ f1 ∈ range 2,
          (if Active d f ∧ Slot d f f1 f2 then o (kid (link b f) b f1 f2) (opp f) else 0) else 0)) := by
    simp only [← sum_add_distrib, ← sum_sub_distrib]
    apply sum_congr rfl; intro b _
    apply sum_congr rfl; intro f hf
    exact hcor b f (mem_range.1 hf)
  rw [step]
  -- blocks of the same level
  have hS : ∑ b, ∑ f ∈ range 6, (if ∃ b', link b f = .same b' then o b f else 0) = 0 := by
    rw [← sum_product', ← sum_filter]
    rw [← sum_filter_of_ne (p := fun p : B × Nat => Active d p.2) (by
      intro p _ h; by_contra h'; exact h (hinact _ _ h'))]
    apply sum_involution (fun p _ => (nbr (link p.1 p.2) p.1, opp p.2))
    · rintro ⟨b, f⟩ hp
      simp only [mem_filter, mem_product, mem_univ, mem_range, true_and] at hp
      obtain ⟨⟨hf, b', hb'⟩, ha⟩ := hp
      simp only [hb', nbr, ho]
      have hag := hsame b f b' ha hb'
      obtain ⟨h6, _, e1, e2, e3, e4, _, _, _, _⟩ := opp_facts (d := d) hf
      have hsg : (if opp f % 2 = 0 then (-1 : K) else 1) = - (if f % 2 = 0 then (-1 : K) else 1) := by
        interval_cases f <;> simp [opp]
      unfold outflow outflowOn
      rw [if_pos ha, if_pos (active_opp ha), hsg, e1, e2, e3, e4]
      have : ∑ y ∈ Icc (ylo d f) (yhi d f), ∑ x ∈ Icc (xlo d f) (xhi d f), faceArea d (G b) f y x * faceFlux d (F b) f n y x =
          ∑ y ∈ Icc (ylo d f) (yhi d f), ∑ x ∈ Icc (xlo d f) (xhi d f),
            faceArea d (G b') (opp f) y x * faceFlux d (F b') (opp f) n y x := by
        apply sum_congr rfl; intro y hy
        apply sum_congr rfl; intro x hx
        rw [mem_Icc] at hy hx
        exact hag y x hy.1 hy.2 hx.1 hx.2
      rw [this]; ring
    · rintro ⟨b, f⟩ hp _ h
      simp only [mem_filter, mem_product, mem_univ, mem_range, true_and] at hp
      have := congrArg Prod.snd h
      simp only [opp] at this
      split at this <;> omega
    · rintro ⟨b, f⟩ hp
      simp only [mem_filter, mem_product, mem_univ, mem_range, true_and] at hp ⊢
      obtain ⟨⟨hf, b', hb'⟩, ha⟩ := hp
      simp only [hb', nbr]
      exact ⟨⟨(opp_facts (d := d) hf).1, b, hm.same b f b' ha hb'⟩, active_opp ha⟩
    · rintro ⟨b, f⟩ hp
      simp only [mem_filter, mem_product, mem_univ, mem_range, true_and] at hp
      obtain ⟨⟨hf, b', hb'⟩, ha⟩ := hp
      have h1 := hm.same b f b' ha hb'
      simp only [hb', nbr, h1, (opp_facts (d := d) hf).2.1]
  -- coarse and fine
  have hC : ∑ b, ∑ f ∈ range 6, (if ∃ b' f1 f2, link b f = .coarser b' f1 f2 then o b f else 0) =
      ∑ b, ∑ f ∈ range 6, (if ∃ c, link b f = .finer c then ∑ f2 ∈ range 2, ∑ f1 ∈ range 2,
          (if Active d f ∧ Slot d f f1 f2 then o (kid (link b f) b f1 f2) (opp f) else 0) else 0) := by
    have hL : ∑ b, ∑ f ∈ range 6, (if ∃ b' f1 f2, link b f = .coarser b' f1 f2 then o b f else 0) =
        ∑ p ∈ (univ ×ˢ range 6 : Finset (B × Nat)) with
          (∃ b' f1 f2, link p.1 p.2 = .coarser b' f1 f2) ∧ Active d p.2, o p.1 p.2 := by
      rw [← sum_product', ← sum_filter, ← sum_filter_of_ne (p := fun p : B × Nat => Active d p.2) (by
        intro p _ h; by_contra h'; exact h (hinact _ _ h')), filter_filter]
    have hR : ∑ b, ∑ f ∈ range 6, (if ∃ c, link b f = .finer c then ∑ f2 ∈ range 2, ∑ f1 ∈ range 2,
          (if Active d f ∧ Slot d f f1 f2 then o (kid (link b f) b f1 f2) (opp f) else 0) else 0) =
        ∑ p ∈ ((univ ×ˢ range 6) ×ˢ (range 2 ×ˢ range 2) : Finset ((B × Nat) × (Nat × Nat))) with
          (∃ c, link p.1.1 p.1.2 = .finer c) ∧ Active d p.1.2 ∧ Slot d p.1.2 p.2.2 p.2.1,
          o (kid (link p.1.1 p.1.2) p.1.1 p.2.2 p.2.1) (opp p.1.2) := by
      rw [sum_filter, sum_product, sum_product]
      apply sum_congr rfl; intro b _
      apply sum_congr rfl; intro f _
      rw [sum_product]
      by_cases h : ∃ c, link b f = .finer c
      · simp only [h, true_and, if_true]
      · simp only [h, false_and, if_false, sum_const_zero]
    rw [hL, hR]
    apply sum_bij' (i := fun p _ => ((nbr (link p.1 p.2) p.1, opp p.2), (pos2 (link p.1 p.2), pos1 (link p.1 p.2))))
      (j := fun p _ => (kid (link p.1.1 p.1.2) p.1.1 p.2.2 p.2.1, opp p.1.2))
    · rintro ⟨b, f⟩ hp
      simp only [mem_filter, mem_product, mem_univ, mem_range, true_and] at hp ⊢
      obtain ⟨hf, ⟨b', f1, f2, h⟩, ha⟩ := hp
      obtain ⟨c, hc, hs, hcb⟩ := hm.coarser b f b' f1 f2 ha h
      simp only [h, nbr, pos1, pos2]
      exact ⟨⟨(opp_facts (d := d) hf).1, hs.2.1, hs.1⟩, ⟨c, hc⟩, active_opp ha, slot_opp hf hs⟩
    · rintro ⟨⟨b, f⟩, f2, f1⟩ hp
      simp only [mem_filter, mem_product, mem_univ, mem_range, true_and] at hp ⊢
      obtain ⟨⟨hf, _, _⟩, ⟨c, hc⟩, ha, hs⟩ := hp
      simp only [hc, kid]
      exact ⟨(opp_facts (d := d) hf).1, ⟨b, f1, f2, hm.finer b f c ha hc f1 f2 hs⟩, active_opp ha⟩
    · rintro ⟨b, f⟩ hp
      simp only [mem_filter, mem_product, mem_univ, mem_range, true_and] at hp
      obtain ⟨hf, ⟨b', f1, f2, h⟩, ha⟩ := hp
      obtain ⟨c, hc, hs, hcb⟩ := hm.coarser b f b' f1 f2 ha h
      simp only [h, nbr, pos1, pos2, hc, kid, hcb, (opp_facts (d := d) hf).2.1]
    · rintro ⟨⟨b, f⟩, f2, f1⟩ hp
      simp only [mem_filter, mem_product, mem_univ, mem_range, true_and] at hp
      obtain ⟨⟨hf, _, _⟩, ⟨c, hc⟩, ha, hs⟩ := hp
      have h1 := hm.finer b f c ha hc f1 f2 hs
      simp only [hc, kid, h1, nbr, pos1, pos2, (opp_facts (d := d) hf).2.1]
    · rintro ⟨b, f⟩ hp
      simp only [mem_filter, mem_product, mem_univ, mem_range, true_and] at hp
      obtain ⟨hf, ⟨b', f1, f2, h⟩, ha⟩ := hp
      obtain ⟨c, hc, hs, hcb⟩ := hm.coarser b f b' f1 f2 ha h
      simp only [h, nbr, pos1, pos2, hc, kid, hcb, (opp_facts (d := d) hf).2.1]
  rw [hS, hC]
  rw [sub_self, add_zero, add_zero]

end

/-! ### A mesh that meets the hypotheses

Two dimensions, periodic: the left half of the domain is one block, the right half is refined into four. Fluxes differ
between coarse and fine blocks, so that the corrections matter. -/

private def exD : Dims := ⟨2, 4, 4, 1⟩
private abbrev ExB := Option (Fin 2 × Fin 2)
private def exLink : ExB → Nat → Link ExB
  | none, 0 => .finer fun f1 _ => some (1, Fin.ofNat 2 f1)
  | none, 1 => .finer fun f1 _ => some (0, Fin.ofNat 2 f1)
  | none, 2 => .same none
  | none, 3 => .same none
  | some (x, y), 0 => if x = 0 then .coarser none y.val 0 else .same (some (0, y))
  | some (x, y), 1 => if x = 1 then .coarser none y.val 0 else .same (some (1, y))
  | some (x, y), 2 => .same (some (x, 1 - y))
  | some (x, y), 3 => .same (some (x, 1 - y))
  | _, _ => .edge
private def exG : ExB → Geom Rat
  | none => ⟨fun _ => 1, fun _ => 1, fun _ => 1, fun _ => 1⟩
  | some _ => ⟨fun _ => 1/2, fun _ => 1/2, fun _ => 1/4, fun _ => 1/4⟩
private def exF : ExB → Flx Rat
  | none => ⟨fun q => 100 + q.2.2.1, fun q => q.2.2.2, fun _ => 0⟩
  | some _ => ⟨fun q => q.2.2.1 * q.2.2.1, fun q => 7 * q.2.2.2, fun _ => 0⟩
private def exSlots : ExB → List (Nat × Nat × Nat)
  | none => [(1, 1, 0), (0, 0, 0), (1, 0, 0), (0, 1, 0)]
  | some _ => []
private noncomputable def exBuf (b : ExB) (f f1 f2 p : Nat) : Rat :=
  (loadToCoarser exD 0 4 (exG (kid (exLink b f) b f1 f2)) (exF (kid (exLink b f) b f1 f2)) (opp f)).getD p 0

private theorem exD_ok : exD.Ok := ⟨by decide, by decide, by decide, by decide⟩
private theorem ex_active {f : Nat} (h : Active exD f) : f = 0 ∨ f = 1 ∨ f = 2 ∨ f = 3 := by
  unfold Active exD at h; simp only at h; omega
private theorem ex_slot {f f1 f2 : Nat} (hf : f < 4) : Slot exD f f1 f2 ↔ (f1 = 0 ∨ f1 = 1) ∧ f2 = 0 := by
  unfold Slot ny nx exD
  rw [if_pos hf]
  split <;> simp only <;> omega
private theorem ex_mutual : Mutual exD exLink := by
  refine ⟨?_, ?_, ?_⟩
  · rintro (_ | ⟨x, y⟩) f b' ha h <;> rcases ex_active ha with rfl | rfl | rfl | rfl <;> revert h <;>
      simp only [exLink, opp] <;> intro h
    · cases h
    · cases h
    · cases h; rfl
    · cases h; rfl
    · fin_cases x <;> simp at h; subst h; simp
    · fin_cases x <;> simp at h; subst h; simp
    · cases h; fin_cases y <;> rfl
    · cases h; fin_cases y <;> rfl
  · rintro (_ | ⟨x, y⟩) f c ha h f1 f2 hs <;> rcases ex_active ha with rfl | rfl | rfl | rfl <;> revert h <;>
      simp only [exLink, opp] <;> intro h
    · rw [ex_slot (by decide)] at hs; cases h; obtain ⟨rfl | rfl, rfl⟩ := hs <;> rfl
    · rw [ex_slot (by decide)] at hs; cases h; obtain ⟨rfl | rfl, rfl⟩ := hs <;> rfl
    · cases h
    · cases h
    · fin_cases x <;> simp at h
    · fin_cases x <;> simp at h
    · cases h
    · cases h
  · rintro (_ | ⟨x, y⟩) f b' f1 f2 ha h <;> rcases ex_active ha with rfl | rfl | rfl | rfl <;> revert h <;>
      simp only [exLink, opp] <;> intro h
    · cases h
    · cases h
    · cases h
    · cases h
    · fin_cases x <;> simp at h
      obtain ⟨rfl, rfl, rfl⟩ := h
      exact ⟨_, rfl, (ex_slot (by decide)).2 ⟨by fin_cases y <;> simp, rfl⟩, by fin_cases y <;> rfl⟩
    · fin_cases x <;> simp at h
      obtain ⟨rfl, rfl, rfl⟩ := h
      exact ⟨_, rfl, (ex_slot (by decide)).2 ⟨by fin_cases y <;> simp, rfl⟩, by fin_cases y <;> rfl⟩
    · cases h
    · cases h

open Classical in
/-- The theorem applies to this mesh: for any initial values the total is unchanged. -/
example (u : ExB → A4 Rat) :
    ∑ b, content exD (exG b) (addFluxDivergence exD 5 (exG b)
        (receiveCorrections exD 0 4 (exBuf b) (exSlots b) (exF b)) 1 (u b)) 2 =
      ∑ b, content exD (exG b) (u b) 2 := by
  have h := total_conserved exD_ok 5 exG exF 1 u exLink ex_mutual (n := 2) (by decide)
    (by rintro (_ | b) <;> intros <;> norm_num [exG])
    (by
      rintro (_ | ⟨x, y⟩) f b' ha h <;> rcases ex_active ha with rfl | rfl | rfl | rfl <;> revert h <;>
        simp only [exLink] <;> intro h
      · cases h
      · cases h
      · cases h; intro y x _ _ _ _; simp [faceArea, faceFlux, faceIdx, opp, exG, exF]
      · cases h; intro y x _ _ _ _; simp [faceArea, faceFlux, faceIdx, opp, exG, exF]
      · fin_cases x <;> simp at h; subst h; intro y x _ _ _ _; simp [faceArea, faceFlux, faceIdx, opp, exG, exF]
      · fin_cases x <;> simp at h; subst h; intro y x _ _ _ _; simp [faceArea, faceFlux, faceIdx, opp, exG, exF]
      · cases h; intro y x _ _ _ _; simp [faceArea, faceFlux, faceIdx, opp, exG, exF]
      · cases h; intro y x _ _ _ _; simp [faceArea, faceFlux, faceIdx, opp, exG, exF])
    (by
      rintro (_ | ⟨x, y⟩) f c ha h f1 f2 hs <;> rcases ex_active ha with rfl | rfl | rfl | rfl <;> revert h <;>
        simp only [exLink] <;> intro h
      · cases h; intro y x _ _ _ _
        norm_num [faceArea, faceIdx, opp, exG, kidSum, kids, nx, ny, exD]
      · cases h; intro y x _ _ _ _
        norm_num [faceArea, faceIdx, opp, exG, kidSum, kids, nx, ny, exD]
      · cases h
      · cases h
      · fin_cases x <;> simp at h
      · fin_cases x <;> simp at h
      · cases h
      · cases h)
    exSlots (by rintro (_ | b) <;> simp [exSlots])
    (by
      rintro (_ | ⟨x, y⟩) f f1 f2
      · constructor
        · intro h
          simp only [exSlots, List.mem_cons, Prod.mk.injEq, List.not_mem_nil, or_false] at h
          rcases h with ⟨rfl, rfl, rfl⟩ | ⟨rfl, rfl, rfl⟩ | ⟨rfl, rfl, rfl⟩ | ⟨rfl, rfl, rfl⟩ <;>
            exact ⟨by decide, by decide, _, rfl⟩
        · rintro ⟨ha, hs, c, hc⟩
          rcases ex_active ha with rfl | rfl | rfl | rfl
          · rw [ex_slot (by decide)] at hs; obtain ⟨rfl | rfl, rfl⟩ := hs <;> simp [exSlots]
          · rw [ex_slot (by decide)] at hs; obtain ⟨rfl | rfl, rfl⟩ := hs <;> simp [exSlots]
          · cases hc
          · cases hc
      · constructor
        · intro h; simp [exSlots] at h
        · rintro ⟨ha, hs, c, hc⟩
          rcases ex_active ha with rfl | rfl | rfl | rfl <;> simp only [exLink] at hc
          · fin_cases x <;> simp at hc
          · fin_cases x <;> simp at hc
          · cases hc
          · cases hc)
    exBuf
    (by
      intro b f c f1 f2 ha hc hs p v hv
      simp only [exBuf, hc, kid]
      rw [List.getD_eq_getElem?_getD]
      have : ((5 : Nat) : Int) - 1 = 4 := by norm_num
      rw [this] at hv
      rw [hv]; rfl)
  have he : ∑ b, ∑ f ∈ range 6, (if exLink b f = .edge then outflow exD (exG b) (exF b) 2 f else 0) = 0 := by
    apply sum_eq_zero; intro b _
    apply sum_eq_zero; intro f _
    split
    · rename_i hl
      unfold outflow; rw [if_neg]
      intro ha
      rcases b with _ | ⟨x, y⟩ <;> rcases ex_active ha with rfl | rfl | rfl | rfl <;> simp only [exLink] at hl
      · cases hl
      · cases hl
      · cases hl
      · cases hl
      · fin_cases x <;> simp at hl
      · fin_cases x <;> simp at hl
      · cases hl
      · cases hl
    · rfl
  have h5 : ((5 : Nat) : Int) - 1 = 4 := by norm_num
  rw [h5, he] at h
  simpa using h

/-- The corrections matter there: the outflow of the coarse block through its right face is 414 before
they are received, while 27 enters each of the two fine blocks there. -/
example : outflow exD (exG none) (exF none) 2 1 = 414 ∧ outflow exD (exG (some (0, 0))) (exF (some (0, 0))) 2 0 = -27 := by
  norm_num [outflow, outflowOn, Active, exD, ylo, yhi, xlo, xhi, Dims.ks, Dims.ke, Dims.js, Dims.je, faceArea, faceFlux, faceIdx,
    exG, exF]
  decide +kernel

end Verif.Grid
