import Verif.Spec.RefineField
import Verif.Lemmas.Refine
import Mathlib.Tactic.LinearCombination

/-! Helper lemmas for restriction and prolongation of face-centred fields. -/
namespace Verif.Grid
open Finset Verif.Arr
variable {K : Type} [Field K] [LinearOrder K] [IsStrictOrderedRing K]

section sums
variable {M : Type} [AddCommMonoid M] (d : Dims) (k j i : Int) (f : Int × Int × Int → M)

theorem faces1_3 (h2 : 1 < d.nx2) (h3 : 1 < d.nx3) : ∑ c ∈ faces1 d k j i, f c =
    (f (d.fk k, d.fj j, d.fi i) + f (d.fk k, d.fj j + 1, d.fi i)) +
    (f (d.fk k + 1, d.fj j, d.fi i) + f (d.fk k + 1, d.fj j + 1, d.fi i)) := by
  unfold faces1 Dims.kk Dims.jj; rw [if_pos h2, if_pos h3]; simp only [sum_product, sum_two, sum_singleton]
theorem faces1_2 (h2 : 1 < d.nx2) (h3 : ¬ 1 < d.nx3) : ∑ c ∈ faces1 d k j i, f c =
    f (d.fk k, d.fj j, d.fi i) + f (d.fk k, d.fj j + 1, d.fi i) := by
  unfold faces1 Dims.kk Dims.jj; rw [if_pos h2, if_neg h3]; simp only [sum_product, sum_two, Icc_self, sum_singleton]
theorem faces1_1 (h2 : ¬ 1 < d.nx2) (h3 : ¬ 1 < d.nx3) : ∑ c ∈ faces1 d k j i, f c = f (d.fk k, d.fj j, d.fi i) := by
  unfold faces1 Dims.kk Dims.jj; rw [if_neg h2, if_neg h3]; simp only [sum_product, Icc_self, sum_singleton]
theorem faces2_3 (h3 : 1 < d.nx3) : ∑ c ∈ faces2 d k j i, f c =
    (f (d.fk k, d.fj j, d.fi i) + f (d.fk k, d.fj j, d.fi i + 1)) +
    (f (d.fk k + 1, d.fj j, d.fi i) + f (d.fk k + 1, d.fj j, d.fi i + 1)) := by
  unfold faces2 Dims.kk Dims.ii; rw [if_pos h3]; simp only [sum_product, sum_two, sum_singleton]
theorem faces2_2 (h3 : ¬ 1 < d.nx3) : ∑ c ∈ faces2 d k j i, f c =
    f (d.fk k, d.fj j, d.fi i) + f (d.fk k, d.fj j, d.fi i + 1) := by
  unfold faces2 Dims.kk Dims.ii; rw [if_neg h3]; simp only [sum_product, sum_two, Icc_self, sum_singleton]
theorem faces3_3 (h2 : 1 < d.nx2) : ∑ c ∈ faces3 d k j i, f c =
    (f (d.fk k, d.fj j, d.fi i) + f (d.fk k, d.fj j, d.fi i + 1)) +
    (f (d.fk k, d.fj j + 1, d.fi i) + f (d.fk k, d.fj j + 1, d.fi i + 1)) := by
  unfold faces3 Dims.jj Dims.ii; rw [if_pos h2]; simp only [sum_product, sum_two, sum_singleton]
theorem faces3_1 (h2 : ¬ 1 < d.nx2) : ∑ c ∈ faces3 d k j i, f c =
    f (d.fk k, d.fj j, d.fi i) + f (d.fk k, d.fj j, d.fi i + 1) := by
  unfold faces3 Dims.jj Dims.ii; rw [if_neg h2]; simp only [sum_product, sum_two, Icc_self, sum_singleton]
end sums

/-! ### Restriction -/

theorem restrictX1_eq (d : Dims) (ho : d.Ok) (G : Geom K) (fine coarse : A3 K) (b : Box) (k j i : Int) (hb : b.Has d k j i)
    (hs : (¬ 1 < d.nx3 → b.sk = 0) ∧ (¬ 1 < d.nx2 → b.sj = 0)) (hv : ∑ f ∈ faces1 d k j i, G.a1 f ≠ 0) :
    restrictX1 d G fine b.si b.ei b.sj b.ej b.sk b.ek coarse (k, j, i) =
      (∑ f ∈ faces1 d k j i, G.a1 f * fine f) / ∑ f ∈ faces1 d k j i, G.a1 f := by
  unfold restrictX1
  have hi := hb.i; have hj := hb.j; have hk := hb.k
  by_cases h3 : 1 < d.nx3
  · have h2 := ho.ord h3
    rw [if_pos h2] at hj; rw [if_pos h3] at hk
    rw [if_pos h3, faces1_3 d k j i _ h2 h3, faces1_3 d k j i _ h2 h3]
    refine loop3_hit (fun st : A3 K => st (k, j, i)) _ _ _ _ _ _ _ _ k j i hk hj hi ?_ ?_ coarse
    · intro st; simp only [Function.update_self]; congr 1 <;> ring
    · intro a' b' c' hne st
      exact Function.update_of_ne hne.symm _ _
  · rw [if_neg h3] at hk; subst hk
    by_cases h2 : 1 < d.nx2
    · rw [if_pos h2] at hj
      rw [if_neg h3, if_pos h2, faces1_2 d _ j i _ h2 h3, faces1_2 d _ j i _ h2 h3, d.fk0 h3, d.ks0 h3, hs.1 h3]
      refine loop2_hit (fun st : A3 K => st (0, j, i)) _ _ _ _ _ _ j i hj hi ?_ ?_ coarse
      · intro st; simp only [Function.update_self]; congr 1; ring
      · intro b' c' hne st
        refine Function.update_of_ne ?_ _ _
        intro h; apply hne; simp only [Prod.mk.injEq] at h ⊢; tauto
    · rw [if_neg h2] at hj; subst hj
      rw [faces1_1 d _ _ i _ h2 h3] at hv
      rw [if_neg h3, if_neg h2, faces1_1 d _ _ i _ h2 h3, faces1_1 d _ _ i _ h2 h3, mul_div_cancel_left₀ _ hv,
        d.fk0 h3, d.fj0 h2, d.ks0 h3, d.js0 h2, hs.1 h3, hs.2 h2]
      refine loop_hit (fun st : A3 K => st (0, 0, i)) _ _ _ _ i hi.1 hi.2 ?_ ?_ coarse
      · intro st; simp only [Function.update_self]
      · intro b' _ _ hne st
        refine Function.update_of_ne ?_ _ _
        intro h; apply hne; simp only [Prod.mk.injEq] at h ⊢; tauto

theorem restrictX3_eq (d : Dims) (ho : d.Ok) (G : Geom K) (fine coarse : A3 K) (b : Box) (k j i : Int) (hb : b.Has d k j i) :
    restrictX3 d G fine b.si b.ei b.sj b.ej b.sk b.ek coarse (k, j, i) =
      (∑ f ∈ faces3 d k j i, G.a3 f * fine f) / ∑ f ∈ faces3 d k j i, G.a3 f := by
  unfold restrictX3
  have hi := hb.i; have hj := hb.j; have hk := hb.k
  by_cases h3 : 1 < d.nx3
  · have h2 := ho.ord h3
    rw [if_pos h2] at hj; rw [if_pos h3] at hk
    rw [if_pos h3, faces3_3 d k j i _ h2, faces3_3 d k j i _ h2]
    refine loop3_hit (fun st : A3 K => st (k, j, i)) _ _ _ _ _ _ _ _ k j i hk hj hi ?_ ?_ coarse
    · intro st; simp only [Function.update_self]; congr 1 <;> ring
    · intro a' b' c' hne st
      exact Function.update_of_ne hne.symm _ _
  · rw [if_neg h3] at hk; subst hk
    by_cases h2 : 1 < d.nx2
    · rw [if_pos h2] at hj
      rw [if_neg h3, if_pos h2, faces3_3 d _ j i _ h2, faces3_3 d _ j i _ h2, d.fk0 h3, d.ks0 h3]
      refine loop2_hit (fun st : A3 K => st (0, j, i)) _ _ _ _ _ _ j i hj hi ?_ ?_ coarse
      · intro st; simp only [Function.update_self]; congr 1 <;> ring
      · intro b' c' hne st
        refine Function.update_of_ne ?_ _ _
        intro h; apply hne; simp only [Prod.mk.injEq] at h ⊢; tauto
    · rw [if_neg h2] at hj; subst hj
      rw [if_neg h3, if_neg h2, faces3_1 d _ _ i _ h2, faces3_1 d _ _ i _ h2, d.fk0 h3, d.fj0 h2, d.ks0 h3, d.js0 h2]
      refine loop_hit (fun st : A3 K => st (0, 0, i)) _ _ _ _ i hi.1 hi.2 ?_ ?_ coarse
      · intro st; simp only [Function.update_self]; congr 1; ring
      · intro b' _ _ hne st
        refine Function.update_of_ne ?_ _ _
        intro h; apply hne; simp only [Prod.mk.injEq] at h ⊢; tauto

theorem fillX2_coarse (d : Dims) (G : Geom K) (F : Crd K) (pole : Int → Bool) (k j csi cei : Int) (st : RX2 K) :
    (fillX2 d G F pole k j csi cei st).coarse = st.coarse := by
  unfold fillX2; simp only; split <;> rfl

theorem fillX2_row (d : Dims) (G : Geom K) (F : Crd K) (pole : Int → Bool) (k j csi cei : Int) (st : RX2 K) (hp : pole j = false)
    (i : Int) (h1 : d.fi csi ≤ i) (h2 : i ≤ d.fi cei + 1) :
    (fillX2 d G F pole k j csi cei st).s0 i = G.a2 (k, j, i) ∧ (fillX2 d G F pole k j csi cei st).s1 i = G.a2 (k+1, j, i) := by
  unfold fillX2
  simp only [hp, Bool.not_false, if_true]
  constructor
  · refine loop_hit (fun s : Int → K => s i) _ _ _ _ i h1 h2 (fun s => by simp) ?_ _
    intro i' _ _ hne s
    exact Function.update_of_ne hne.symm _ _
  · refine loop_hit (fun s : Int → K => s i) _ _ _ _ i h1 h2 (fun s => by simp) ?_ _
    intro i' _ _ hne s
    exact Function.update_of_ne hne.symm _ _

theorem restrictX2_eq (d : Dims) (ho : d.Ok) (G : Geom K) (F : Crd K) (pole : Int → Bool) (fine : A3 K) (st : RX2 K) (b : Box) (k j i : Int)
    (hb : b.Has d k j i) (hp : pole (d.fj j) = false) :
    (restrictX2 d G F pole fine b.si b.ei b.sj b.ej b.sk b.ek st).coarse (k, j, i) =
      (∑ f ∈ faces2 d k j i, G.a2 f * fine f) / ∑ f ∈ faces2 d k j i, G.a2 f := by
  unfold restrictX2
  have hi := hb.i; have hj := hb.j; have hk := hb.k
  have r1 : d.fi b.si ≤ d.fi i := by have := d.fi_lin i; have := d.fi_lin b.si; omega
  have r2 : d.fi i + 1 ≤ d.fi b.ei + 1 := by have := d.fi_lin i; have := d.fi_lin b.ei; omega
  by_cases h3 : 1 < d.nx3
  · have h2 := ho.ord h3
    rw [if_pos h2] at hj; rw [if_pos h3] at hk
    rw [if_pos h3, faces2_3 d k j i _ h3, faces2_3 d k j i _ h3]
    refine loop2_hit (fun st : RX2 K => st.coarse (k, j, i)) _ _ _ _ _ _ k j hk hj ?_ ?_ st
    · intro st
      refine loop_hit_inv (fun st : RX2 K => (st.s0 (d.fi i) = G.a2 (d.fk k, d.fj j, d.fi i) ∧ st.s0 (d.fi i + 1) = G.a2 (d.fk k, d.fj j, d.fi i + 1)) ∧
        st.s1 (d.fi i) = G.a2 (d.fk k + 1, d.fj j, d.fi i) ∧ st.s1 (d.fi i + 1) = G.a2 (d.fk k + 1, d.fj j, d.fi i + 1))
        (fun st : RX2 K => st.coarse (k, j, i)) _ _ _ _ i hi.1 hi.2 ?_ ?_ ?_ _ ?_
      · intro _ _ _ _ h; exact h
      · rintro st ⟨⟨e1, e2⟩, e3, e4⟩
        simp only [Function.update_self, e1, e2, e3, e4]; congr 1 <;> ring
      · intro i' _ _ hne st
        refine Function.update_of_ne ?_ _ _
        intro h; apply hne; simp only [Prod.mk.injEq] at h; tauto
      · have f1 := fillX2_row d G F pole (d.fk k) (d.fj j) b.si b.ei st hp (d.fi i) r1 (by omega)
        have f2 := fillX2_row d G F pole (d.fk k) (d.fj j) b.si b.ei st hp (d.fi i + 1) (by omega) r2
        exact ⟨⟨f1.1, f2.1⟩, f1.2, f2.2⟩
    · intro a' b' hne st
      refine (loop_keep (fun st : RX2 K => st.coarse (k, j, i)) _ _ _ ?_ _).trans (by rw [fillX2_coarse])
      intro i' _ _ st
      refine Function.update_of_ne ?_ _ _
      intro h; apply hne; simp only [Prod.mk.injEq] at h ⊢; tauto
  · rw [if_neg h3] at hk; subst hk
    by_cases h2 : 1 < d.nx2
    · rw [if_pos h2] at hj
      rw [if_neg h3, if_pos h2, faces2_2 d _ j i _ h3, faces2_2 d _ j i _ h3, d.fk0 h3, d.ks0 h3]
      refine loop_hit (fun st : RX2 K => st.coarse (0, j, i)) _ _ _ _ j hj.1 hj.2 ?_ ?_ st
      · intro st
        refine loop_hit_inv (fun st : RX2 K => st.s0 (d.fi i) = G.a2 (0, d.fj j, d.fi i) ∧ st.s0 (d.fi i + 1) = G.a2 (0, d.fj j, d.fi i + 1))
          (fun st : RX2 K => st.coarse (0, j, i)) _ _ _ _ i hi.1 hi.2 ?_ ?_ ?_ _ ?_
        · intro _ _ _ _ h; exact h
        · rintro st ⟨e1, e2⟩
          simp only [Function.update_self, e1, e2]; congr 1; ring
        · intro i' _ _ hne st
          refine Function.update_of_ne ?_ _ _
          intro h; apply hne; simp only [Prod.mk.injEq] at h; tauto
        · have f1 := fillX2_row d G F pole 0 (d.fj j) b.si b.ei st hp (d.fi i) r1 (by omega)
          have f2 := fillX2_row d G F pole 0 (d.fj j) b.si b.ei st hp (d.fi i + 1) (by omega) r2
          exact ⟨f1.1, f2.1⟩
      · intro b' _ _ hne st
        refine (loop_keep (fun st : RX2 K => st.coarse (0, j, i)) _ _ _ ?_ _).trans (by rw [fillX2_coarse])
        intro i' _ _ st
        refine Function.update_of_ne ?_ _ _
        intro h; apply hne; simp only [Prod.mk.injEq] at h ⊢; tauto
    · rw [if_neg h2] at hj; subst hj
      rw [if_neg h3, if_neg h2, faces2_2 d _ _ i _ h3, faces2_2 d _ _ i _ h3, d.fk0 h3, d.fj0 h2, d.ks0 h3, d.js0 h2]
      refine loop_hit_inv (fun st : RX2 K => st.s0 (d.fi i) = G.a2 (0, 0, d.fi i) ∧ st.s0 (d.fi i + 1) = G.a2 (0, 0, d.fi i + 1))
        (fun st : RX2 K => st.coarse (0, 0, i)) _ _ _ _ i hi.1 hi.2 ?_ ?_ ?_ _ ?_
      · intro _ _ _ _ h; exact h
      · rintro st ⟨e1, e2⟩
        simp only [Function.update_self, e1, e2]; congr 1; ring
      · intro i' _ _ hne st
        refine Function.update_of_ne ?_ _ _
        intro h; apply hne; simp only [Prod.mk.injEq] at h; tauto
      · have f1 := fillX2_row d G F (fun _ => false) 0 0 b.si b.ei st rfl (d.fi i) r1 (by omega)
        have f2 := fillX2_row d G F (fun _ => false) 0 0 b.si b.ei st rfl (d.fi i + 1) (by omega) r2
        exact ⟨f1.1, f2.1⟩

/-! ### Prolongation of shared faces -/

/-- Evaluation of `writes` at written and unwritten elements. -/
theorem writes_cons {P : Type} [DecidableEq P] (x : P × K) (l : List (P × K)) (st : P → K) :
    writes (x :: l) st = writes l (Function.update st x.1 x.2) := rfl
theorem writes_nil {P : Type} [DecidableEq P] (st : P → K) : writes ([] : List (P × K)) st = st := rfl

macro "wr" : tactic => `(tactic| simp only [writes_cons, writes_nil, Function.update_apply, Prod.mk.injEq, and_true, true_and,
  and_false, false_and, add_eq_left, left_eq_add, one_ne_zero, if_true, if_false, and_self, OfNat.ofNat_ne_zero,
  Int.reduceEq, reduceIte, zero_ne_one])

theorem prolongX1_flux (d : Dims) (ho : d.Ok) (flux : Bool) (G Gc : Geom K) (C F : Crd K) (coarse fine : A3 K) (b : Box) (k j i : Int)
    (hb : b.Has d k j i) (hf : Fit1 d flux G Gc C F k j i) :
    flux1 d G (prolongX1 d flux G Gc C F coarse b.si b.ei b.sj b.ej b.sk b.ek fine) k j i =
      (∑ f ∈ faces1 d k j i, G.a1 f) * coarse (k, j, i) := by
  unfold prolongX1
  have hi := hb.i; have hj := hb.j; have hk := hb.k
  have q2 := hf.x2; have q3 := hf.x3
  clear hb hf
  by_cases h3 : 1 < d.nx3
  · have h2 := ho.ord h3
    rw [if_pos h2] at hj; rw [if_pos h3] at hk
    rw [if_pos h3, faces1_3 d k j i _ h2 h3]
    refine loop3_hit (fun st : A3 K => flux1 d G st k j i) _ _ _ _ _ _ _ _ k j i hk hj hi ?_ ?_ fine
    · intro st
      unfold flux1
      rw [faces1_3 d k j i _ h2 h3]
      cases hfl : flux
      · have q2 := q2 (Or.inl hfl) h2
        have q3 := q3 hfl h3
        rw [faces1_3 d k j i _ h2 h3] at q2 q3
        simp only at q2 q3
        rw [if_neg Bool.false_ne_true]
        generalize slope (coarse (k, j-1, i)) _ _ _ _ = g2
        generalize slope (coarse (k-1, j, i)) _ _ _ _ = g3
        wr
        linear_combination g2 * q2 + g3 * q3
      · rw [if_pos rfl]
        generalize slope (coarse (k, j-1, i)) _ _ _ _ = g2
        generalize slope (coarse (k-1, j, i)) _ _ _ _ = g3
        wr
        ring
    · intro k' j' i' hne st
      unfold flux1
      apply sum_congr rfl
      intro f hfm
      congr 1
      have e1 := d.fk_lin k; have e2 := d.fk_lin k'; have e3 := d.fj_lin j; have e4 := d.fj_lin j'
      have e5 := d.fi_lin i; have e6 := d.fi_lin i'
      obtain ⟨f1, f2, f3⟩ := f
      unfold faces1 Dims.kk Dims.jj at hfm
      rw [if_pos h2, if_pos h3] at hfm
      simp only [mem_product, mem_Icc, mem_singleton] at hfm
      clear q2 q3 hi hj hk
      split <;>
      · apply writes_keep
        intro x hx he
        apply hne
        simp only [List.mem_cons, List.not_mem_nil, or_false] at hx
        simp only [Prod.mk.injEq]
        rcases hx with rfl | rfl | rfl | rfl <;> simp only [Prod.mk.injEq] at he <;> omega
  · rw [if_neg h3] at hk; subst hk
    by_cases h2 : 1 < d.nx2
    · rw [if_pos h2] at hj
      rw [if_neg h3, if_pos h2, faces1_2 d 0 j i _ h2 h3]
      refine loop2_hit (fun st : A3 K => flux1 d G st 0 j i) _ _ _ _ _ _ j i hj hi ?_ ?_ fine
      · intro st
        unfold flux1
        rw [faces1_2 d 0 j i _ h2 h3]
        have q2 := q2 (Or.inr h3) h2
        rw [faces1_2 d 0 j i _ h2 h3] at q2
        simp only at q2
        rw [d.ks0 h3]
        rw [d.fk0 h3] at *
        generalize slope (coarse (0, j-1, i)) _ _ _ _ = g2
        wr
        linear_combination g2 * q2
      · intro j' i' hne st
        unfold flux1
        apply sum_congr rfl
        intro f hfm
        congr 1
        have e3 := d.fj_lin j; have e4 := d.fj_lin j'
        have e5 := d.fi_lin i; have e6 := d.fi_lin i'
        obtain ⟨f1, f2, f3⟩ := f
        unfold faces1 Dims.kk Dims.jj at hfm
        rw [if_pos h2, if_neg h3] at hfm
        simp only [mem_product, mem_Icc, mem_singleton] at hfm
        clear q2 q3 hi hj
        apply writes_keep
        intro x hx he
        apply hne
        simp only [List.mem_cons, List.not_mem_nil, or_false] at hx
        simp only [Prod.mk.injEq]
        rcases hx with rfl | rfl <;> simp only [Prod.mk.injEq] at he <;> omega
    · rw [if_neg h2] at hj; subst hj
      rw [if_neg h3, if_neg h2, faces1_1 d 0 0 i _ h2 h3]
      refine loop_hit (fun st : A3 K => flux1 d G st 0 0 i) _ _ _ _ i hi.1 hi.2 ?_ ?_ fine
      · intro st
        unfold flux1
        rw [faces1_1 d 0 0 i _ h2 h3, d.fk0 h3, d.fj0 h2]
        wr
      · intro i' _ _ hne st
        unfold flux1
        rw [faces1_1 d 0 0 i _ h2 h3, faces1_1 d 0 0 i _ h2 h3, d.fk0 h3, d.fj0 h2]
        congr 1
        apply writes_keep
        intro x hx he
        apply hne
        have e5 := d.fi_lin i; have e6 := d.fi_lin i'
        simp only [List.mem_cons, List.not_mem_nil, or_false] at hx
        subst hx; simp only [Prod.mk.injEq] at he; omega

theorem prolongX2_flux (d : Dims) (ho : d.Ok) (flux : Bool) (tiny : K) (G Gc : Geom K) (C F : Crd K) (coarse fine : A3 K) (b : Box) (k j i : Int)
    (hb : b.Has d k j i) (hf : Fit2 d flux tiny G Gc C F k j i) :
    flux2 d G (prolongX2 d flux tiny G Gc C F coarse b.si b.ei b.sj b.ej b.sk b.ek fine) k j i =
      (∑ f ∈ faces2 d k j i, G.a2 f) * coarse (k, j, i) := by
  unfold prolongX2
  have hi := hb.i; have hj := hb.j; have hk := hb.k
  have q1 := hf.x1; have q3 := hf.x3
  clear hb hf
  by_cases h3 : 1 < d.nx3
  · have h2 := ho.ord h3
    rw [if_pos h2] at hj; rw [if_pos h3] at hk
    rw [if_pos h3, faces2_3 d k j i _ h3]
    refine loop3_hit (fun st : A3 K => flux2 d G st k j i) _ _ _ _ _ _ _ _ k j i hk hj hi ?_ ?_ fine
    · intro st
      unfold flux2
      rw [faces2_3 d k j i _ h3]
      cases hfl : flux
      · have q1 := q1 (Or.inl hfl)
        have q3 := q3 hfl h3
        rw [faces2_3 d k j i _ h3] at q1 q3
        simp only at q1 q3
        rw [if_neg Bool.false_ne_true]
        generalize slope (coarse (k, j, i-1)) _ _ _ _ = g1
        generalize slope (coarse (k-1, j, i)) _ _ _ _ = g3
        wr
        linear_combination g1 * q1 + g3 * q3
      · rw [if_pos rfl]
        generalize slope (coarse (k, j, i-1)) _ _ _ _ = g1
        generalize slope (coarse (k-1, j, i)) _ _ _ _ = g3
        wr
        ring
    · intro k' j' i' hne st
      unfold flux2
      apply sum_congr rfl
      intro f hfm
      congr 1
      have e1 := d.fk_lin k; have e2 := d.fk_lin k'; have e3 := d.fj_lin j; have e4 := d.fj_lin j'
      have e5 := d.fi_lin i; have e6 := d.fi_lin i'
      obtain ⟨f1, f2, f3⟩ := f
      unfold faces2 Dims.kk Dims.ii at hfm
      rw [if_pos h3] at hfm
      simp only [mem_product, mem_Icc, mem_singleton] at hfm
      clear q1 q3 hi hj hk
      split <;>
      · apply writes_keep
        intro x hx he
        apply hne
        simp only [List.mem_cons, List.not_mem_nil, or_false] at hx
        simp only [Prod.mk.injEq]
        rcases hx with rfl | rfl | rfl | rfl <;> simp only [Prod.mk.injEq] at he <;> omega
  · rw [if_neg h3] at hk; subst hk
    have q1 := q1 (Or.inr h3)
    rw [faces2_2 d 0 j i _ h3] at q1
    simp only at q1
    by_cases h2 : 1 < d.nx2
    · rw [if_pos h2] at hj
      rw [if_neg h3, if_pos h2, faces2_2 d 0 j i _ h3]
      refine loop2_hit (fun st : A3 K => flux2 d G st 0 j i) _ _ _ _ _ _ j i hj hi ?_ ?_ fine
      · intro st
        unfold flux2
        rw [faces2_2 d 0 j i _ h3]
        rw [d.ks0 h3]
        rw [d.fk0 h3] at *
        generalize slope (coarse (0, j, i-1)) _ _ _ _ = g1
        wr
        linear_combination g1 * q1
      · intro j' i' hne st
        unfold flux2
        apply sum_congr rfl
        intro f hfm
        congr 1
        have e3 := d.fj_lin j; have e4 := d.fj_lin j'
        have e5 := d.fi_lin i; have e6 := d.fi_lin i'
        obtain ⟨f1, f2, f3⟩ := f
        unfold faces2 Dims.kk Dims.ii at hfm
        rw [if_neg h3] at hfm
        simp only [mem_product, mem_Icc, mem_singleton] at hfm
        clear q1 q3 hi hj
        apply writes_keep
        intro x hx he
        apply hne
        simp only [List.mem_cons, List.not_mem_nil, or_false] at hx
        simp only [Prod.mk.injEq]
        rcases hx with rfl | rfl <;> simp only [Prod.mk.injEq] at he <;> omega
    · rw [if_neg h2] at hj; subst hj
      rw [if_neg h3, if_neg h2, faces2_2 d 0 0 i _ h3]
      refine loop_hit (fun st : A3 K => flux2 d G st 0 0 i) _ _ _ _ i hi.1 hi.2 ?_ ?_ fine
      · intro st
        unfold flux2
        rw [faces2_2 d 0 0 i _ h3]
        rw [d.fk0 h3, d.fj0 h2] at *
        generalize slope (coarse (0, 0, i-1)) _ _ _ _ = g1
        wr
        linear_combination g1 * q1
      · intro i' _ _ hne st
        unfold flux2
        rw [faces2_2 d 0 0 i _ h3, faces2_2 d 0 0 i _ h3, d.fk0 h3, d.fj0 h2]
        have e5 := d.fi_lin i; have e6 := d.fi_lin i'
        congr 2 <;>
        · apply writes_keep
          intro x hx he
          apply hne
          simp only [List.mem_cons, List.not_mem_nil, or_false] at hx
          rcases hx with rfl | rfl | rfl | rfl <;> simp only [Prod.mk.injEq] at he <;> omega

theorem prolongX3_flux (d : Dims) (ho : d.Ok) (flux : Bool) (G Gc : Geom K) (C F : Crd K) (coarse fine : A3 K) (b : Box) (k j i : Int)
    (hb : b.Has d k j i) (hf : Fit3 d flux G Gc C F k j i) :
    flux3 d G (prolongX3 d flux G Gc C F coarse b.si b.ei b.sj b.ej b.sk b.ek fine) k j i =
      (∑ f ∈ faces3 d k j i, G.a3 f) * coarse (k, j, i) := by
  unfold prolongX3
  have hi := hb.i; have hj := hb.j; have hk := hb.k
  have q1 := hf.x1; have q2 := hf.x2
  clear hb hf
  by_cases h3 : 1 < d.nx3
  · have h2 := ho.ord h3
    rw [if_pos h2] at hj; rw [if_pos h3] at hk
    rw [if_pos h3, faces3_3 d k j i _ h2]
    refine loop3_hit (fun st : A3 K => flux3 d G st k j i) _ _ _ _ _ _ _ _ k j i hk hj hi ?_ ?_ fine
    · intro st
      unfold flux3
      rw [faces3_3 d k j i _ h2]
      cases hfl : flux
      · have q1 := q1 (Or.inl hfl)
        have q2 := q2 (Or.inl hfl) h2
        rw [faces3_3 d k j i _ h2] at q1 q2
        simp only at q1 q2
        rw [if_neg Bool.false_ne_true]
        generalize slope (coarse (k, j, i-1)) _ _ _ _ = g1
        generalize slope (coarse (k, j-1, i)) _ _ _ _ = g2
        wr
        linear_combination g1 * q1 + g2 * q2
      · rw [if_pos rfl]
        generalize slope (coarse (k, j, i-1)) _ _ _ _ = g1
        generalize slope (coarse (k, j-1, i)) _ _ _ _ = g2
        wr
        ring
    · intro k' j' i' hne st
      unfold flux3
      apply sum_congr rfl
      intro f hfm
      congr 1
      have e1 := d.fk_lin k; have e2 := d.fk_lin k'; have e3 := d.fj_lin j; have e4 := d.fj_lin j'
      have e5 := d.fi_lin i; have e6 := d.fi_lin i'
      obtain ⟨f1, f2, f3⟩ := f
      unfold faces3 Dims.jj Dims.ii at hfm
      rw [if_pos h2] at hfm
      simp only [mem_product, mem_Icc, mem_singleton] at hfm
      clear q1 q2 hi hj hk
      split <;>
      · apply writes_keep
        intro x hx he
        apply hne
        simp only [List.mem_cons, List.not_mem_nil, or_false] at hx
        simp only [Prod.mk.injEq]
        rcases hx with rfl | rfl | rfl | rfl <;> simp only [Prod.mk.injEq] at he <;> omega
  · rw [if_neg h3] at hk; subst hk
    have q1 := q1 (Or.inr h3)
    by_cases h2 : 1 < d.nx2
    · have q2 := q2 (Or.inr h3) h2
      rw [if_pos h2] at hj
      rw [if_neg h3, if_pos h2, faces3_3 d 0 j i _ h2]
      rw [faces3_3 d 0 j i _ h2] at q1 q2
      simp only at q1 q2
      refine loop2_hit (fun st : A3 K => flux3 d G st 0 j i) _ _ _ _ _ _ j i hj hi ?_ ?_ fine
      · intro st
        unfold flux3
        rw [faces3_3 d 0 j i _ h2]
        rw [d.ks0 h3]
        rw [d.fk0 h3] at *
        generalize slope (coarse (0, j, i-1)) _ _ _ _ = g1
        generalize slope (coarse (0, j-1, i)) _ _ _ _ = g2
        rw [show (0 : Int) + 1 = 1 from rfl]
        wr
        linear_combination g1 * q1 + g2 * q2
      · intro j' i' hne st
        unfold flux3
        apply sum_congr rfl
        intro f hfm
        congr 1
        have e3 := d.fj_lin j; have e4 := d.fj_lin j'
        have e5 := d.fi_lin i; have e6 := d.fi_lin i'
        obtain ⟨f1, f2, f3⟩ := f
        unfold faces3 Dims.jj Dims.ii at hfm
        rw [if_pos h2] at hfm
        simp only [mem_product, mem_Icc, mem_singleton] at hfm
        clear q1 q2 hi hj
        apply writes_keep
        intro x hx he
        apply hne
        simp only [List.mem_cons, List.not_mem_nil, or_false] at hx
        simp only [Prod.mk.injEq]
        rcases hx with rfl | rfl | rfl | rfl | rfl | rfl | rfl | rfl <;> simp only [Prod.mk.injEq] at he <;> omega
    · rw [if_neg h2] at hj; subst hj
      rw [if_neg h3, if_neg h2, faces3_1 d 0 0 i _ h2]
      rw [faces3_1 d 0 0 i _ h2] at q1
      simp only at q1
      refine loop_hit (fun st : A3 K => flux3 d G st 0 0 i) _ _ _ _ i hi.1 hi.2 ?_ ?_ fine
      · intro st
        unfold flux3
        rw [faces3_1 d 0 0 i _ h2]
        rw [d.fk0 h3, d.fj0 h2] at *
        generalize slope (coarse (0, 0, i-1)) _ _ _ _ = g1
        wr
        linear_combination g1 * q1
      · intro i' _ _ hne st
        unfold flux3
        rw [faces3_1 d 0 0 i _ h2, faces3_1 d 0 0 i _ h2, d.fk0 h3, d.fj0 h2]
        have e5 := d.fi_lin i; have e6 := d.fi_lin i'
        congr 2 <;>
        · apply writes_keep
          intro x hx he
          apply hne
          simp only [List.mem_cons, List.not_mem_nil, or_false] at hx
          rcases hx with rfl | rfl | rfl | rfl <;> simp only [Prod.mk.injEq] at he <;> omega

/-! What the interpolation of shared faces leaves alone. -/

theorem prolongX1_keep (d : Dims) (flux : Bool) (G Gc : Geom K) (C F : Crd K) (coarse fine : A3 K) (si ei sj ej sk ek : Int) (q : Int × Int × Int)
    (h : ∀ i, si ≤ i → i ≤ ei → q.2.2 ≠ d.fi i) : prolongX1 d flux G Gc C F coarse si ei sj ej sk ek fine q = fine q := by
  unfold prolongX1
  split
  · refine loop3_keep (fun st : A3 K => st q) _ _ _ _ _ _ _ ?_ fine
    intro k j i _ _ hi st
    have := h i hi.1 hi.2
    split <;>
    · apply writes_keep
      intro x hx he
      simp only [List.mem_cons, List.not_mem_nil, or_false] at hx
      rcases hx with rfl | rfl | rfl | rfl <;> (rw [he] at this; exact this rfl)
  · split
    · refine loop2_keep (fun st : A3 K => st q) _ _ _ _ _ ?_ fine
      intro j i _ hi st
      have := h i hi.1 hi.2
      apply writes_keep
      intro x hx he
      simp only [List.mem_cons, List.not_mem_nil, or_false] at hx
      rcases hx with rfl | rfl <;> (rw [he] at this; exact this rfl)
    · refine loop_keep (fun st : A3 K => st q) _ _ _ ?_ fine
      intro i hi hi' st
      have := h i hi hi'
      apply writes_keep
      intro x hx he
      simp only [List.mem_cons, List.not_mem_nil, or_false] at hx
      subst hx
      rw [he] at this; exact this rfl

theorem prolongX2_keep (d : Dims) (h2 : 1 < d.nx2) (flux : Bool) (tiny : K) (G Gc : Geom K) (C F : Crd K) (coarse fine : A3 K) (si ei sj ej sk ek : Int)
    (q : Int × Int × Int) (h : ∀ j, sj ≤ j → j ≤ ej → q.2.1 ≠ d.fj j) :
    prolongX2 d flux tiny G Gc C F coarse si ei sj ej sk ek fine q = fine q := by
  unfold prolongX2
  rw [if_pos h2]
  split
  · refine loop3_keep (fun st : A3 K => st q) _ _ _ _ _ _ _ ?_ fine
    intro k j i _ hj _ st
    have := h j hj.1 hj.2
    split <;>
    · apply writes_keep
      intro x hx he
      simp only [List.mem_cons, List.not_mem_nil, or_false] at hx
      rcases hx with rfl | rfl | rfl | rfl <;> (rw [he] at this; exact this rfl)
  · refine loop2_keep (fun st : A3 K => st q) _ _ _ _ _ ?_ fine
    intro j i hj _ st
    have := h j hj.1 hj.2
    apply writes_keep
    intro x hx he
    simp only [List.mem_cons, List.not_mem_nil, or_false] at hx
    rcases hx with rfl | rfl <;> (rw [he] at this; exact this rfl)

theorem prolongX3_keep (d : Dims) (h3 : 1 < d.nx3) (flux : Bool) (G Gc : Geom K) (C F : Crd K) (coarse fine : A3 K) (si ei sj ej sk ek : Int)
    (q : Int × Int × Int) (h : ∀ k, sk ≤ k → k ≤ ek → q.1 ≠ d.fk k) :
    prolongX3 d flux G Gc C F coarse si ei sj ej sk ek fine q = fine q := by
  unfold prolongX3
  rw [if_pos h3]
  refine loop3_keep (fun st : A3 K => st q) _ _ _ _ _ _ _ ?_ fine
  intro k j i hk _ _ st
  have := h k hk.1 hk.2
  split <;>
  · apply writes_keep
    intro x hx he
    simp only [List.mem_cons, List.not_mem_nil, or_false] at hx
    rcases hx with rfl | rfl | rfl | rfl <;> (rw [he] at this; exact this rfl)

/-! ### Faces inside the coarse cells -/

/-- The field agrees on all faces that can lie on the surface of a coarse cell. -/
structure SameOuter (d : Dims) (b b0 : FF K) : Prop where
  x1 : ∀ k j i, b.x1f (k, j, d.fi i) = b0.x1f (k, j, d.fi i)
  x2 : ∀ k j i, 1 < d.nx2 → b.x2f (k, d.fj j, i) = b0.x2f (k, d.fj j, i)
  x3 : ∀ k j i, 1 < d.nx3 → b.x3f (d.fk k, j, i) = b0.x3f (d.fk k, j, i)

theorem internal3_outer (d : Dims) (G : Geom K) (len : EF K) (F : Crd K) (k j i : Int) (b b0 : FF K) (h : SameOuter d b b0) :
    SameOuter d (internal3 d G len F k j i b) b0 := by
  have e1 := d.fk_lin k; have e3 := d.fj_lin j; have e5 := d.fi_lin i
  constructor
  · intro k' j' i'
    rw [← h.x1 k' j' i']
    have e6 := d.fi_lin i'
    apply writes_keep
    intro x hx he
    simp only [List.mem_cons, List.not_mem_nil, or_false] at hx
    rcases hx with rfl | rfl | rfl | rfl <;> simp only [Prod.mk.injEq] at he <;> omega
  · intro k' j' i' h2
    rw [← h.x2 k' j' i' h2]
    have e6 := d.fj_lin j'
    apply writes_keep
    intro x hx he
    simp only [List.mem_cons, List.not_mem_nil, or_false] at hx
    rcases hx with rfl | rfl | rfl | rfl <;> simp only [Prod.mk.injEq] at he <;> omega
  · intro k' j' i' h3
    rw [← h.x3 k' j' i' h3]
    have e6 := d.fk_lin k'
    apply writes_keep
    intro x hx he
    simp only [List.mem_cons, List.not_mem_nil, or_false] at hx
    rcases hx with rfl | rfl | rfl | rfl <;> simp only [Prod.mk.injEq] at he <;> omega

theorem internal2_outer (d : Dims) (h3 : ¬ 1 < d.nx3) (G : Geom K) (j i : Int) (b b0 : FF K) (h : SameOuter d b b0) :
    SameOuter d (internal2 d G j i b) b0 := by
  have e3 := d.fj_lin j; have e5 := d.fi_lin i
  constructor
  · intro k' j' i'
    rw [← h.x1 k' j' i']
    have e6 := d.fi_lin i'
    apply writes_keep
    intro x hx he
    simp only [List.mem_cons, List.not_mem_nil, or_false] at hx
    rcases hx with rfl | rfl <;> simp only [Prod.mk.injEq] at he <;> omega
  · intro k' j' i' h2
    rw [← h.x2 k' j' i' h2]
    have e6 := d.fj_lin j'
    apply writes_keep
    intro x hx he
    simp only [List.mem_cons, List.not_mem_nil, or_false] at hx
    rcases hx with rfl | rfl <;> simp only [Prod.mk.injEq] at he <;> omega
  · intro k' j' i' h3'; exact absurd h3' h3

theorem internal1_outer (d : Dims) (h2 : ¬ 1 < d.nx2) (h3 : ¬ 1 < d.nx3) (G : Geom K) (i : Int) (b b0 : FF K) (h : SameOuter d b b0) :
    SameOuter d (internal1 d G i b) b0 := by
  have e5 := d.fi_lin i
  constructor
  · intro k' j' i'
    rw [← h.x1 k' j' i']
    have e6 := d.fi_lin i'
    apply writes_keep
    intro x hx he
    simp only [List.mem_cons, List.not_mem_nil, or_false] at hx
    subst hx; simp only [Prod.mk.injEq] at he; omega
  · intro k' j' i' h2'; exact absurd h2' h2
  · intro k' j' i' h3'; exact absurd h3' h3

theorem outFine_congr (d : Dims) (G : Geom K) (b b0 : FF K) (h : SameOuter d b b0) (k j i : Int) :
    outFine d G b k j i = outFine d G b0 k j i := by
  have f1 : ∀ k j i, flux1 d G b.x1f k j i = flux1 d G b0.x1f k j i := by
    intro k j i
    apply sum_congr rfl
    rintro ⟨f1, f2, f3⟩ hf
    unfold faces1 at hf
    simp only [mem_product, mem_singleton] at hf
    rw [hf.2.2, h.x1]
  have f2 : ∀ k j i, 1 < d.nx2 → flux2 d G b.x2f k j i = flux2 d G b0.x2f k j i := by
    intro k j i h2
    apply sum_congr rfl
    rintro ⟨f1, f2, f3⟩ hf
    unfold faces2 at hf
    simp only [mem_product, mem_singleton] at hf
    rw [hf.2.1, h.x2 _ _ _ h2]
  have f3 : ∀ k j i, 1 < d.nx3 → flux3 d G b.x3f k j i = flux3 d G b0.x3f k j i := by
    intro k j i h3
    apply sum_congr rfl
    rintro ⟨f1, f2, f3⟩ hf
    unfold faces3 at hf
    simp only [mem_product, mem_singleton] at hf
    rw [hf.1, h.x3 _ _ _ h3]
  unfold outFine
  rw [f1, f1]
  congr 1
  · congr 1
    split
    · next h2 => rw [f2 _ _ _ h2, f2 _ _ _ h2]
    · rfl
  · split
    · next h3 => rw [f3 _ _ _ h3, f3 _ _ _ h3]
    · rfl

/-- Three dimensions: every fine cell gets an eighth of the net flux of the coarse cell. -/
theorem internal3_share (d : Dims) (h2 : 1 < d.nx2) (h3 : 1 < d.nx3) (G : Geom K) (len : EF K) (F : Crd K) (k j i : Int)
    (hf : FitIn d G len F k j i) (b : FF K) (c : Int × Int × Int) (hc : c ∈ fines d k j i) :
    8 * divB d G (internal3 d G len F k j i b) c.1 c.2.1 c.2.2 = outFine d G b k j i := by
  obtain ⟨hck, hcj, hci⟩ := (mem_fines d k j i c).1 hc
  obtain ⟨ck, cj, ci⟩ := c
  simp only at hck hcj hci ⊢
  clear hc
  have ek : d.fk (k+1) = d.fk k + 2 := by rw [d.fk_lin (k+1), d.fk_lin k]; ring
  have ej : d.fj (j+1) = d.fj j + 2 := by rw [d.fj_lin (j+1), d.fj_lin j]; ring
  have ei : d.fi (i+1) = d.fi i + 2 := by rw [d.fi_lin (i+1), d.fi_lin i]; ring
  have ha1 : ∀ k', k' = d.fk k ∨ k' = d.fk k + 1 → ∀ j', j' = d.fj j ∨ j' = d.fj j + 1 → G.a1 (k', j', d.fi i + 1) ≠ 0 := by
    intro k' hk' j' hj'
    apply hf.a1 <;> (simp only [Dims.kk, Dims.jj, if_pos h2, if_pos h3, mem_Icc]; omega)
  have ha2 : ∀ k', k' = d.fk k ∨ k' = d.fk k + 1 → ∀ i', i' = d.fi i ∨ i' = d.fi i + 1 → G.a2 (k', d.fj j + 1, i') ≠ 0 := by
    intro k' hk' j' hj'
    apply hf.a2 h2 <;> (simp only [Dims.kk, Dims.ii, if_pos h3, mem_Icc]; omega)
  have ha3 : ∀ j', j' = d.fj j ∨ j' = d.fj j + 1 → ∀ i', i' = d.fi i ∨ i' = d.fi i + 1 → G.a3 (d.fk k + 1, j', i') ≠ 0 := by
    intro k' hk' j' hj'
    apply hf.a3 h3 <;> (simp only [Dims.jj, Dims.ii, if_pos h2, mem_Icc]; omega)
  have hs := hf.s h3
  clear hf
  unfold outFine flux1 flux2 flux3 divB
  rw [if_pos h2, if_pos h3, if_pos h2, if_pos h3]
  rw [faces1_3 d _ _ _ _ h2 h3, faces1_3 d _ _ _ _ h2 h3, faces2_3 d _ _ _ _ h3, faces2_3 d _ _ _ _ h3, faces3_3 d _ _ _ _ h2, faces3_3 d _ _ _ _ h2]
  rw [ek, ej, ei]
  unfold out1 out2 out3 internal3
  simp only at hs ⊢
  generalize d.fk k = fk at *
  generalize d.fj j = fj at *
  generalize d.fi i = fi at *
  generalize (F.dx1f fi + F.dx1f (fi+1)) ^ 2 = s1 at *
  generalize (len.x2e (fk+1, fj, fi+1) + len.x2e (fk+1, fj+1, fi+1)) ^ 2 = s2 at *
  generalize (len.x3e (fk, fj+1, fi+1) + len.x3e (fk+1, fj+1, fi+1)) ^ 2 = s3 at *
  obtain ⟨n23, n13, n12⟩ := hs
  generalize hU : sum22 (fun jj ii => _) * (1 / 8 / (s2 + s3)) = U
  generalize hV : sum22 (fun jj ii => _) * (1 / 8 / (s1 + s3)) = V
  generalize hW : sum22 (fun jj ii => _) * (1 / 8 / (s1 + s2)) = W
  replace hU := (eq_div_iff n23).1 (show U = _ * (1 / 8) / (s2 + s3) by rw [← hU]; ring)
  replace hV := (eq_div_iff n13).1 (show V = _ * (1 / 8) / (s1 + s3) by rw [← hV]; ring)
  replace hW := (eq_div_iff n12).1 (show W = _ * (1 / 8) / (s1 + s2) by rw [← hW]; ring)
  generalize hX : sum22 (K := K) (fun jj ii => _) = X
  generalize hY : sum22 (K := K) (fun jj ii => _) = Y
  generalize hZ : sum22 (K := K) (fun jj ii => _) = Z
  simp only [sum22, mul_zero, mul_one, add_zero, zero_add, Int.cast_sub, Int.cast_mul, Int.cast_zero, Int.cast_one, Int.cast_ofNat]
    at hU hV hW hX hY hZ
  have t2 : ∀ t : Int, t + 1 + 1 = t + 2 := fun t => by ring
  have n21 : ∀ t : Int, ¬ (t + 2 = t + 1) := fun t => by omega
  have n12' : ∀ t : Int, ¬ (t = t + 1) := fun t => by omega
  have n12'' : ∀ t : Int, ¬ (t + 1 = t) := fun t => by omega
  have A1 := fun k' hk' j' hj' (x : K) => mul_div_cancel₀ x (ha1 k' hk' j' hj')
  have A2 := fun k' hk' j' hj' (x : K) => mul_div_cancel₀ x (ha2 k' hk' j' hj')
  have A3 := fun k' hk' j' hj' (x : K) => mul_div_cancel₀ x (ha3 k' hk' j' hj')
  clear ha1 ha2 ha3
  rcases hck with rfl | ⟨-, rfl⟩ <;> rcases hcj with rfl | ⟨-, rfl⟩ <;> rcases hci with rfl | rfl <;>
    simp only [t2, writes_cons, writes_nil, Function.update_apply, Prod.mk.injEq, and_true, true_and,
      and_false, false_and, and_self, if_true, if_false, n21, n12', n12'', A1 _ (Or.inl rfl) _ (Or.inl rfl), A1 _ (Or.inl rfl) _ (Or.inr rfl),
      A1 _ (Or.inr rfl) _ (Or.inl rfl), A1 _ (Or.inr rfl) _ (Or.inr rfl),
      A2 _ (Or.inl rfl) _ (Or.inl rfl), A2 _ (Or.inl rfl) _ (Or.inr rfl), A2 _ (Or.inr rfl) _ (Or.inl rfl), A2 _ (Or.inr rfl) _ (Or.inr rfl),
      A3 _ (Or.inl rfl) _ (Or.inl rfl), A3 _ (Or.inl rfl) _ (Or.inr rfl), A3 _ (Or.inr rfl) _ (Or.inl rfl), A3 _ (Or.inr rfl) _ (Or.inr rfl)] <;>
    clear A1 A2 A3
  · linear_combination (-8) * hU + (-8) * hV + (-8) * hW - hX - hY - hZ
  · linear_combination (-8) * hU + 8 * hV + 8 * hW + hX - hY - hZ
  · linear_combination 8 * hU + (-8) * hV + 8 * hW - hX + hY - hZ
  · linear_combination 8 * hU + 8 * hV + (-8) * hW + hX + hY - hZ
  · linear_combination 8 * hU + 8 * hV + (-8) * hW - hX - hY + hZ
  · linear_combination 8 * hU + (-8) * hV + 8 * hW + hX - hY + hZ
  · linear_combination (-8) * hU + 8 * hV + 8 * hW - hX + hY + hZ
  · linear_combination (-8) * hU + (-8) * hV + (-8) * hW + hX + hY + hZ

/-- Two dimensions: every fine cell gets a quarter of the net flux of the coarse cell. -/
theorem internal2_share (d : Dims) (h2 : 1 < d.nx2) (h3 : ¬ 1 < d.nx3) (G : Geom K) (len : EF K) (F : Crd K) (j i : Int)
    (hf : FitIn d G len F 0 j i) (b : FF K) (c : Int × Int × Int) (hc : c ∈ fines d 0 j i) :
    4 * divB d G (internal2 d G j i b) c.1 c.2.1 c.2.2 = outFine d G b 0 j i := by
  obtain ⟨hck, hcj, hci⟩ := (mem_fines d 0 j i c).1 hc
  obtain ⟨ck, cj, ci⟩ := c
  simp only at hck hcj hci ⊢
  clear hc
  have ek := d.fk0 h3
  have ej : d.fj (j+1) = d.fj j + 2 := by rw [d.fj_lin (j+1), d.fj_lin j]; ring
  have ei : d.fi (i+1) = d.fi i + 2 := by rw [d.fi_lin (i+1), d.fi_lin i]; ring
  have ha1 : ∀ j', j' = d.fj j ∨ j' = d.fj j + 1 → G.a1 (0, j', d.fi i + 1) ≠ 0 := by
    intro j' hj'
    apply hf.a1 <;> (simp only [Dims.kk, Dims.jj, if_pos h2, if_neg h3, mem_Icc, ek]; omega)
  have ha2 : ∀ i', i' = d.fi i ∨ i' = d.fi i + 1 → G.a2 (0, d.fj j + 1, i') ≠ 0 := by
    intro j' hj'
    apply hf.a2 h2 <;> (simp only [Dims.kk, Dims.ii, if_neg h3, mem_Icc, ek]; omega)
  clear hf
  have hck0 : ck = 0 := by rcases hck with h | h; · rw [h, ek]
                           · exact absurd h.1 h3
  subst hck0
  clear hck
  unfold outFine flux1 flux2 divB
  rw [if_pos h2, if_neg h3, if_pos h2, if_neg h3]
  rw [faces1_2 d _ _ _ _ h2 h3, faces1_2 d _ _ _ _ h2 h3, faces2_2 d _ _ _ _ h3, faces2_2 d _ _ _ _ h3]
  rw [ek, ej, ei]
  unfold out1 out2 internal2
  simp only [d.ks0 h3]
  generalize d.fj j = fj at *
  generalize d.fi i = fi at *
  have t2 : ∀ t : Int, t + 1 + 1 = t + 2 := fun t => by ring
  have n21 : ∀ t : Int, ¬ (t + 2 = t + 1) := fun t => by omega
  have n12' : ∀ t : Int, ¬ (t = t + 1) := fun t => by omega
  have n12'' : ∀ t : Int, ¬ (t + 1 = t) := fun t => by omega
  have A1 := fun k' hk' (x : K) => mul_div_cancel₀ x (ha1 k' hk')
  have A2 := fun k' hk' (x : K) => mul_div_cancel₀ x (ha2 k' hk')
  clear ha1 ha2
  rcases hcj with rfl | ⟨-, rfl⟩ <;> rcases hci with rfl | rfl <;>
    simp only [t2, writes_cons, writes_nil, Function.update_apply, Prod.mk.injEq, and_true, true_and,
      and_false, false_and, and_self, if_true, if_false, n21, n12', n12'', A1 _ (Or.inl rfl), A1 _ (Or.inr rfl),
      A2 _ (Or.inl rfl), A2 _ (Or.inr rfl)] <;>
    ring

/-- One dimension: the face between the two fine cells of a coarse cell carries the flux of the first face. -/
theorem internal1_share (d : Dims) (h2 : ¬ 1 < d.nx2) (h3 : ¬ 1 < d.nx3) (G : Geom K) (len : EF K) (F : Crd K) (i : Int)
    (hf : FitIn d G len F 0 0 i) (b : FF K) :
    divB d G (internal1 d G i b) 0 0 (d.fi i) = 0 ∧ divB d G (internal1 d G i b) 0 0 (d.fi i + 1) = outFine d G b 0 0 i := by
  have ei : d.fi (i+1) = d.fi i + 2 := by rw [d.fi_lin (i+1), d.fi_lin i]; ring
  have ha1 : G.a1 (0, 0, d.fi i + 1) ≠ 0 := by
    apply hf.a1 <;> (simp only [Dims.kk, Dims.jj, if_neg h2, if_neg h3, mem_Icc, d.fk0 h3, d.fj0 h2]; omega)
  clear hf
  unfold outFine flux1 divB
  rw [if_neg h2, if_neg h3, if_neg h2, if_neg h3, if_neg h2, if_neg h3]
  rw [faces1_1 d _ _ _ _ h2 h3, faces1_1 d _ _ _ _ h2 h3, d.fk0 h3, d.fj0 h2, ei]
  unfold out1 internal1
  generalize d.fi i = fi at *
  have t2 : ∀ t : Int, t + 1 + 1 = t + 2 := fun t => by ring
  have n21 : ∀ t : Int, ¬ (t + 2 = t + 1) := fun t => by omega
  have n12' : ∀ t : Int, ¬ (t = t + 1) := fun t => by omega
  have n12'' : ∀ t : Int, ¬ (t + 1 = t) := fun t => by omega
  simp only [t2, writes_cons, writes_nil, Function.update_apply, Prod.mk.injEq, and_true, true_and,
      and_false, false_and, and_self, if_true, if_false, n21, n12', n12'', mul_div_cancel₀ _ ha1]
  ring

theorem internal3_keep (d : Dims) (h2 : 1 < d.nx2) (h3 : 1 < d.nx3) (G : Geom K) (len : EF K) (F : Crd K) (k j i k' j' i' : Int)
    (b : FF K) (c : Int × Int × Int) (hc : c ∈ fines d k j i) (hn : ¬ (k' = k ∧ j' = j ∧ i' = i)) :
    divB d G (internal3 d G len F k' j' i' b) c.1 c.2.1 c.2.2 = divB d G b c.1 c.2.1 c.2.2 := by
  obtain ⟨hck, hcj, hci⟩ := (mem_fines d k j i c).1 hc
  obtain ⟨ck, cj, ci⟩ := c
  simp only at hck hcj hci ⊢
  have e1 := d.fk_lin k; have e3 := d.fj_lin j; have e5 := d.fi_lin i
  have e2 := d.fk_lin k'; have e4 := d.fj_lin j'; have e6 := d.fi_lin i'
  have k1 : ∀ q, q = (ck, cj, ci) ∨ q = (ck, cj, ci+1) → (internal3 d G len F k' j' i' b).x1f q = b.x1f q := by
    rintro q hq
    apply writes_keep
    intro x hx he
    simp only [List.mem_cons, List.not_mem_nil, or_false] at hx
    rcases hx with rfl | rfl | rfl | rfl <;> rcases hq with rfl | rfl <;> simp only [Prod.mk.injEq] at he <;> omega
  have k2 : ∀ q, q = (ck, cj, ci) ∨ q = (ck, cj+1, ci) → (internal3 d G len F k' j' i' b).x2f q = b.x2f q := by
    rintro q hq
    apply writes_keep
    intro x hx he
    simp only [List.mem_cons, List.not_mem_nil, or_false] at hx
    rcases hx with rfl | rfl | rfl | rfl <;> rcases hq with rfl | rfl <;> simp only [Prod.mk.injEq] at he <;> omega
  have k3 : ∀ q, q = (ck, cj, ci) ∨ q = (ck+1, cj, ci) → (internal3 d G len F k' j' i' b).x3f q = b.x3f q := by
    rintro q hq
    apply writes_keep
    intro x hx he
    simp only [List.mem_cons, List.not_mem_nil, or_false] at hx
    rcases hx with rfl | rfl | rfl | rfl <;> rcases hq with rfl | rfl <;> simp only [Prod.mk.injEq] at he <;> omega
  unfold divB out1 out2 out3
  rw [k1 _ (Or.inl rfl), k1 _ (Or.inr rfl), k2 _ (Or.inl rfl), k2 _ (Or.inr rfl), k3 _ (Or.inl rfl), k3 _ (Or.inr rfl)]

theorem internal2_keep (d : Dims) (h2 : 1 < d.nx2) (h3 : ¬ 1 < d.nx3) (G : Geom K) (k j i j' i' : Int)
    (b : FF K) (c : Int × Int × Int) (hc : c ∈ fines d k j i) (hn : ¬ (j' = j ∧ i' = i)) :
    divB d G (internal2 d G j' i' b) c.1 c.2.1 c.2.2 = divB d G b c.1 c.2.1 c.2.2 := by
  obtain ⟨hck, hcj, hci⟩ := (mem_fines d k j i c).1 hc
  obtain ⟨ck, cj, ci⟩ := c
  simp only at hck hcj hci ⊢
  have e3 := d.fj_lin j; have e5 := d.fi_lin i
  have e4 := d.fj_lin j'; have e6 := d.fi_lin i'
  have k1 : ∀ q, q = (ck, cj, ci) ∨ q = (ck, cj, ci+1) → (internal2 d G j' i' b).x1f q = b.x1f q := by
    rintro q hq
    apply writes_keep
    intro x hx he
    simp only [List.mem_cons, List.not_mem_nil, or_false] at hx
    rcases hx with rfl | rfl <;> rcases hq with rfl | rfl <;> simp only [Prod.mk.injEq] at he <;> omega
  have k2 : ∀ q, q = (ck, cj, ci) ∨ q = (ck, cj+1, ci) → (internal2 d G j' i' b).x2f q = b.x2f q := by
    rintro q hq
    apply writes_keep
    intro x hx he
    simp only [List.mem_cons, List.not_mem_nil, or_false] at hx
    rcases hx with rfl | rfl <;> rcases hq with rfl | rfl <;> simp only [Prod.mk.injEq] at he <;> omega
  unfold divB out1 out2
  rw [k1 _ (Or.inl rfl), k1 _ (Or.inr rfl), k2 _ (Or.inl rfl), k2 _ (Or.inr rfl), if_neg h3, if_neg h3]

theorem internal1_keep (d : Dims) (h2 : ¬ 1 < d.nx2) (h3 : ¬ 1 < d.nx3) (G : Geom K) (k j i i' : Int)
    (b : FF K) (c : Int × Int × Int) (hc : c ∈ fines d k j i) (hn : ¬ (i' = i)) :
    divB d G (internal1 d G i' b) c.1 c.2.1 c.2.2 = divB d G b c.1 c.2.1 c.2.2 := by
  obtain ⟨hck, hcj, hci⟩ := (mem_fines d k j i c).1 hc
  obtain ⟨ck, cj, ci⟩ := c
  simp only at hck hcj hci ⊢
  have e5 := d.fi_lin i
  have e6 := d.fi_lin i'
  have k1 : ∀ q, q = (ck, cj, ci) ∨ q = (ck, cj, ci+1) → (internal1 d G i' b).x1f q = b.x1f q := by
    rintro q hq
    apply writes_keep
    intro x hx he
    simp only [List.mem_cons, List.not_mem_nil, or_false] at hx
    subst hx; rcases hq with rfl | rfl <;> simp only [Prod.mk.injEq] at he <;> omega
  unfold divB out1
  rw [k1 _ (Or.inl rfl), k1 _ (Or.inr rfl), if_neg h3, if_neg h2, if_neg h3, if_neg h2]

/-- Number of fine cells of a coarse cell. -/
theorem prolongInternal_share (d : Dims) (ho : d.Ok) (h2 : 1 < d.nx2) (G : Geom K) (len : EF K) (F : Crd K) (b : Box) (k j i : Int)
    (hb : b.Has d k j i) (hf : FitIn d G len F k j i) (f : FF K) (c : Int × Int × Int) (hc : c ∈ fines d k j i) :
    (if 1 < d.nx3 then 8 else 4) * divB d G (prolongInternal d G len F b.si b.ei b.sj b.ej b.sk b.ek f) c.1 c.2.1 c.2.2
      = outFine d G f k j i := by
  obtain ⟨hi, hj, hk⟩ := hb
  rw [if_pos h2] at hj
  unfold prolongInternal
  by_cases h3 : 1 < d.nx3
  · rw [if_pos h3] at hk
    rw [if_pos h3, if_pos h3]
    refine loop_hit_inv (SameOuter d · f) (fun b => 8 * divB d G b c.1 c.2.1 c.2.2) _ _ _ _ k hk.1 hk.2 ?_ ?_ ?_ f ⟨fun _ _ _ => rfl, fun _ _ _ _ => rfl, fun _ _ _ _ => rfl⟩
    · intro k' _ _ st hst
      exact loop_inv _ _ _ _ (fun j' _ _ st hst => loop_inv (SameOuter d · f) _ _ _ (fun i' _ _ st hst => internal3_outer d G len F k' j' i' st f hst) st hst) st hst
    · intro st hst
      refine loop_hit_inv (SameOuter d · f) (fun b => 8 * divB d G b c.1 c.2.1 c.2.2) _ _ _ _ j hj.1 hj.2 ?_ ?_ ?_ st hst
      · intro j' _ _ st hst
        exact loop_inv (SameOuter d · f) _ _ _ (fun i' _ _ st hst => internal3_outer d G len F k j' i' st f hst) st hst
      · intro st hst
        refine loop_hit_inv (SameOuter d · f) (fun b => 8 * divB d G b c.1 c.2.1 c.2.2) _ _ _ _ i hi.1 hi.2 ?_ ?_ ?_ st hst
        · intro i' _ _ st hst; exact internal3_outer d G len F k j i' st f hst
        · intro st hst
          rw [internal3_share d h2 h3 G len F k j i hf st c hc, outFine_congr d G st f hst]
        · intro i' _ _ hne st
          rw [internal3_keep d h2 h3 G len F k j i k j i' st c hc (fun h => hne h.2.2)]
      · intro j' _ _ hne st
        refine loop_keep (fun b => 8 * divB d G b c.1 c.2.1 c.2.2) _ _ _ (fun i' _ _ st => ?_) st
        rw [internal3_keep d h2 h3 G len F k j i k j' i' st c hc (fun h => hne h.2.1)]
    · intro k' _ _ hne st
      refine loop2_keep (fun b => 8 * divB d G b c.1 c.2.1 c.2.2) _ _ _ _ _ (fun j' i' _ _ st => ?_) st
      rw [internal3_keep d h2 h3 G len F k j i k' j' i' st c hc (fun h => hne h.1)]
  · rw [if_neg h3] at hk
    subst hk
    rw [if_neg h3, if_neg h3, if_pos h2]
    refine loop_hit_inv (SameOuter d · f) (fun b => 4 * divB d G b c.1 c.2.1 c.2.2) _ _ _ _ j hj.1 hj.2 ?_ ?_ ?_ f ⟨fun _ _ _ => rfl, fun _ _ _ _ => rfl, fun _ _ _ _ => rfl⟩
    · intro j' _ _ st hst
      exact loop_inv (SameOuter d · f) _ _ _ (fun i' _ _ st hst => internal2_outer d h3 G j' i' st f hst) st hst
    · intro st hst
      refine loop_hit_inv (SameOuter d · f) (fun b => 4 * divB d G b c.1 c.2.1 c.2.2) _ _ _ _ i hi.1 hi.2 ?_ ?_ ?_ st hst
      · intro i' _ _ st hst; exact internal2_outer d h3 G j i' st f hst
      · intro st hst
        rw [internal2_share d h2 h3 G len F j i hf st c hc, outFine_congr d G st f hst]
      · intro i' _ _ hne st
        rw [internal2_keep d h2 h3 G 0 j i j i' st c hc (fun h => hne h.2)]
    · intro j' _ _ hne st
      refine loop_keep (fun b => 4 * divB d G b c.1 c.2.1 c.2.2) _ _ _ (fun i' _ _ st => ?_) st
      rw [internal2_keep d h2 h3 G 0 j i j' i' st c hc (fun h => hne h.1)]

/-- One dimension. -/
theorem prolongInternal_share1 (d : Dims) (h2 : ¬ 1 < d.nx2) (h3 : ¬ 1 < d.nx3) (G : Geom K) (len : EF K) (F : Crd K) (b : Box) (k j i : Int)
    (hb : b.Has d k j i) (hf : FitIn d G len F k j i) (f : FF K) :
    divB d G (prolongInternal d G len F b.si b.ei b.sj b.ej b.sk b.ek f) 0 0 (d.fi i) = 0 ∧
    divB d G (prolongInternal d G len F b.si b.ei b.sj b.ej b.sk b.ek f) 0 0 (d.fi i + 1) = outFine d G f k j i := by
  obtain ⟨hi, hj, hk⟩ := hb
  rw [if_neg h2] at hj
  rw [if_neg h3] at hk
  subst hk hj
  have hm : ((0 : Int), (0 : Int), d.fi i) ∈ fines d 0 0 i := by rw [mem_fines, d.fk0 h3, d.fj0 h2]; simp
  have hm' : ((0 : Int), (0 : Int), d.fi i + 1) ∈ fines d 0 0 i := by rw [mem_fines, d.fk0 h3, d.fj0 h2]; simp
  unfold prolongInternal
  rw [if_neg h3, if_neg h2]
  constructor
  · refine loop_hit_inv (SameOuter d · f) (fun b => divB d G b 0 0 (d.fi i)) _ _ _ _ i hi.1 hi.2 ?_ ?_ ?_ f ⟨fun _ _ _ => rfl, fun _ _ _ _ => rfl, fun _ _ _ _ => rfl⟩
    · intro i' _ _ st hst; exact internal1_outer d h2 h3 G i' st f hst
    · intro st hst; exact (internal1_share d h2 h3 G len F i hf st).1
    · intro i' _ _ hne st; exact internal1_keep d h2 h3 G 0 0 i i' st _ hm hne
  · refine loop_hit_inv (SameOuter d · f) (fun b => divB d G b 0 0 (d.fi i + 1)) _ _ _ _ i hi.1 hi.2 ?_ ?_ ?_ f ⟨fun _ _ _ => rfl, fun _ _ _ _ => rfl, fun _ _ _ _ => rfl⟩
    · intro i' _ _ st hst; exact internal1_outer d h2 h3 G i' st f hst
    · intro st hst
      rw [(internal1_share d h2 h3 G len F i hf st).2, outFine_congr d G st f hst]
    · intro i' _ _ hne st; exact internal1_keep d h2 h3 G 0 0 i i' st _ hm' hne

end Verif.Grid
