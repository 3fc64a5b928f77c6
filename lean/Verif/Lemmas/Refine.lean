import Verif.Spec.Refine
import Verif.Lemmas.Array
import Verif.Lemmas.Grid
import Mathlib.Algebra.BigOperators.Group.Finset.Sigma
import Mathlib.Tactic.Linarith
import Mathlib.Tactic.Ring
import Mathlib.Tactic.FieldSimp

/-! Helper lemmas for restriction and prolongation. -/
namespace Verif.Grid
open Verif.Arr

section loops
variable {σ β : Type}

theorem loop_keep (f : σ → β) (s e : Int) (B : Int → σ → σ)
    (h : ∀ i, s ≤ i → i ≤ e → ∀ st, f (B i st) = f st) (st : σ) : f (loop s e B st) = f st := by
  rw [loop_eq]
  have h' : ∀ i ∈ rng s e, ∀ st, f (B i st) = f st := fun i hi => h i (mem_rng.1 hi).1 (mem_rng.1 hi).2
  generalize rng s e = l at h'
  induction l generalizing st with
  | nil => rfl
  | cons a l ih =>
    rw [List.foldl_cons, ih _ (fun i hi => h' i (List.mem_cons_of_mem _ hi)), h' a List.mem_cons_self]

theorem loop_inv (Inv : σ → Prop) (s e : Int) (B : Int → σ → σ)
    (h : ∀ i, s ≤ i → i ≤ e → ∀ st, Inv st → Inv (B i st)) (st : σ) (h0 : Inv st) : Inv (loop s e B st) := by
  rw [loop_eq]
  have h' : ∀ i ∈ rng s e, ∀ st, Inv st → Inv (B i st) := fun i hi => h i (mem_rng.1 hi).1 (mem_rng.1 hi).2
  generalize rng s e = l at h'
  induction l generalizing st with
  | nil => exact h0
  | cons a l ih => exact ih _ (h' a List.mem_cons_self _ h0) (fun i hi => h' i (List.mem_cons_of_mem _ hi))

theorem loop_hit_inv (Inv : σ → Prop) (f : σ → β) (v : β) (s e : Int) (B : Int → σ → σ) (i : Int) (h1 : s ≤ i) (h2 : i ≤ e)
    (hinv : ∀ i, s ≤ i → i ≤ e → ∀ st, Inv st → Inv (B i st)) (hit : ∀ st, Inv st → f (B i st) = v)
    (keep : ∀ i', s ≤ i' → i' ≤ e → i' ≠ i → ∀ st, f (B i' st) = f st) (st : σ) (h0 : Inv st) :
    f (loop s e B st) = v := by
  rw [loop_eq]
  have hm : i ∈ rng s e := mem_rng.2 ⟨h1, h2⟩
  have hinv' : ∀ i ∈ rng s e, ∀ st, Inv st → Inv (B i st) := fun i hi => hinv i (mem_rng.1 hi).1 (mem_rng.1 hi).2
  have hk : ∀ i' ∈ rng s e, i' ≠ i → ∀ st, f (B i' st) = f st := fun i hi => keep i (mem_rng.1 hi).1 (mem_rng.1 hi).2
  generalize rng s e = l at hm hinv' hk
  have aux : ∀ l : List Int, (∀ i' ∈ l, i' ≠ i → ∀ st, f (B i' st) = f st) → (∀ i ∈ l, ∀ st, Inv st → Inv (B i st)) →
      ∀ st, Inv st → f st = v → f (l.foldl (fun st i => B i st) st) = v := by
    intro l
    induction l with
    | nil => intro _ _ st _ h; exact h
    | cons a l ih =>
      intro hk hi st hI h
      refine ih (fun x hx => hk x (List.mem_cons_of_mem _ hx)) (fun x hx => hi x (List.mem_cons_of_mem _ hx)) _
        (hi a List.mem_cons_self _ hI) ?_
      by_cases ha : a = i
      · subst ha; exact hit _ hI
      · rw [hk a List.mem_cons_self ha]; exact h
  induction l generalizing st with
  | nil => cases hm
  | cons a l ih =>
    by_cases ha : a = i
    · subst ha
      exact aux l (fun x hx => hk x (List.mem_cons_of_mem _ hx)) (fun x hx => hinv' x (List.mem_cons_of_mem _ hx)) _
        (hinv' a List.mem_cons_self _ h0) (hit _ h0)
    · rcases List.mem_cons.1 hm with h | h
      · exact absurd h.symm ha
      · exact ih _ (hinv' a List.mem_cons_self _ h0) h (fun x hx => hinv' x (List.mem_cons_of_mem _ hx))
          (fun x hx => hk x (List.mem_cons_of_mem _ hx))

theorem loop_hit (f : σ → β) (v : β) (s e : Int) (B : Int → σ → σ) (i : Int) (h1 : s ≤ i) (h2 : i ≤ e)
    (hit : ∀ st, f (B i st) = v)
    (keep : ∀ i', s ≤ i' → i' ≤ e → i' ≠ i → ∀ st, f (B i' st) = f st) (st : σ) :
    f (loop s e B st) = v :=
  loop_hit_inv (fun _ => True) f v s e B i h1 h2 (fun _ _ _ _ _ => trivial) (fun st _ => hit st) keep st trivial

theorem loop2_hit (f : σ → β) (v : β) (s1 e1 s2 e2 : Int) (B : Int → Int → σ → σ) (a b : Int)
    (ha : s1 ≤ a ∧ a ≤ e1) (hb : s2 ≤ b ∧ b ≤ e2) (hit : ∀ st, f (B a b st) = v)
    (keep : ∀ a' b', (a', b') ≠ (a, b) → ∀ st, f (B a' b' st) = f st) (st : σ) :
    f (loop s1 e1 (fun a => loop s2 e2 (fun b => B a b)) st) = v := by
  apply loop_hit f v _ _ _ a ha.1 ha.2
  · intro st
    exact loop_hit f v _ _ _ b hb.1 hb.2 hit (fun b' _ _ hne => keep a b' (by simp [hne])) st
  · intro a' _ _ hne st
    exact loop_keep f _ _ _ (fun b' _ _ => keep a' b' (by simp [hne])) st

theorem loop3_hit (f : σ → β) (v : β) (s1 e1 s2 e2 s3 e3 : Int) (B : Int → Int → Int → σ → σ) (a b c : Int)
    (ha : s1 ≤ a ∧ a ≤ e1) (hb : s2 ≤ b ∧ b ≤ e2) (hc : s3 ≤ c ∧ c ≤ e3) (hit : ∀ st, f (B a b c st) = v)
    (keep : ∀ a' b' c', (a', b', c') ≠ (a, b, c) → ∀ st, f (B a' b' c' st) = f st) (st : σ) :
    f (loop s1 e1 (fun a => loop s2 e2 (fun b => loop s3 e3 (fun c => B a b c))) st) = v := by
  apply loop_hit f v _ _ _ a ha.1 ha.2
  · intro st
    exact loop2_hit f v _ _ _ _ (B a) b c hb hc hit
      (fun b' c' hne => keep a b' c' (by simpa using hne)) st
  · intro a' _ _ hne st
    exact loop_keep f _ _ _ (fun b' _ _ => loop_keep f _ _ _ (fun c' _ _ => keep a' b' c' (by simp [hne]))) st

theorem loop4_hit (f : σ → β) (v : β) (s1 e1 s2 e2 s3 e3 s4 e4 : Int) (B : Int → Int → Int → Int → σ → σ) (a b c e : Int)
    (ha : s1 ≤ a ∧ a ≤ e1) (hb : s2 ≤ b ∧ b ≤ e2) (hc : s3 ≤ c ∧ c ≤ e3) (he : s4 ≤ e ∧ e ≤ e4)
    (hit : ∀ st, f (B a b c e st) = v)
    (keep : ∀ a' b' c' e', (a', b', c', e') ≠ (a, b, c, e) → ∀ st, f (B a' b' c' e' st) = f st) (st : σ) :
    f (loop s1 e1 (fun a => loop s2 e2 (fun b => loop s3 e3 (fun c => loop s4 e4 (fun e => B a b c e)))) st) = v := by
  apply loop_hit f v _ _ _ a ha.1 ha.2
  · intro st
    exact loop3_hit f v _ _ _ _ _ _ (B a) b c e hb hc he hit
      (fun b' c' e' hne => keep a b' c' e' (by simpa using hne)) st
  · intro a' _ _ hne st
    exact loop_keep f _ _ _ (fun b' _ _ => loop_keep f _ _ _ (fun c' _ _ => loop_keep f _ _ _
      (fun e' _ _ => keep a' b' c' e' (by simp [hne])))) st

theorem loop2_keep (f : σ → β) (s1 e1 s2 e2 : Int) (B : Int → Int → σ → σ)
    (keep : ∀ a b, (s1 ≤ a ∧ a ≤ e1) → (s2 ≤ b ∧ b ≤ e2) → ∀ st, f (B a b st) = f st) (st : σ) :
    f (loop s1 e1 (fun a => loop s2 e2 (fun b => B a b)) st) = f st :=
  loop_keep f _ _ _ (fun a h h' => loop_keep f _ _ _ (fun b h1 h1' => keep a b ⟨h, h'⟩ ⟨h1, h1'⟩)) st

theorem loop3_keep (f : σ → β) (s1 e1 s2 e2 s3 e3 : Int) (B : Int → Int → Int → σ → σ)
    (keep : ∀ a b c, (s1 ≤ a ∧ a ≤ e1) → (s2 ≤ b ∧ b ≤ e2) → (s3 ≤ c ∧ c ≤ e3) → ∀ st, f (B a b c st) = f st) (st : σ) :
    f (loop s1 e1 (fun a => loop s2 e2 (fun b => loop s3 e3 (fun c => B a b c))) st) = f st :=
  loop_keep f _ _ _ (fun a h h' => loop2_keep f _ _ _ _ _ (fun b c hb hc => keep a b c ⟨h, h'⟩ hb hc)) st

theorem loop4_keep (f : σ → β) (s1 e1 s2 e2 s3 e3 s4 e4 : Int) (B : Int → Int → Int → Int → σ → σ)
    (keep : ∀ a b c e, (s1 ≤ a ∧ a ≤ e1) → (s2 ≤ b ∧ b ≤ e2) → (s3 ≤ c ∧ c ≤ e3) → (s4 ≤ e ∧ e ≤ e4) →
      ∀ st, f (B a b c e st) = f st) (st : σ) :
    f (loop s1 e1 (fun a => loop s2 e2 (fun b => loop s3 e3 (fun c => loop s4 e4 (fun e => B a b c e)))) st) = f st :=
  loop_keep f _ _ _ (fun a h h' => loop3_keep f _ _ _ _ _ _ _ (fun b c e hb hc he => keep a b c e ⟨h, h'⟩ hb hc he)) st

end loops

section writes
variable {P K : Type} [DecidableEq P]

theorem writes_keep (l : List (P × K)) (q : P) (h : ∀ x ∈ l, q ≠ x.1) (st : P → K) : writes l st q = st q := by
  unfold writes
  apply fold_out l (fun x => x.1) (fun x _ => x.2)
  intro hm
  obtain ⟨x, hx, hxe⟩ := List.mem_map.1 hm
  exact h x hx hxe.symm

theorem writes_hit (l : List (P × K)) (q : P) (v : K) (hm : (q, v) ∈ l) (hnd : (l.map (·.1)).Nodup) (st : P → K) :
    writes l st q = v := by
  unfold writes
  exact fold_in l (fun x => x.1) (fun x _ => x.2) st hnd (fun _ _ _ _ _ => rfl) (q, v) hm

end writes

section order
variable {K : Type} [Field K] [LinearOrder K] [IsStrictOrderedRing K]

/-- The limited gradient is the smaller of the one-sided gradients if they agree in sign, and zero otherwise. -/
theorem slope_cases (m c p dxm dxp : K) :
    (0 ≤ (c - m) / dxm ∧ 0 ≤ (p - c) / dxp ∧ 0 ≤ slope m c p dxm dxp ∧ slope m c p dxm dxp ≤ (c - m) / dxm ∧
      slope m c p dxm dxp ≤ (p - c) / dxp) ∨
    ((c - m) / dxm < 0 ∧ (p - c) / dxp < 0 ∧ slope m c p dxm dxp ≤ 0 ∧ (c - m) / dxm ≤ slope m c p dxm dxp ∧
      (p - c) / dxp ≤ slope m c p dxm dxp) ∨
    slope m c p dxm dxp = 0 := by
  unfold slope sign
  simp only
  generalize (c - m) / dxm = a
  generalize (p - c) / dxp = b
  rcases lt_or_ge a 0 with ha | ha <;> rcases lt_or_ge b 0 with hb | hb
  · right; left
    rw [if_pos ha, if_pos hb, abs_of_neg ha, abs_of_neg hb]
    have h1 := min_le_left (-a) (-b)
    have h2 := min_le_right (-a) (-b)
    have h3 : 0 ≤ min (-a) (-b) := le_min (by linarith) (by linarith)
    refine ⟨ha, hb, ?_, ?_, ?_⟩ <;> linarith
  · right; right; rw [if_pos ha, if_neg (not_lt.2 hb)]; ring
  · right; right; rw [if_neg (not_lt.2 ha), if_pos hb]; ring
  · left
    rw [if_neg (not_lt.2 ha), if_neg (not_lt.2 hb), abs_of_nonneg ha, abs_of_nonneg hb]
    have h1 := min_le_left a b
    have h2 := min_le_right a b
    have h3 : 0 ≤ min a b := le_min ha hb
    refine ⟨ha, hb, ?_, ?_, ?_⟩ <;> linarith

/-- On linear data the limited gradient is the gradient. -/
theorem slope_linear (g c dxm dxp : K) (h1 : dxm ≠ 0) (h2 : dxp ≠ 0) :
    slope (c - g * dxm) c (c + g * dxp) dxm dxp = g := by
  unfold slope sign
  simp only
  have e1 : (c - (c - g * dxm)) / dxm = g := by field_simp; ring
  have e2 : (c + g * dxp - c) / dxp = g := by field_simp; ring
  rw [e1, e2, min_self]
  rcases lt_or_ge g 0 with h | h
  · rw [if_pos h, abs_of_neg h]; ring
  · rw [if_neg (not_lt.2 h), abs_of_nonneg h]; ring

/-- One direction's contribution to a prolongated value. -/
theorem slope_bound (m c p dxm dxp x t lo hi : K) (hm : 0 < dxm) (hp : 0 < dxp) (ht : 0 ≤ t)
    (hx1 : -(t * dxm) ≤ x) (hx2 : x ≤ t * dxp)
    (bm : lo ≤ m ∧ m ≤ hi) (bc : lo ≤ c ∧ c ≤ hi) (bp : lo ≤ p ∧ p ≤ hi) :
    t * (lo - c) ≤ slope m c p dxm dxp * x ∧ slope m c p dxm dxp * x ≤ t * (hi - c) := by
  have hlo : t * (lo - c) ≤ 0 := mul_nonpos_of_nonneg_of_nonpos ht (by linarith [bc.1])
  have hhi : 0 ≤ t * (hi - c) := mul_nonneg ht (by linarith [bc.2])
  have cm : (c - m) / dxm * dxm = c - m := div_mul_cancel₀ _ hm.ne'
  have cp : (p - c) / dxp * dxp = p - c := div_mul_cancel₀ _ hp.ne'
  rcases slope_cases m c p dxm dxp with ⟨h1, h2, h3, h4, h5⟩ | ⟨h1, h2, h3, h4, h5⟩ | h
  · generalize slope m c p dxm dxp = g at *
    have a1 : g * x ≤ g * (t * dxp) := mul_le_mul_of_nonneg_left hx2 h3
    have a2 : g * (-(t * dxm)) ≤ g * x := mul_le_mul_of_nonneg_left hx1 h3
    have b1 : g * (t * dxp) ≤ (p - c) / dxp * (t * dxp) := mul_le_mul_of_nonneg_right h5 (mul_nonneg ht hp.le)
    have b2 : g * (t * dxm) ≤ (c - m) / dxm * (t * dxm) := mul_le_mul_of_nonneg_right h4 (mul_nonneg ht hm.le)
    have c1 : (p - c) / dxp * (t * dxp) = t * (p - c) := by rw [← cp]; field_simp
    have c2 : (c - m) / dxm * (t * dxm) = t * (c - m) := by rw [← cm]; field_simp
    have d1 : t * (p - c) ≤ t * (hi - c) := mul_le_mul_of_nonneg_left (by linarith [bp.2]) ht
    have d2 : t * (c - m) ≤ t * (c - lo) := mul_le_mul_of_nonneg_left (by linarith [bm.1]) ht
    constructor <;> linarith
  · generalize slope m c p dxm dxp = g at *
    have a1 : g * (t * dxp) ≤ g * x := mul_le_mul_of_nonpos_left hx2 h3
    have a2 : g * x ≤ g * (-(t * dxm)) := mul_le_mul_of_nonpos_left hx1 h3
    have b1 : (p - c) / dxp * (t * dxp) ≤ g * (t * dxp) := mul_le_mul_of_nonneg_right h5 (mul_nonneg ht hp.le)
    have b2 : (c - m) / dxm * (t * dxm) ≤ g * (t * dxm) := mul_le_mul_of_nonneg_right h4 (mul_nonneg ht hm.le)
    have c1 : (p - c) / dxp * (t * dxp) = t * (p - c) := by rw [← cp]; field_simp
    have c2 : (c - m) / dxm * (t * dxm) = t * (c - m) := by rw [← cm]; field_simp
    have d1 : t * (lo - c) ≤ t * (p - c) := mul_le_mul_of_nonneg_left (by linarith [bp.1]) ht
    have d2 : t * (m - c) ≤ t * (hi - c) := mul_le_mul_of_nonneg_left (by linarith [bm.2]) ht
    constructor <;> linarith
  · rw [h, zero_mul]; exact ⟨hlo, hhi⟩

end order


section
open Finset
variable {K : Type} [Field K] [LinearOrder K] [IsStrictOrderedRing K]

theorem sum_two {M : Type} [AddCommMonoid M] (a : Int) (f : Int → M) : ∑ i ∈ Icc a (a + 1), f i = f a + f (a + 1) := by
  have : Icc a (a + 1) = {a, a + 1} := by ext x; simp only [mem_Icc, mem_insert, mem_singleton]; omega
  rw [this, sum_insert (by simp), sum_singleton]

theorem sum_fines3 {M : Type} [AddCommMonoid M] (d : Dims) (h2 : 1 < d.nx2) (h3 : 1 < d.nx3) (k j i : Int) (f : Int × Int × Int → M) :
    ∑ c ∈ fines d k j i, f c =
      ((f (d.fk k, d.fj j, d.fi i) + f (d.fk k, d.fj j, d.fi i + 1)) +
       (f (d.fk k, d.fj j + 1, d.fi i) + f (d.fk k, d.fj j + 1, d.fi i + 1))) +
      ((f (d.fk k + 1, d.fj j, d.fi i) + f (d.fk k + 1, d.fj j, d.fi i + 1)) +
       (f (d.fk k + 1, d.fj j + 1, d.fi i) + f (d.fk k + 1, d.fj j + 1, d.fi i + 1))) := by
  unfold fines Dims.kk Dims.jj Dims.ii
  rw [if_pos h2, if_pos h3]
  simp only [sum_product, sum_two]

theorem sum_fines2 {M : Type} [AddCommMonoid M] (d : Dims) (h2 : 1 < d.nx2) (h3 : ¬ 1 < d.nx3) (k j i : Int) (f : Int × Int × Int → M) :
    ∑ c ∈ fines d k j i, f c =
      ((f (d.fk k, d.fj j, d.fi i) + f (d.fk k, d.fj j, d.fi i + 1)) +
       (f (d.fk k, d.fj j + 1, d.fi i) + f (d.fk k, d.fj j + 1, d.fi i + 1))) := by
  unfold fines Dims.kk Dims.jj Dims.ii
  rw [if_pos h2, if_neg h3]
  simp only [sum_product, sum_two, Icc_self, sum_singleton]

theorem sum_fines1 {M : Type} [AddCommMonoid M] (d : Dims) (h2 : ¬ 1 < d.nx2) (h3 : ¬ 1 < d.nx3) (k j i : Int) (f : Int × Int × Int → M) :
    ∑ c ∈ fines d k j i, f c = f (d.fk k, d.fj j, d.fi i) + f (d.fk k, d.fj j, d.fi i + 1) := by
  unfold fines Dims.kk Dims.jj Dims.ii
  rw [if_neg h2, if_neg h3]
  simp only [sum_product, sum_two, Icc_self, sum_singleton]

theorem mem_fines (d : Dims) (k j i : Int) (c : Int × Int × Int) : c ∈ fines d k j i ↔
    (c.1 = d.fk k ∨ (1 < d.nx3 ∧ c.1 = d.fk k + 1)) ∧ (c.2.1 = d.fj j ∨ (1 < d.nx2 ∧ c.2.1 = d.fj j + 1)) ∧
      (c.2.2 = d.fi i ∨ c.2.2 = d.fi i + 1) := by
  unfold fines Dims.kk Dims.jj Dims.ii
  simp only [mem_product, mem_Icc]
  split <;> split <;> omega

theorem Dims.fk0 (d : Dims) (h : ¬ 1 < d.nx3) : d.fk 0 = 0 := by unfold Dims.fk Dims.cks Dims.ks; rw [if_neg h]; rfl
theorem Dims.fj0 (d : Dims) (h : ¬ 1 < d.nx2) : d.fj 0 = 0 := by unfold Dims.fj Dims.cjs Dims.js; rw [if_neg h]; rfl
theorem Dims.ks0 (d : Dims) (h : ¬ 1 < d.nx3) : d.ks = 0 := by unfold Dims.ks; rw [if_neg h]
theorem Dims.js0 (d : Dims) (h : ¬ 1 < d.nx2) : d.js = 0 := by unfold Dims.js; rw [if_neg h]

theorem upd_hit {P β : Type} [DecidableEq P] (st : P → β) (q : P) (v : β) : Function.update st q v q = v := by simp

theorem Dims.fi_lin (d : Dims) (a : Int) : d.fi a = 2 * a + d.fi 0 := by unfold Dims.fi; ring
theorem Dims.fj_lin (d : Dims) (a : Int) : d.fj a = 2 * a + d.fj 0 := by unfold Dims.fj; ring
theorem Dims.fk_lin (d : Dims) (a : Int) : d.fk a = 2 * a + d.fk 0 := by unfold Dims.fk; ring

/-- What restriction writes. -/
theorem restrictCC_eq (d : Dims) (ho : d.Ok) (G : Geom K) (fine coarse : A4 K) (sn en : Int) (b : Box) (n k j i : Int)
    (hn : sn ≤ n ∧ n ≤ en) (hb : b.Has d k j i) :
    restrictCC d G fine sn en b.si b.ei b.sj b.ej b.sk b.ek coarse (n, k, j, i) =
      (∑ c ∈ fines d k j i, fine (n, c) * G.vol c) / ∑ c ∈ fines d k j i, G.vol c := by
  unfold restrictCC
  have hi := hb.i; have hj := hb.j; have hk := hb.k
  by_cases h3 : 1 < d.nx3
  · have h2 := ho.ord h3
    rw [if_pos h2] at hj; rw [if_pos h3] at hk
    rw [if_pos h3, sum_fines3 d h2 h3, sum_fines3 d h2 h3]
    refine loop4_hit (fun st : A4 K => st (n, k, j, i)) _ _ _ _ _ _ _ _ _ _ n k j i hn hk hj hi ?_ ?_ coarse
    · intro st; simp only [Function.update_self]; congr 1 <;> ring
    · intro a' b' c' e' hne st
      exact Function.update_of_ne hne.symm _ _
  · rw [if_neg h3] at hk; subst hk
    by_cases h2 : 1 < d.nx2
    · rw [if_pos h2] at hj
      rw [if_neg h3, if_pos h2, sum_fines2 d h2 h3, sum_fines2 d h2 h3, d.fk0 h3]
      refine loop3_hit (fun st : A4 K => st (n, 0, j, i)) _ _ _ _ _ _ _ _ n j i hn hj hi ?_ ?_ coarse
      · intro st; simp only [Function.update_self]; congr 1 <;> ring
      · intro a' b' c' hne st
        refine Function.update_of_ne ?_ _ _
        intro h; apply hne; simp only [Prod.mk.injEq] at h ⊢; tauto
    · rw [if_neg h2] at hj; subst hj
      rw [if_neg h3, if_neg h2, sum_fines1 d h2 h3, sum_fines1 d h2 h3, d.fk0 h3, d.fj0 h2, d.ks0 h3, d.js0 h2]
      refine loop2_hit (fun st : A4 K => st (n, 0, 0, i)) _ _ _ _ _ _ n i hn hi ?_ ?_ coarse
      · intro st; simp only [Function.update_self]
      · intro a' b' hne st
        refine Function.update_of_ne ?_ _ _
        intro h; apply hne; simp only [Prod.mk.injEq] at h ⊢; tauto

theorem restrictCC_keep (d : Dims) (ho : d.Ok) (G : Geom K) (fine coarse : A4 K) (sn en : Int) (b : Box) (n k j i : Int)
    (h : ¬ (sn ≤ n ∧ n ≤ en ∧ b.Has d k j i)) :
    restrictCC d G fine sn en b.si b.ei b.sj b.ej b.sk b.ek coarse (n, k, j, i) = coarse (n, k, j, i) := by
  unfold restrictCC
  by_cases h3 : 1 < d.nx3
  · have h2 := ho.ord h3
    rw [if_pos h3]
    refine loop4_keep (fun st : A4 K => st (n, k, j, i)) _ _ _ _ _ _ _ _ _ ?_ coarse
    intro n' k' j' i' hn hk hj hi st
    refine Function.update_of_ne ?_ _ _
    rintro he; simp only [Prod.mk.injEq] at he; obtain ⟨rfl, rfl, rfl, rfl⟩ := he
    exact h ⟨hn.1, hn.2, hi, by rw [if_pos h2]; exact hj, by rw [if_pos h3]; exact hk⟩
  · by_cases h2 : 1 < d.nx2
    · rw [if_neg h3, if_pos h2]
      refine loop3_keep (fun st : A4 K => st (n, k, j, i)) _ _ _ _ _ _ _ ?_ coarse
      intro n' j' i' hn hj hi st
      refine Function.update_of_ne ?_ _ _
      rintro he; simp only [Prod.mk.injEq] at he; obtain ⟨rfl, rfl, rfl, rfl⟩ := he
      exact h ⟨hn.1, hn.2, hi, by rw [if_pos h2]; exact hj, by rw [if_neg h3]⟩
    · rw [if_neg h3, if_neg h2]
      refine loop2_keep (fun st : A4 K => st (n, k, j, i)) _ _ _ _ _ ?_ coarse
      intro n' i' hn hi st
      refine Function.update_of_ne ?_ _ _
      rintro he; simp only [Prod.mk.injEq] at he; obtain ⟨rfl, rfl, rfl, rfl⟩ := he
      exact h ⟨hn.1, hn.2, hi, by rw [if_neg h2], by rw [if_neg h3]⟩

/-- Gradients used in prolongation; zero in directions the mesh does not have. -/
def g1 (C : Crd K) (u : A4 K) (n k j i : Int) : K :=
  slope (u (n, k, j, i-1)) (u (n, k, j, i)) (u (n, k, j, i+1)) (C.x1v i - C.x1v (i-1)) (C.x1v (i+1) - C.x1v i)
def g2 (d : Dims) (C : Crd K) (u : A4 K) (n k j i : Int) : K :=
  if 1 < d.nx2 then slope (u (n, k, j-1, i)) (u (n, k, j, i)) (u (n, k, j+1, i)) (C.x2v j - C.x2v (j-1)) (C.x2v (j+1) - C.x2v j) else 0
def g3 (d : Dims) (C : Crd K) (u : A4 K) (n k j i : Int) : K :=
  if 1 < d.nx3 then slope (u (n, k-1, j, i)) (u (n, k, j, i)) (u (n, k+1, j, i)) (C.x3v k - C.x3v (k-1)) (C.x3v (k+1) - C.x3v k) else 0

/-- What prolongation writes: the linear function with the limited gradients, at the fine centres. -/
theorem prolongCC_eq (d : Dims) (ho : d.Ok) (C F : Crd K) (fine coarse : A4 K) (sn en : Int) (b : Box) (n k j i : Int)
    (hn : sn ≤ n ∧ n ≤ en) (hb : b.Has d k j i) (c : Int × Int × Int) (hc : c ∈ fines d k j i) :
    prolongCC d C F coarse sn en b.si b.ei b.sj b.ej b.sk b.ek fine (n, c) =
      coarse (n, k, j, i) + g1 C coarse n k j i * (F.x1v c.2.2 - C.x1v i) + g2 d C coarse n k j i * (F.x2v c.2.1 - C.x2v j)
        + g3 d C coarse n k j i * (F.x3v c.1 - C.x3v k) := by
  unfold prolongCC
  have hi := hb.i; have hj := hb.j; have hk := hb.k
  obtain ⟨hck, hcj, hci⟩ := (mem_fines d k j i c).1 hc
  obtain ⟨ck, cj, ci⟩ := c
  simp only at hck hcj hci
  clear hc hb
  by_cases h3 : 1 < d.nx3
  · have h2 := ho.ord h3
    rw [if_pos h2] at hj; rw [if_pos h3] at hk
    rw [if_pos h3]; unfold g1 g2 g3; rw [if_pos h3, if_pos h2]
    refine loop4_hit (fun st : A4 K => st (n, ck, cj, ci)) _ _ _ _ _ _ _ _ _ _ n k j i hn hk hj hi ?_ ?_ fine
    · intro st
      apply writes_hit
      · rcases hck with rfl | ⟨-, rfl⟩ <;> rcases hcj with rfl | ⟨-, rfl⟩ <;> rcases hci with rfl | rfl <;>
        simp [mul_comm] <;> ring
      · simp
    · intro n' k' j' i' hne st
      apply writes_keep
      intro x hx he
      apply hne
      have e1 := d.fk_lin k; have e2 := d.fk_lin k'; have e3 := d.fj_lin j; have e4 := d.fj_lin j'
      have e5 := d.fi_lin i; have e6 := d.fi_lin i'
      clear hne hn hi hj hk
      simp only [List.mem_cons, List.not_mem_nil, or_false] at hx
      simp only [Prod.mk.injEq]
      rcases hx with rfl | rfl | rfl | rfl | rfl | rfl | rfl | rfl <;> simp only [Prod.mk.injEq] at he <;> omega
  · rw [if_neg h3] at hk; subst hk
    have hck' : ck = 0 := by have := d.fk0 h3; omega
    subst hck'
    by_cases h2 : 1 < d.nx2
    · rw [if_pos h2] at hj
      rw [if_neg h3, if_pos h2]; unfold g1 g2 g3; rw [if_neg h3, if_pos h2, d.ks0 h3]
      refine loop3_hit (fun st : A4 K => st (n, 0, cj, ci)) _ _ _ _ _ _ _ _ n j i hn hj hi ?_ ?_ fine
      · intro st
        apply writes_hit
        · rcases hcj with rfl | ⟨-, rfl⟩ <;> rcases hci with rfl | rfl <;>
          simp <;> ring
        · simp
      · intro n' j' i' hne st
        apply writes_keep
        intro x hx he
        apply hne
        have e3 := d.fj_lin j; have e4 := d.fj_lin j'
        have e5 := d.fi_lin i; have e6 := d.fi_lin i'
        clear hne hn hi hj
        simp only [List.mem_cons, List.not_mem_nil, or_false] at hx
        simp only [Prod.mk.injEq]
        rcases hx with rfl | rfl | rfl | rfl <;> simp only [Prod.mk.injEq] at he <;> omega
    · rw [if_neg h2] at hj; subst hj
      have hcj' : cj = 0 := by have := d.fj0 h2; omega
      subst hcj'
      rw [if_neg h3, if_neg h2]; unfold g1 g2 g3; rw [if_neg h3, if_neg h2, d.ks0 h3, d.js0 h2]
      refine loop2_hit (fun st : A4 K => st (n, 0, 0, ci)) _ _ _ _ _ _ n i hn hi ?_ ?_ fine
      · intro st
        apply writes_hit
        · rcases hci with rfl | rfl <;> simp <;> ring
        · simp
      · intro n' i' hne st
        apply writes_keep
        intro x hx he
        apply hne
        have e5 := d.fi_lin i; have e6 := d.fi_lin i'
        clear hne hn hi
        simp only [List.mem_cons, List.not_mem_nil, or_false] at hx
        simp only [Prod.mk.injEq]
        rcases hx with rfl | rfl <;> simp only [Prod.mk.injEq] at he <;> omega

/-- Nothing else is written. -/
theorem prolongCC_keep (d : Dims) (ho : d.Ok) (C F : Crd K) (fine coarse : A4 K) (sn en : Int) (b : Box) (n : Int)
    (c : Int × Int × Int) (h : ∀ k j i, sn ≤ n → n ≤ en → b.Has d k j i → c ∉ fines d k j i) :
    prolongCC d C F coarse sn en b.si b.ei b.sj b.ej b.sk b.ek fine (n, c) = fine (n, c) := by
  unfold prolongCC
  by_cases h3 : 1 < d.nx3
  · have h2 := ho.ord h3
    rw [if_pos h3]
    refine loop4_keep (fun st : A4 K => st (n, c)) _ _ _ _ _ _ _ _ _ ?_ fine
    intro n' k j i hn hk hj hi st
    apply writes_keep
    intro x hx he
    have hx' : x.1 ∈ ([(n', d.fk k, d.fj j, d.fi i), (n', d.fk k, d.fj j, d.fi i+1), (n', d.fk k, d.fj j+1, d.fi i),
      (n', d.fk k, d.fj j+1, d.fi i+1), (n', d.fk k+1, d.fj j, d.fi i), (n', d.fk k+1, d.fj j, d.fi i+1), (n', d.fk k+1, d.fj j+1, d.fi i),
      (n', d.fk k+1, d.fj j+1, d.fi i+1)] : List (Int × Int × Int × Int)) := List.mem_map_of_mem (f := Prod.fst) hx
    clear hx
    rw [← he] at hx'
    have hn' : n = n' := by
      simp only [List.mem_cons, List.not_mem_nil, or_false, Prod.mk.injEq] at hx'; omega
    subst hn'
    apply h k j i hn.1 hn.2 ⟨hi, by rw [if_pos h2]; exact hj, by rw [if_pos h3]; exact hk⟩
    rw [mem_fines]
    obtain ⟨ck, cj, ci⟩ := c
    simp only [List.mem_cons, List.not_mem_nil, or_false, Prod.mk.injEq] at hx' ⊢
    omega
  · by_cases h2 : 1 < d.nx2
    · rw [if_neg h3, if_pos h2, d.ks0 h3]
      refine loop3_keep (fun st : A4 K => st (n, c)) _ _ _ _ _ _ _ ?_ fine
      intro n' j i hn hj hi st
      apply writes_keep
      intro x hx he
      have hx' : x.1 ∈ ([(n', 0, d.fj j, d.fi i), (n', 0, d.fj j, d.fi i+1), (n', 0, d.fj j+1, d.fi i),
        (n', 0, d.fj j+1, d.fi i+1)] : List (Int × Int × Int × Int)) := List.mem_map_of_mem (f := Prod.fst) hx
      clear hx
      rw [← he] at hx'
      have hn' : n = n' := by
        simp only [List.mem_cons, List.not_mem_nil, or_false, Prod.mk.injEq] at hx'; omega
      subst hn'
      apply h 0 j i hn.1 hn.2 ⟨hi, by rw [if_pos h2]; exact hj, by rw [if_neg h3]⟩
      rw [mem_fines, d.fk0 h3]
      obtain ⟨ck, cj, ci⟩ := c
      simp only [List.mem_cons, List.not_mem_nil, or_false, Prod.mk.injEq] at hx' ⊢
      omega
    · rw [if_neg h3, if_neg h2, d.ks0 h3, d.js0 h2]
      refine loop2_keep (fun st : A4 K => st (n, c)) _ _ _ _ _ ?_ fine
      intro n' i hn hi st
      apply writes_keep
      intro x hx he
      have hx' : x.1 ∈ ([(n', 0, 0, d.fi i), (n', 0, 0, d.fi i+1)] : List (Int × Int × Int × Int)) := List.mem_map_of_mem (f := Prod.fst) hx
      clear hx
      rw [← he] at hx'
      have hn' : n = n' := by
        simp only [List.mem_cons, List.not_mem_nil, or_false, Prod.mk.injEq] at hx'; omega
      subst hn'
      apply h 0 0 i hn.1 hn.2 ⟨hi, by rw [if_neg h2], by rw [if_neg h3]⟩
      rw [mem_fines, d.fk0 h3, d.fj0 h2]
      obtain ⟨ck, cj, ci⟩ := c
      simp only [List.mem_cons, List.not_mem_nil, or_false, Prod.mk.injEq] at hx' ⊢
      omega

end

end Verif.Grid
