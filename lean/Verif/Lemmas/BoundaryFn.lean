import Verif.Spec.BoundaryFn
import Verif.Lemmas.Refine

/-! Helper lemmas for the physical boundary functions. -/
namespace Verif.Grid
open Verif.Arr

/-- A body that writes one place, from a place nobody writes. -/
theorem loop3_fill {P K : Type} [DecidableEq P] (k0 k1 j0 j1 i0 i1 : Int) (dst src : Int → Int → Int → P) (val : K → K) (a : P → K)
    (T : P → Prop) [DecidablePred T] (g : P → P)
    (h1 : ∀ k j i, k0 ≤ k ∧ k ≤ k1 → j0 ≤ j ∧ j ≤ j1 → i0 ≤ i ∧ i ≤ i1 → T (dst k j i) ∧ g (dst k j i) = src k j i ∧ ¬ T (src k j i))
    (h2 : ∀ q, T q → ∃ k j i, (k0 ≤ k ∧ k ≤ k1) ∧ (j0 ≤ j ∧ j ≤ j1) ∧ (i0 ≤ i ∧ i ≤ i1) ∧ dst k j i = q)
    (h3 : ∀ k j i k' j' i', dst k j i = dst k' j' i' → k = k' ∧ j = j' ∧ i = i') :
    loop k0 k1 (fun k => loop j0 j1 fun j => loop i0 i1 fun i => fun a => Function.update a (dst k j i) (val (a (src k j i)))) a =
      fun q => if T q then val (a (g q)) else a q := by
  have keep : ∀ q, ¬ T q → ∀ k j i, k0 ≤ k ∧ k ≤ k1 → j0 ≤ j ∧ j ≤ j1 → i0 ≤ i ∧ i ≤ i1 → ∀ st : P → K,
      Function.update st (dst k j i) (val (st (src k j i))) q = st q := by
    intro q hq k j i hk hj hi st
    refine Function.update_of_ne ?_ _ _
    rintro rfl
    exact hq (h1 k j i hk hj hi).1
  funext q
  by_cases hq : T q
  · rw [if_pos hq]
    obtain ⟨k, j, i, hk, hj, hi, rfl⟩ := h2 q hq
    obtain ⟨-, hg, hs⟩ := h1 k j i hk hj hi
    rw [hg]
    have ne : ∀ k' j' i', (k', j', i') ≠ (k, j, i) → dst k j i ≠ dst k' j' i' := by
      intro k' j' i' hne h
      obtain ⟨rfl, rfl, rfl⟩ := h3 _ _ _ _ _ _ h
      exact hne rfl
    refine loop_hit_inv (fun st : P → K => st (src k j i) = a (src k j i)) (fun st : P → K => st (dst k j i)) _ _ _ _ k hk.1 hk.2 ?_ ?_ ?_ _ rfl
    · intro k' ha hb st hst
      refine loop_inv (fun st : P → K => st (src k j i) = a (src k j i)) _ _ _ (fun j' hc hd => loop_inv _ _ _ _ (fun i' he hf st hst => ?_)) _ hst
      exact (keep _ hs k' j' i' ⟨ha, hb⟩ ⟨hc, hd⟩ ⟨he, hf⟩ st).trans hst
    · intro st hst
      refine loop_hit_inv (fun st : P → K => st (src k j i) = a (src k j i)) (fun st : P → K => st (dst k j i)) _ _ _ _ j hj.1 hj.2 ?_ ?_ ?_ _ hst
      · intro j' hc hd
        exact loop_inv _ _ _ _ (fun i' he hf st hst => (keep _ hs k j' i' hk ⟨hc, hd⟩ ⟨he, hf⟩ st).trans hst)
      · intro st hst
        refine loop_hit_inv (fun st : P → K => st (src k j i) = a (src k j i)) (fun st : P → K => st (dst k j i)) _ _ _ _ i hi.1 hi.2 ?_ ?_ ?_ _ hst
        · intro i' he hf st hst
          exact (keep _ hs k j i' hk hj ⟨he, hf⟩ st).trans hst
        · intro st hst
          show Function.update st (dst k j i) _ (dst k j i) = _
          rw [Function.update_self, hst]
        · intro i' _ _ hne st
          exact Function.update_of_ne (ne _ _ _ (by simp [hne])) _ _
      · intro j' _ _ hne st
        exact loop_keep (fun st : P → K => st (dst k j i)) _ _ _ (fun i' _ _ st => Function.update_of_ne (ne _ _ _ (by simp [hne])) _ _) st
    · intro k' _ _ hne st
      exact loop_keep (fun st : P → K => st (dst k j i)) _ _ _ (fun j' _ _ st => loop_keep (fun st : P → K => st (dst k j i)) _ _ _ (fun i' _ _ st => Function.update_of_ne (ne _ _ _ (by simp [hne])) _ _) st) st
  · rw [if_neg hq]
    exact loop3_keep (fun st : P → K => st q) _ _ _ _ _ _ _ (fun k j i hk hj hi st => keep q hq k j i hk hj hi st) a

/-- A loop in which only one iteration touches what `f` observes. -/
theorem loop_once {σ β : Type} (f : σ → β) (F : β → β) (s e : Int) (B : Int → σ → σ) (i : Int) (h1 : s ≤ i) (h2 : i ≤ e)
    (hit : ∀ st, f (B i st) = F (f st)) (keep : ∀ i', i' ≠ i → ∀ st, f (B i' st) = f st) (st : σ) :
    f (loop s e B st) = F (f st) := by
  rw [loop_eq]
  have hm : i ∈ rng s e := mem_rng.2 ⟨h1, h2⟩
  have hn : (rng s e).Nodup := by
    unfold rng
    exact List.nodup_range.map (fun a b h => by simpa using h)
  generalize rng s e = l at hm hn
  induction l generalizing st with
  | nil => cases hm
  | cons a l ih =>
    rw [List.nodup_cons] at hn
    rw [List.foldl_cons]
    by_cases ha : a = i
    · subst ha
      rw [← hit]
      have : ∀ l : List Int, a ∉ l → ∀ st, f (l.foldl (fun st i => B i st) st) = f st := by
        intro l
        induction l with
        | nil => intro _ _; rfl
        | cons b l ih =>
          intro hb st
          rw [List.mem_cons, not_or] at hb
          rw [List.foldl_cons, ih hb.2, keep b (fun h => hb.1 h.symm)]
      exact this l hn.1 _
    · rcases List.mem_cons.1 hm with h | h
      · exact absurd h.symm ha
      · rw [ih _ h hn.2, keep a ha]

theorem nest3_eq {K : Type} {k0 k1 j0 j1 i0 i1 : Int} {dst src : Int → Int → Int → Int × Int × Int} {val : K → K} {a : A3 K}
    (T : Int × Int × Int → Prop) [DecidablePred T] (g : Int × Int × Int → Int × Int × Int)
    (h1 : ∀ k j i, k0 ≤ k ∧ k ≤ k1 → j0 ≤ j ∧ j ≤ j1 → i0 ≤ i ∧ i ≤ i1 → T (dst k j i) ∧ g (dst k j i) = src k j i ∧ ¬ T (src k j i))
    (h2 : ∀ k j i, T (k, j, i) → ∃ k' j' i', (k0 ≤ k' ∧ k' ≤ k1) ∧ (j0 ≤ j' ∧ j' ≤ j1) ∧ (i0 ≤ i' ∧ i' ≤ i1) ∧ dst k' j' i' = (k, j, i))
    (h3 : ∀ k j i k' j' i', dst k j i = dst k' j' i' → k = k' ∧ j = j' ∧ i = i') :
    nest3 k0 k1 j0 j1 i0 i1 dst src val a = fun q => if T q then val (a (g q)) else a q :=
  loop3_fill k0 k1 j0 j1 i0 i1 dst src val a T g h1 (fun q hq => h2 q.1 q.2.1 q.2.2 hq) h3

theorem nest4_eq {K : Type} {nu k0 k1 j0 j1 i0 i1 : Int} {dst src : Int → Int → Int → Int × Int × Int} {val : Int → K → K} {a : A4 K}
    (T : Int × Int × Int → Prop) [DecidablePred T] (g : Int × Int × Int → Int × Int × Int)
    (h1 : ∀ k j i, k0 ≤ k ∧ k ≤ k1 → j0 ≤ j ∧ j ≤ j1 → i0 ≤ i ∧ i ≤ i1 → T (dst k j i) ∧ g (dst k j i) = src k j i ∧ ¬ T (src k j i))
    (h2 : ∀ k j i, T (k, j, i) → ∃ k' j' i', (k0 ≤ k' ∧ k' ≤ k1) ∧ (j0 ≤ j' ∧ j' ≤ j1) ∧ (i0 ≤ i' ∧ i' ≤ i1) ∧ dst k' j' i' = (k, j, i))
    (h3 : ∀ k j i k' j' i', dst k j i = dst k' j' i' → k = k' ∧ j = j' ∧ i = i') :
    nest4 nu k0 k1 j0 j1 i0 i1 dst src val a =
      fun q => if (0 ≤ q.1 ∧ q.1 ≤ nu) ∧ T q.2 then val q.1 (a (q.1, g q.2)) else a q := by
  have one : ∀ m : Int, ∀ st : A4 K,
      loop k0 k1 (fun k => loop j0 j1 fun j => loop i0 i1 fun i => fun a => Function.update a (m, dst k j i) (val m (a (m, src k j i)))) st =
        fun q => if q.1 = m ∧ T q.2 then val m (st (m, g q.2)) else st q := by
    intro m st
    refine loop3_fill k0 k1 j0 j1 i0 i1 (fun k j i => (m, dst k j i)) (fun k j i => (m, src k j i)) (val m) st (fun q => q.1 = m ∧ T q.2)
      (fun q => (m, g q.2)) ?_ ?_ ?_
    · intro k j i hk hj hi
      obtain ⟨a1, a2, a3⟩ := h1 k j i hk hj hi
      exact ⟨⟨rfl, a1⟩, by rw [a2], fun h => a3 h.2⟩
    · rintro ⟨n, k, j, i⟩ ⟨rfl, hT⟩
      obtain ⟨k', j', i', b1, b2, b3, b4⟩ := h2 k j i hT
      exact ⟨k', j', i', b1, b2, b3, by rw [b4]⟩
    · intro k j i k' j' i' h
      exact h3 _ _ _ _ _ _ (Prod.mk.inj h).2
  funext q
  obtain ⟨n, q⟩ := q
  unfold nest4
  have one' : (fun m : Int => loop k0 k1 (fun k => loop j0 j1 fun j => loop i0 i1 fun i => fun a : A4 K =>
      Function.update a (m, dst k j i) (val m (a (m, src k j i))))) =
      fun m st => fun q => if q.1 = m ∧ T q.2 then val m (st (m, g q.2)) else st q := funext fun m => funext fun st => one m st
  rw [one']
  by_cases hn : 0 ≤ n ∧ n ≤ nu
  · have := loop_once (fun st : A4 K => fun q => st (n, q)) (fun s q => if T q then val n (s (g q)) else s q) 0 nu
      (fun m st => fun q => if q.1 = m ∧ T q.2 then val m (st (m, g q.2)) else st q) n hn.1 hn.2
      (by intro st; funext q; simp) (by intro m hm st; funext q; simp [Ne.symm hm]) a
    have := congrFun this q
    simp only at this
    rw [this]
    simp [hn]
  · rw [if_neg (fun h => hn h.1)]
    refine loop_keep (fun st : A4 K => st (n, q)) _ _ _ (fun m h h' st => if_neg ?_) a
    rintro ⟨rfl, -⟩
    exact hn ⟨h, h'⟩

/-- A box. -/
def InBox (kl ku jl ju il iu : Int) (q : Int × Int × Int) : Prop :=
  (kl ≤ q.1 ∧ q.1 ≤ ku) ∧ (jl ≤ q.2.1 ∧ q.2.1 ≤ ju) ∧ (il ≤ q.2.2 ∧ q.2.2 ≤ iu)
instance (kl ku jl ju il iu : Int) : DecidablePred (InBox kl ku jl ju il iu) := fun _ => by unfold InBox; infer_instance


section
variable {K : Type} [Field K]

def fill3 (T : Int × Int × Int → Prop) [DecidablePred T] (g : Int × Int × Int → Int × Int × Int) (v : K) (a : A3 K) : A3 K :=
  fun q => if T q then v * a (g q) else a q

def fill4 (nu : Int) (T : Int × Int × Int → Prop) [DecidablePred T] (g : Int × Int × Int → Int × Int × Int) (v : Int → K) (a : A4 K) : A4 K :=
  fun q => if (0 ≤ q.1 ∧ q.1 ≤ nu) ∧ T q.2 then v q.1 * a (q.1, g q.2) else a q

/-- Zero on a box. -/
def zeroAt (on : Prop) [Decidable on] (T : Int × Int × Int → Prop) [DecidablePred T] (a : A3 K) : A3 K :=
  fun q => if on ∧ T q then 0 else a q

theorem zeroAt_on {on : Prop} [Decidable on] (h : on) (T : Int × Int × Int → Prop) [DecidablePred T] (a : A3 K) :
    zeroAt on T a = zeroAt True T a := by
  unfold zeroAt; simp [h]

theorem zeroAt_off {on : Prop} [Decidable on] (h : ¬ on) (T : Int × Int × Int → Prop) [DecidablePred T] (a : A3 K) :
    zeroAt on T a = a := by
  unfold zeroAt; simp [h]

theorem nest3_fill {k0 k1 j0 j1 i0 i1 : Int} {dst src : Int → Int → Int → Int × Int × Int} {val : K → K} {a : A3 K}
    (T : Int × Int × Int → Prop) [DecidablePred T] (g : Int × Int × Int → Int × Int × Int) (v : K) (hv : ∀ x, val x = v * x)
    (h1 : ∀ k j i, k0 ≤ k ∧ k ≤ k1 → j0 ≤ j ∧ j ≤ j1 → i0 ≤ i ∧ i ≤ i1 → T (dst k j i) ∧ g (dst k j i) = src k j i ∧ ¬ T (src k j i))
    (h2 : ∀ k j i, T (k, j, i) → ∃ k' j' i', (k0 ≤ k' ∧ k' ≤ k1) ∧ (j0 ≤ j' ∧ j' ≤ j1) ∧ (i0 ≤ i' ∧ i' ≤ i1) ∧ dst k' j' i' = (k, j, i))
    (h3 : ∀ k j i k' j' i', dst k j i = dst k' j' i' → k = k' ∧ j = j' ∧ i = i') :
    nest3 k0 k1 j0 j1 i0 i1 dst src val a = fill3 T g v a := by
  rw [nest3_eq T g h1 h2 h3]; unfold fill3; simp only [hv]

theorem nest4_fill {nu k0 k1 j0 j1 i0 i1 : Int} {dst src : Int → Int → Int → Int × Int × Int} {val : Int → K → K} {a : A4 K}
    (T : Int × Int × Int → Prop) [DecidablePred T] (g : Int × Int × Int → Int × Int × Int) (v : Int → K) (hv : ∀ n x, val n x = v n * x)
    (h1 : ∀ k j i, k0 ≤ k ∧ k ≤ k1 → j0 ≤ j ∧ j ≤ j1 → i0 ≤ i ∧ i ≤ i1 → T (dst k j i) ∧ g (dst k j i) = src k j i ∧ ¬ T (src k j i))
    (h2 : ∀ k j i, T (k, j, i) → ∃ k' j' i', (k0 ≤ k' ∧ k' ≤ k1) ∧ (j0 ≤ j' ∧ j' ≤ j1) ∧ (i0 ≤ i' ∧ i' ≤ i1) ∧ dst k' j' i' = (k, j, i))
    (h3 : ∀ k j i k' j' i', dst k j i = dst k' j' i' → k = k' ∧ j = j' ∧ i = i') :
    nest4 nu k0 k1 j0 j1 i0 i1 dst src val a = fill4 nu T g v a := by
  rw [nest4_eq T g h1 h2 h3]; unfold fill4; simp only [hv]

/-- The zero loop at the pole. -/
theorem nest3_zero (kl ku j il iu : Int) (a : A3 K) :
    nest3 kl ku 0 0 il iu (fun k _ i => (k, j, i)) (fun k _ i => (k, j, i)) (fun _ => 0) a = zeroAt True (InBox kl ku j j il iu) a := by
  funext q
  obtain ⟨k, j', i⟩ := q
  unfold zeroAt nest3 InBox
  simp only [true_and]
  split
  · rename_i h
    obtain ⟨hk, hj, hi⟩ := h
    have : j' = j := by omega
    subst this
    refine loop_hit (fun st : A3 K => st (k, j', i)) _ _ _ _ k hk.1 hk.2 (fun st => ?_) (fun k' _ _ hne st => ?_) a
    · refine loop_hit (fun st : A3 K => st (k, j', i)) _ _ _ _ 0 le_rfl le_rfl (fun st => ?_) (fun z h h' hne st => absurd (le_antisymm h' h) hne) st
      refine loop_hit (fun st : A3 K => st (k, j', i)) _ _ _ _ i hi.1 hi.2 (fun st => Function.update_self _ _ _) (fun i' _ _ hne st => ?_) st
      exact Function.update_of_ne (by simp [Ne.symm hne]) _ _
    · exact loop2_keep (fun st : A3 K => st (k, j', i)) _ _ _ _ _ (fun b e _ _ st => Function.update_of_ne (by simp [Ne.symm hne]) _ _) st
  · rename_i h
    refine loop3_keep (fun st : A3 K => st (k, j', i)) _ _ _ _ _ _ _ (fun x y z hx _ hz st => Function.update_of_ne ?_ _ _) a
    intro e
    simp only [Prod.mk.injEq] at e
    exact h ⟨by omega, by omega, by omega⟩

end


macro "sv" : tactic => `(tactic| (intros; simp only [BC.sgn, negAt, flipHydro, id] <;> (repeat' split) <;> simp_all))
macro "nf" w:term : tactic => `(tactic| (
  first
  | refine nest4_fill _ _ _ ?_ ?_ ?_ ?_
  | refine nest3_fill _ _ _ ?_ ?_ ?_ ?_
  · sv
  · intro k j i hk hj hi
    refine ⟨?_, ?_, ?_⟩ <;> simp only [InBox, BC.lo, BC.hi, BC.face, Prod.mk.injEq, true_and, and_true] <;> omega
  · intro k j i h
    simp only [InBox] at h
    refine ⟨($w k j i).1, ($w k j i).2.1, ($w k j i).2.2, ?_⟩
    refine ⟨?_, ?_, ?_, ?_⟩ <;> (try simp only [Prod.mk.injEq, true_and, and_true]) <;> omega
  · intro k j i k' j' i' h
    simp only [Prod.mk.injEq] at h
    omega))

section
variable {K : Type} [Field K] (c : Conv K) (a : Arg) (st : Blk K)

theorem dispatch_i1 (bc : BC) (hc : bc ≠ .comm) (hw : bc ≠ .wedge) : dispatch c .i1 bc a st = some
    { st with
      w := fill4 c.nu (InBox a.kl a.ku a.jl a.ju (a.il-a.ngh) (a.il-1)) (fun q => (q.1, q.2.1, bc.lo a.il q.2.2)) (bc.sgn 1) st.w
      b := ⟨fill3 (InBox a.kl a.ku a.jl a.ju (a.il-a.ngh) (a.il-1)) (fun q => (q.1, q.2.1, bc.face a.il q.2.2)) (bc.sgn 1 1) st.b.x1f,
            fill3 (InBox a.kl a.ku a.jl (a.ju+1) (a.il-a.ngh) (a.il-1)) (fun q => (q.1, q.2.1, bc.lo a.il q.2.2)) (bc.sgn 1 2) st.b.x2f,
            fill3 (InBox a.kl (a.ku+1) a.jl a.ju (a.il-a.ngh) (a.il-1)) (fun q => (q.1, q.2.1, bc.lo a.il q.2.2)) (bc.sgn 1 3) st.b.x3f⟩
      r := fill4 c.ns (InBox a.kl a.ku a.jl a.ju (a.il-a.ngh) (a.il-1)) (fun q => (q.1, q.2.1, bc.lo a.il q.2.2)) (fun _ => bc.sgn 1 0) st.r } := by
  cases bc
  · exact absurd rfl hc
  · simp only [dispatch]
    refine congrArg some ?_
    have e0 : ccReflI1 c.nu a (negAt 1) st.w = fill4 c.nu (InBox a.kl a.ku a.jl a.ju (a.il-a.ngh) (a.il-1)) (fun q => (q.1, q.2.1, BC.reflect.lo a.il q.2.2)) (BC.reflect.sgn 1) st.w := by
      unfold ccReflI1; nf (fun k j i : Int => (k, j, a.il - i))
    have e4 : ccReflI1 c.ns a (fun _ x => x) st.r = fill4 c.ns (InBox a.kl a.ku a.jl a.ju (a.il-a.ngh) (a.il-1)) (fun q => (q.1, q.2.1, BC.reflect.lo a.il q.2.2)) (fun _ => BC.reflect.sgn 1 0) st.r := by
      unfold ccReflI1; nf (fun k j i : Int => (k, j, a.il - i))
    rw [e0, e4]
    unfold fcReflI1
    congr 2
    · nf (fun k j i : Int => (k, j, a.il - i))
    · nf (fun k j i : Int => (k, j, a.il - i))
    · nf (fun k j i : Int => (k, j, a.il - i))
  · simp only [dispatch]
    refine congrArg some ?_
    have e0 : ccOutI1 c.nu a st.w = fill4 c.nu (InBox a.kl a.ku a.jl a.ju (a.il-a.ngh) (a.il-1)) (fun q => (q.1, q.2.1, BC.outflow.lo a.il q.2.2)) (BC.outflow.sgn 1) st.w := by
      unfold ccOutI1; nf (fun k j i : Int => (k, j, a.il - i))
    have e4 : ccOutI1 c.ns a st.r = fill4 c.ns (InBox a.kl a.ku a.jl a.ju (a.il-a.ngh) (a.il-1)) (fun q => (q.1, q.2.1, BC.outflow.lo a.il q.2.2)) (fun _ => BC.outflow.sgn 1 0) st.r := by
      unfold ccOutI1; nf (fun k j i : Int => (k, j, a.il - i))
    rw [e0, e4]
    unfold fcOutI1
    congr 2
    · nf (fun k j i : Int => (k, j, a.il - i))
    · nf (fun k j i : Int => (k, j, a.il - i))
    · nf (fun k j i : Int => (k, j, a.il - i))
  · exact absurd rfl hw

theorem dispatch_o1 (bc : BC) (hc : bc ≠ .comm) (hw : bc ≠ .wedge) : dispatch c .o1 bc a st = some
    { st with
      w := fill4 c.nu (InBox a.kl a.ku a.jl a.ju (a.iu+1) (a.iu+a.ngh)) (fun q => (q.1, q.2.1, bc.hi a.iu q.2.2)) (bc.sgn 1) st.w
      b := ⟨fill3 (InBox a.kl a.ku a.jl a.ju (a.iu+2) (a.iu+a.ngh+1)) (fun q => (q.1, q.2.1, bc.face (a.iu+1) q.2.2)) (bc.sgn 1 1) st.b.x1f,
            fill3 (InBox a.kl a.ku a.jl (a.ju+1) (a.iu+1) (a.iu+a.ngh)) (fun q => (q.1, q.2.1, bc.hi a.iu q.2.2)) (bc.sgn 1 2) st.b.x2f,
            fill3 (InBox a.kl (a.ku+1) a.jl a.ju (a.iu+1) (a.iu+a.ngh)) (fun q => (q.1, q.2.1, bc.hi a.iu q.2.2)) (bc.sgn 1 3) st.b.x3f⟩
      r := fill4 c.ns (InBox a.kl a.ku a.jl a.ju (a.iu+1) (a.iu+a.ngh)) (fun q => (q.1, q.2.1, bc.hi a.iu q.2.2)) (fun _ => bc.sgn 1 0) st.r } := by
  cases bc
  · exact absurd rfl hc
  · simp only [dispatch]
    refine congrArg some ?_
    have e0 : ccReflO1 c.nu a (negAt 1) st.w = fill4 c.nu (InBox a.kl a.ku a.jl a.ju (a.iu+1) (a.iu+a.ngh)) (fun q => (q.1, q.2.1, BC.reflect.hi a.iu q.2.2)) (BC.reflect.sgn 1) st.w := by
      unfold ccReflO1; nf (fun k j i : Int => (k, j, i - a.iu))
    have e4 : ccReflO1 c.ns a (fun _ x => x) st.r = fill4 c.ns (InBox a.kl a.ku a.jl a.ju (a.iu+1) (a.iu+a.ngh)) (fun q => (q.1, q.2.1, BC.reflect.hi a.iu q.2.2)) (fun _ => BC.reflect.sgn 1 0) st.r := by
      unfold ccReflO1; nf (fun k j i : Int => (k, j, i - a.iu))
    rw [e0, e4]
    unfold fcReflO1
    congr 2
    · nf (fun k j i : Int => (k, j, i - a.iu - 1))
    · nf (fun k j i : Int => (k, j, i - a.iu))
    · nf (fun k j i : Int => (k, j, i - a.iu))
  · simp only [dispatch]
    refine congrArg some ?_
    have e0 : ccOutO1 c.nu a st.w = fill4 c.nu (InBox a.kl a.ku a.jl a.ju (a.iu+1) (a.iu+a.ngh)) (fun q => (q.1, q.2.1, BC.outflow.hi a.iu q.2.2)) (BC.outflow.sgn 1) st.w := by
      unfold ccOutO1; nf (fun k j i : Int => (k, j, i - a.iu))
    have e4 : ccOutO1 c.ns a st.r = fill4 c.ns (InBox a.kl a.ku a.jl a.ju (a.iu+1) (a.iu+a.ngh)) (fun q => (q.1, q.2.1, BC.outflow.hi a.iu q.2.2)) (fun _ => BC.outflow.sgn 1 0) st.r := by
      unfold ccOutO1; nf (fun k j i : Int => (k, j, i - a.iu))
    rw [e0, e4]
    unfold fcOutO1
    congr 2
    · nf (fun k j i : Int => (k, j, i - a.iu - 1))
    · nf (fun k j i : Int => (k, j, i - a.iu))
    · nf (fun k j i : Int => (k, j, i - a.iu))
  · exact absurd rfl hw

theorem dispatch_i2 (bc : BC) (hc : bc ≠ .comm) : dispatch c .i2 bc a st = some
    { st with
      w := fill4 c.nu (InBox a.kl a.ku (a.jl-a.ngh) (a.jl-1) a.il a.iu) (fun q => (q.1, bc.lo a.jl q.2.1, q.2.2)) (bc.sgn 2) st.w
      b := ⟨fill3 (InBox a.kl a.ku (a.jl-a.ngh) (a.jl-1) a.il (a.iu+1)) (fun q => (q.1, bc.lo a.jl q.2.1, q.2.2)) (bc.sgn 2 1) st.b.x1f,
            zeroAt (bc = .wedge) (InBox a.kl a.ku a.jl a.jl a.il a.iu) (fill3 (InBox a.kl a.ku (a.jl-a.ngh) (a.jl-1) a.il a.iu) (fun q => (q.1, bc.face a.jl q.2.1, q.2.2)) (bc.sgn 2 2) st.b.x2f),
            fill3 (InBox a.kl (a.ku+1) (a.jl-a.ngh) (a.jl-1) a.il a.iu) (fun q => (q.1, bc.lo a.jl q.2.1, q.2.2)) (bc.sgn 2 3) st.b.x3f⟩
      r := fill4 c.ns (InBox a.kl a.ku (a.jl-a.ngh) (a.jl-1) a.il a.iu) (fun q => (q.1, bc.lo a.jl q.2.1, q.2.2)) (fun _ => bc.sgn 2 0) st.r } := by
  cases bc
  · exact absurd rfl hc
  · simp only [dispatch]
    refine congrArg some ?_
    have e0 : ccReflI2 c.nu a (negAt 2) st.w = fill4 c.nu (InBox a.kl a.ku (a.jl-a.ngh) (a.jl-1) a.il a.iu) (fun q => (q.1, BC.reflect.lo a.jl q.2.1, q.2.2)) (BC.reflect.sgn 2) st.w := by
      unfold ccReflI2; nf (fun k j i : Int => (k, a.jl - j, i))
    have e4 : ccReflI2 c.ns a (fun _ x => x) st.r = fill4 c.ns (InBox a.kl a.ku (a.jl-a.ngh) (a.jl-1) a.il a.iu) (fun q => (q.1, BC.reflect.lo a.jl q.2.1, q.2.2)) (fun _ => BC.reflect.sgn 2 0) st.r := by
      unfold ccReflI2; nf (fun k j i : Int => (k, a.jl - j, i))
    rw [e0, e4]
    unfold fcReflI2
    congr 2
    · nf (fun k j i : Int => (k, a.jl - j, i))
    · rw [zeroAt_off (by decide)]
      nf (fun k j i : Int => (k, a.jl - j, i))
    · nf (fun k j i : Int => (k, a.jl - j, i))
  · simp only [dispatch]
    refine congrArg some ?_
    have e0 : ccOutI2 c.nu a st.w = fill4 c.nu (InBox a.kl a.ku (a.jl-a.ngh) (a.jl-1) a.il a.iu) (fun q => (q.1, BC.outflow.lo a.jl q.2.1, q.2.2)) (BC.outflow.sgn 2) st.w := by
      unfold ccOutI2; nf (fun k j i : Int => (k, a.jl - j, i))
    have e4 : ccOutI2 c.ns a st.r = fill4 c.ns (InBox a.kl a.ku (a.jl-a.ngh) (a.jl-1) a.il a.iu) (fun q => (q.1, BC.outflow.lo a.jl q.2.1, q.2.2)) (fun _ => BC.outflow.sgn 2 0) st.r := by
      unfold ccOutI2; nf (fun k j i : Int => (k, a.jl - j, i))
    rw [e0, e4]
    unfold fcOutI2
    congr 2
    · nf (fun k j i : Int => (k, a.jl - j, i))
    · rw [zeroAt_off (by decide)]
      nf (fun k j i : Int => (k, a.jl - j, i))
    · nf (fun k j i : Int => (k, a.jl - j, i))
  · simp only [dispatch]
    refine congrArg some ?_
    have e0 : ccReflI2 c.nu a flipHydro st.w = fill4 c.nu (InBox a.kl a.ku (a.jl-a.ngh) (a.jl-1) a.il a.iu) (fun q => (q.1, BC.wedge.lo a.jl q.2.1, q.2.2)) (BC.wedge.sgn 2) st.w := by
      unfold ccReflI2; nf (fun k j i : Int => (k, a.jl - j, i))
    have e4 : ccReflI2 c.ns a (fun _ x => 1 * x) st.r = fill4 c.ns (InBox a.kl a.ku (a.jl-a.ngh) (a.jl-1) a.il a.iu) (fun q => (q.1, BC.wedge.lo a.jl q.2.1, q.2.2)) (fun _ => BC.wedge.sgn 2 0) st.r := by
      unfold ccReflI2; nf (fun k j i : Int => (k, a.jl - j, i))
    rw [e0, e4]
    unfold fcWedgeI2
    congr 2
    · nf (fun k j i : Int => (k, a.jl - j, i))
    · rw [nest3_zero]
      rw [zeroAt_on rfl]
      refine congrArg _ ?_
      nf (fun k j i : Int => (k, a.jl - j, i))
    · nf (fun k j i : Int => (k, a.jl - j, i))

theorem dispatch_o2 (bc : BC) (hc : bc ≠ .comm) : dispatch c .o2 bc a st = some
    { st with
      w := fill4 c.nu (InBox a.kl a.ku (a.ju+1) (a.ju+a.ngh) a.il a.iu) (fun q => (q.1, bc.hi a.ju q.2.1, q.2.2)) (bc.sgn 2) st.w
      b := ⟨fill3 (InBox a.kl a.ku (a.ju+1) (a.ju+a.ngh) a.il (a.iu+1)) (fun q => (q.1, bc.hi a.ju q.2.1, q.2.2)) (bc.sgn 2 1) st.b.x1f,
            zeroAt (bc = .wedge) (InBox a.kl a.ku (a.ju+1) (a.ju+1) a.il a.iu) (fill3 (InBox a.kl a.ku (a.ju+2) (a.ju+a.ngh+1) a.il a.iu) (fun q => (q.1, bc.face (a.ju+1) q.2.1, q.2.2)) (bc.sgn 2 2) st.b.x2f),
            fill3 (InBox a.kl (a.ku+1) (a.ju+1) (a.ju+a.ngh) a.il a.iu) (fun q => (q.1, bc.hi a.ju q.2.1, q.2.2)) (bc.sgn 2 3) st.b.x3f⟩
      r := fill4 c.ns (InBox a.kl a.ku (a.ju+1) (a.ju+a.ngh) a.il a.iu) (fun q => (q.1, bc.hi a.ju q.2.1, q.2.2)) (fun _ => bc.sgn 2 0) st.r } := by
  cases bc
  · exact absurd rfl hc
  · simp only [dispatch]
    refine congrArg some ?_
    have e0 : ccReflO2 c.nu a (negAt 2) st.w = fill4 c.nu (InBox a.kl a.ku (a.ju+1) (a.ju+a.ngh) a.il a.iu) (fun q => (q.1, BC.reflect.hi a.ju q.2.1, q.2.2)) (BC.reflect.sgn 2) st.w := by
      unfold ccReflO2; nf (fun k j i : Int => (k, j - a.ju, i))
    have e4 : ccReflO2 c.ns a (fun _ x => x) st.r = fill4 c.ns (InBox a.kl a.ku (a.ju+1) (a.ju+a.ngh) a.il a.iu) (fun q => (q.1, BC.reflect.hi a.ju q.2.1, q.2.2)) (fun _ => BC.reflect.sgn 2 0) st.r := by
      unfold ccReflO2; nf (fun k j i : Int => (k, j - a.ju, i))
    rw [e0, e4]
    unfold fcReflO2
    congr 2
    · nf (fun k j i : Int => (k, j - a.ju, i))
    · rw [zeroAt_off (by decide)]
      nf (fun k j i : Int => (k, j - a.ju - 1, i))
    · nf (fun k j i : Int => (k, j - a.ju, i))
  · simp only [dispatch]
    refine congrArg some ?_
    have e0 : ccOutO2 c.nu a st.w = fill4 c.nu (InBox a.kl a.ku (a.ju+1) (a.ju+a.ngh) a.il a.iu) (fun q => (q.1, BC.outflow.hi a.ju q.2.1, q.2.2)) (BC.outflow.sgn 2) st.w := by
      unfold ccOutO2; nf (fun k j i : Int => (k, j - a.ju, i))
    have e4 : ccOutO2 c.ns a st.r = fill4 c.ns (InBox a.kl a.ku (a.ju+1) (a.ju+a.ngh) a.il a.iu) (fun q => (q.1, BC.outflow.hi a.ju q.2.1, q.2.2)) (fun _ => BC.outflow.sgn 2 0) st.r := by
      unfold ccOutO2; nf (fun k j i : Int => (k, j - a.ju, i))
    rw [e0, e4]
    unfold fcOutO2
    congr 2
    · nf (fun k j i : Int => (k, j - a.ju, i))
    · rw [zeroAt_off (by decide)]
      nf (fun k j i : Int => (k, j - a.ju - 1, i))
    · nf (fun k j i : Int => (k, j - a.ju, i))
  · simp only [dispatch]
    refine congrArg some ?_
    have e0 : ccReflO2 c.nu a flipHydro st.w = fill4 c.nu (InBox a.kl a.ku (a.ju+1) (a.ju+a.ngh) a.il a.iu) (fun q => (q.1, BC.wedge.hi a.ju q.2.1, q.2.2)) (BC.wedge.sgn 2) st.w := by
      unfold ccReflO2; nf (fun k j i : Int => (k, j - a.ju, i))
    have e4 : ccReflO2 c.ns a (fun _ x => 1 * x) st.r = fill4 c.ns (InBox a.kl a.ku (a.ju+1) (a.ju+a.ngh) a.il a.iu) (fun q => (q.1, BC.wedge.hi a.ju q.2.1, q.2.2)) (fun _ => BC.wedge.sgn 2 0) st.r := by
      unfold ccReflO2; nf (fun k j i : Int => (k, j - a.ju, i))
    rw [e0, e4]
    unfold fcWedgeO2
    congr 2
    · nf (fun k j i : Int => (k, j - a.ju, i))
    · rw [nest3_zero]
      rw [zeroAt_on rfl]
      refine congrArg _ ?_
      nf (fun k j i : Int => (k, j - a.ju - 1, i))
    · nf (fun k j i : Int => (k, j - a.ju, i))

theorem dispatch_i3 (bc : BC) (hc : bc ≠ .comm) (hw : bc ≠ .wedge) : dispatch c .i3 bc a st = some
    { st with
      w := fill4 c.nu (InBox (a.kl-a.ngh) (a.kl-1) a.jl a.ju a.il a.iu) (fun q => (bc.lo a.kl q.1, q.2.1, q.2.2)) (bc.sgn 3) st.w
      b := ⟨fill3 (InBox (a.kl-a.ngh) (a.kl-1) a.jl a.ju a.il (a.iu+1)) (fun q => (bc.lo a.kl q.1, q.2.1, q.2.2)) (bc.sgn 3 1) st.b.x1f,
            fill3 (InBox (a.kl-a.ngh) (a.kl-1) a.jl (a.ju+1) a.il a.iu) (fun q => (bc.lo a.kl q.1, q.2.1, q.2.2)) (bc.sgn 3 2) st.b.x2f,
            fill3 (InBox (a.kl-a.ngh) (a.kl-1) a.jl a.ju a.il a.iu) (fun q => (bc.face a.kl q.1, q.2.1, q.2.2)) (bc.sgn 3 3) st.b.x3f⟩
      r := fill4 c.ns (InBox (a.kl-a.ngh) (a.kl-1) a.jl a.ju a.il a.iu) (fun q => (bc.lo a.kl q.1, q.2.1, q.2.2)) (fun _ => bc.sgn 3 0) st.r } := by
  cases bc
  · exact absurd rfl hc
  · simp only [dispatch]
    refine congrArg some ?_
    have e0 : ccReflI3 c.nu a (negAt 3) st.w = fill4 c.nu (InBox (a.kl-a.ngh) (a.kl-1) a.jl a.ju a.il a.iu) (fun q => (BC.reflect.lo a.kl q.1, q.2.1, q.2.2)) (BC.reflect.sgn 3) st.w := by
      unfold ccReflI3; nf (fun k j i : Int => (a.kl - k, j, i))
    have e4 : ccReflI3 c.ns a (fun _ x => x) st.r = fill4 c.ns (InBox (a.kl-a.ngh) (a.kl-1) a.jl a.ju a.il a.iu) (fun q => (BC.reflect.lo a.kl q.1, q.2.1, q.2.2)) (fun _ => BC.reflect.sgn 3 0) st.r := by
      unfold ccReflI3; nf (fun k j i : Int => (a.kl - k, j, i))
    rw [e0, e4]
    unfold fcReflI3
    congr 2
    · nf (fun k j i : Int => (a.kl - k, j, i))
    · nf (fun k j i : Int => (a.kl - k, j, i))
    · nf (fun k j i : Int => (a.kl - k, j, i))
  · simp only [dispatch]
    refine congrArg some ?_
    have e0 : ccOutI3 c.nu a st.w = fill4 c.nu (InBox (a.kl-a.ngh) (a.kl-1) a.jl a.ju a.il a.iu) (fun q => (BC.outflow.lo a.kl q.1, q.2.1, q.2.2)) (BC.outflow.sgn 3) st.w := by
      unfold ccOutI3; nf (fun k j i : Int => (a.kl - k, j, i))
    have e4 : ccOutI3 c.ns a st.r = fill4 c.ns (InBox (a.kl-a.ngh) (a.kl-1) a.jl a.ju a.il a.iu) (fun q => (BC.outflow.lo a.kl q.1, q.2.1, q.2.2)) (fun _ => BC.outflow.sgn 3 0) st.r := by
      unfold ccOutI3; nf (fun k j i : Int => (a.kl - k, j, i))
    rw [e0, e4]
    unfold fcOutI3
    congr 2
    · nf (fun k j i : Int => (a.kl - k, j, i))
    · nf (fun k j i : Int => (a.kl - k, j, i))
    · nf (fun k j i : Int => (a.kl - k, j, i))
  · exact absurd rfl hw

theorem dispatch_o3 (bc : BC) (hc : bc ≠ .comm) (hw : bc ≠ .wedge) : dispatch c .o3 bc a st = some
    { st with
      w := fill4 c.nu (InBox (a.ku+1) (a.ku+a.ngh) a.jl a.ju a.il a.iu) (fun q => (bc.hi a.ku q.1, q.2.1, q.2.2)) (bc.sgn 3) st.w
      b := ⟨fill3 (InBox (a.ku+1) (a.ku+a.ngh) a.jl a.ju a.il (a.iu+1)) (fun q => (bc.hi a.ku q.1, q.2.1, q.2.2)) (bc.sgn 3 1) st.b.x1f,
            fill3 (InBox (a.ku+1) (a.ku+a.ngh) a.jl (a.ju+1) a.il a.iu) (fun q => (bc.hi a.ku q.1, q.2.1, q.2.2)) (bc.sgn 3 2) st.b.x2f,
            fill3 (InBox (a.ku+2) (a.ku+a.ngh+1) a.jl a.ju a.il a.iu) (fun q => (bc.face (a.ku+1) q.1, q.2.1, q.2.2)) (bc.sgn 3 3) st.b.x3f⟩
      r := fill4 c.ns (InBox (a.ku+1) (a.ku+a.ngh) a.jl a.ju a.il a.iu) (fun q => (bc.hi a.ku q.1, q.2.1, q.2.2)) (fun _ => bc.sgn 3 0) st.r } := by
  cases bc
  · exact absurd rfl hc
  · simp only [dispatch]
    refine congrArg some ?_
    have e0 : ccReflO3 c.nu a (negAt 3) st.w = fill4 c.nu (InBox (a.ku+1) (a.ku+a.ngh) a.jl a.ju a.il a.iu) (fun q => (BC.reflect.hi a.ku q.1, q.2.1, q.2.2)) (BC.reflect.sgn 3) st.w := by
      unfold ccReflO3; nf (fun k j i : Int => (k - a.ku, j, i))
    have e4 : ccReflO3 c.ns a (fun _ x => x) st.r = fill4 c.ns (InBox (a.ku+1) (a.ku+a.ngh) a.jl a.ju a.il a.iu) (fun q => (BC.reflect.hi a.ku q.1, q.2.1, q.2.2)) (fun _ => BC.reflect.sgn 3 0) st.r := by
      unfold ccReflO3; nf (fun k j i : Int => (k - a.ku, j, i))
    rw [e0, e4]
    unfold fcReflO3
    congr 2
    · nf (fun k j i : Int => (k - a.ku, j, i))
    · nf (fun k j i : Int => (k - a.ku, j, i))
    · nf (fun k j i : Int => (k - a.ku - 1, j, i))
  · simp only [dispatch]
    refine congrArg some ?_
    have e0 : ccOutO3 c.nu a st.w = fill4 c.nu (InBox (a.ku+1) (a.ku+a.ngh) a.jl a.ju a.il a.iu) (fun q => (BC.outflow.hi a.ku q.1, q.2.1, q.2.2)) (BC.outflow.sgn 3) st.w := by
      unfold ccOutO3; nf (fun k j i : Int => (k - a.ku, j, i))
    have e4 : ccOutO3 c.ns a st.r = fill4 c.ns (InBox (a.ku+1) (a.ku+a.ngh) a.jl a.ju a.il a.iu) (fun q => (BC.outflow.hi a.ku q.1, q.2.1, q.2.2)) (fun _ => BC.outflow.sgn 3 0) st.r := by
      unfold ccOutO3; nf (fun k j i : Int => (k - a.ku, j, i))
    rw [e0, e4]
    unfold fcOutO3
    congr 2
    · nf (fun k j i : Int => (k - a.ku, j, i))
    · nf (fun k j i : Int => (k - a.ku, j, i))
    · nf (fun k j i : Int => (k - a.ku - 1, j, i))
  · exact absurd rfl hw

theorem dispatch_comm (s : Side) : dispatch c s .comm a st = some st := by cases s <;> rfl

theorem fill3_comm_aux (T : Int × Int × Int → Prop) [DecidablePred T] (g : Int × Int × Int → Int × Int × Int) (hg : ∀ q, g q = q) (b : A3 K) :
    fill3 T g 1 b = b := by
  funext q; unfold fill3; rw [hg]; split <;> simp

theorem fill4_comm_aux (nu : Int) (T : Int × Int × Int → Prop) [DecidablePred T] (g : Int × Int × Int → Int × Int × Int) (hg : ∀ q, g q = q)
    (b : A4 K) : fill4 nu T g (fun _ => 1) b = b := by
  funext q; unfold fill4; rw [hg]; split <;> simp

/-- `applySide` from `dispatch`. -/
theorem applySide_of (s : Side) (bc : BC) (g : Arg) (s1 : Blk K) (h : dispatch c s bc a st = some s1)
    (hb : s1.bcc = st.bcc) (hu : s1.u = st.u) :
    ∃ st', applySide c s bc a g st = some st' ∧ st'.w = s1.w ∧ st'.b = s1.b ∧ st'.r = s1.r ∧
      (∀ k j i, bc ≠ .comm → InBox g.kl g.ku g.jl g.ju g.il g.iu (k, j, i) → Coherent c st' k j i) ∧
      (∀ n k j i, ¬ (bc ≠ .comm ∧ InBox g.kl g.ku g.jl g.ju g.il g.iu (k, j, i)) →
        st'.bcc (n, k, j, i) = st.bcc (n, k, j, i) ∧ st'.u (n, k, j, i) = st.u (n, k, j, i)) := by
  unfold applySide
  by_cases hc : bc = .comm
  · subst hc
    rw [dispatch_comm] at h
    obtain rfl := Option.some.inj h
    exact ⟨st, if_pos rfl, rfl, rfl, rfl, fun _ _ _ h => absurd rfl h, fun _ _ _ _ _ => ⟨rfl, rfl⟩⟩
  · rw [if_neg hc, h]
    refine ⟨_, rfl, rfl, rfl, rfl, ?_, ?_⟩
    · intro k j i _ hin
      unfold InBox at hin
      constructor
      · intro m hm
        simp only [primToCons, calcBcc, FF.around]
        rw [if_pos ⟨hm, hin⟩]
      · intro n hn
        simp only [primToCons, calcBcc, FF.around]
        rw [if_pos ⟨hn, hin⟩]
    · intro n k j i hin
      unfold InBox at hin
      simp only [primToCons, calcBcc, FF.around]
      rw [if_neg (fun h => hin ⟨hc, h.2⟩), if_neg (fun h => hin ⟨hc, h.2⟩), hb, hu]
      exact ⟨rfl, rfl⟩
end

section
variable {K : Type} [Field K]
theorem fill4_slice (nu : Int) (T : Int × Int × Int → Prop) [DecidablePred T] (g : Int × Int × Int → Int × Int × Int) (v : Int → K) (a : A4 K)
    (n : Int) (hn : 0 ≤ n ∧ n ≤ nu) (q : Int × Int × Int) : fill4 nu T g v a (n, q) = fill3 T g (v n) (fun q => a (n, q)) q := by
  unfold fill4 fill3; simp [hn]
theorem fill4_off (nu : Int) (T : Int × Int × Int → Prop) [DecidablePred T] (g : Int × Int × Int → Int × Int × Int) (v : Int → K) (a : A4 K)
    (n : Int) (hn : ¬ (0 ≤ n ∧ n ≤ nu)) (q : Int × Int × Int) : fill4 nu T g v a (n, q) = a (n, q) := by
  unfold fill4; rw [if_neg (fun h => hn h.1)]

theorem BC.sgn_comm (m n : Int) : (BC.comm.sgn m n : K) = 1 := rfl

theorem pairt1 (l h : BC) (s e g k0 k1 j0 j1 : Int) (vl vh : K) (a : A3 K) (hg : 0 ≤ g) (hs : g ≤ e - s + 1) (k j i : Int) :
    fill3 (InBox k0 k1 j0 j1 (e+1) (e+g)) (fun q => (q.1, q.2.1, h.hi e q.2.2)) vh
      (fill3 (InBox k0 k1 j0 j1 (s-g) (s-1)) (fun q => (q.1, q.2.1, l.lo s q.2.2)) vl a) (k, j, i) =
    if InBox k0 k1 j0 j1 (s-g) (e+g) (k, j, i) then
      (if i < s then vl else if e < i then vh else 1) * a (k, j, cellSrc l h s e i) else a (k, j, i) := by
  unfold fill3 cellSrc
  simp only
  by_cases c1 : i < s
  · have n1 : ¬ InBox k0 k1 j0 j1 (e+1) (e+g) (k, j, i) := by simp only [InBox]; omega
    rw [if_neg n1]
    simp only [c1, if_true]
    refine ite_congr (propext ?_) (fun _ => rfl) (fun _ => rfl)
    simp only [InBox]; omega
  · have n1 : ¬ InBox k0 k1 j0 j1 (s-g) (s-1) (k, j, i) := by simp only [InBox]; omega
    simp only [c1, if_false, n1]
    by_cases c2 : e < i
    · simp only [c2, if_true]
      by_cases hin : InBox k0 k1 j0 j1 (s-g) (e+g) (k, j, i)
      · have n2 : InBox k0 k1 j0 j1 (e+1) (e+g) (k, j, i) := by simp only [InBox] at hin ⊢; omega
        have n3 : ¬ InBox k0 k1 j0 j1 (s-g) (s-1) (k, j, (h.hi e i)) := by
          simp only [InBox] at hin ⊢
          cases h <;> simp only [BC.hi, BC.face] <;> omega
        simp only [n2, n3, hin, if_true, if_false]
      · have n2 : ¬ InBox k0 k1 j0 j1 (e+1) (e+g) (k, j, i) := by simp only [InBox] at hin ⊢; omega
        simp only [n2, hin, if_false]
    · have n2 : ¬ InBox k0 k1 j0 j1 (e+1) (e+g) (k, j, i) := by simp only [InBox]; omega
      simp only [c2, n2, if_false, one_mul, ite_self]

theorem pairn1 (l h : BC) (s e g k0 k1 j0 j1 : Int) (vl vh : K) (a : A3 K) (hg : 0 ≤ g) (hs : g ≤ e - s + 1) (k j i : Int) :
    fill3 (InBox k0 k1 j0 j1 (e+2) (e+g+1)) (fun q => (q.1, q.2.1, h.face (e+1) q.2.2)) vh
      (fill3 (InBox k0 k1 j0 j1 (s-g) (s-1)) (fun q => (q.1, q.2.1, l.face s q.2.2)) vl a) (k, j, i) =
    if InBox k0 k1 j0 j1 (s-g) (e+g+1) (k, j, i) then
      (if i < s then vl else if e + 1 < i then vh else 1) * a (k, j, faceSrc l h s e i) else a (k, j, i) := by
  unfold fill3 faceSrc
  simp only
  by_cases c1 : i < s
  · have n1 : ¬ InBox k0 k1 j0 j1 (e+2) (e+g+1) (k, j, i) := by simp only [InBox]; omega
    rw [if_neg n1]
    simp only [c1, if_true]
    refine ite_congr (propext ?_) (fun _ => rfl) (fun _ => rfl)
    simp only [InBox]; omega
  · have n1 : ¬ InBox k0 k1 j0 j1 (s-g) (s-1) (k, j, i) := by simp only [InBox]; omega
    simp only [c1, if_false, n1]
    by_cases c2 : e + 1 < i
    · simp only [c2, if_true]
      by_cases hin : InBox k0 k1 j0 j1 (s-g) (e+g+1) (k, j, i)
      · have n2 : InBox k0 k1 j0 j1 (e+2) (e+g+1) (k, j, i) := by simp only [InBox] at hin ⊢; omega
        have n3 : ¬ InBox k0 k1 j0 j1 (s-g) (s-1) (k, j, (h.face (e+1) i)) := by
          simp only [InBox] at hin ⊢
          cases h <;> simp only [BC.hi, BC.face] <;> omega
        simp only [n2, n3, hin, if_true, if_false]
      · have n2 : ¬ InBox k0 k1 j0 j1 (e+2) (e+g+1) (k, j, i) := by simp only [InBox] at hin ⊢; omega
        simp only [n2, hin, if_false]
    · have n2 : ¬ InBox k0 k1 j0 j1 (e+2) (e+g+1) (k, j, i) := by simp only [InBox]; omega
      simp only [c2, n2, if_false, one_mul, ite_self]

theorem pairt2 (l h : BC) (s e g k0 k1 i0 i1 : Int) (vl vh : K) (a : A3 K) (hg : 0 ≤ g) (hs : g ≤ e - s + 1) (k j i : Int) :
    fill3 (InBox k0 k1 (e+1) (e+g) i0 i1) (fun q => (q.1, h.hi e q.2.1, q.2.2)) vh
      (fill3 (InBox k0 k1 (s-g) (s-1) i0 i1) (fun q => (q.1, l.lo s q.2.1, q.2.2)) vl a) (k, j, i) =
    if InBox k0 k1 (s-g) (e+g) i0 i1 (k, j, i) then
      (if j < s then vl else if e < j then vh else 1) * a (k, cellSrc l h s e j, i) else a (k, j, i) := by
  unfold fill3 cellSrc
  simp only
  by_cases c1 : j < s
  · have n1 : ¬ InBox k0 k1 (e+1) (e+g) i0 i1 (k, j, i) := by simp only [InBox]; omega
    rw [if_neg n1]
    simp only [c1, if_true]
    refine ite_congr (propext ?_) (fun _ => rfl) (fun _ => rfl)
    simp only [InBox]; omega
  · have n1 : ¬ InBox k0 k1 (s-g) (s-1) i0 i1 (k, j, i) := by simp only [InBox]; omega
    simp only [c1, if_false, n1]
    by_cases c2 : e < j
    · simp only [c2, if_true]
      by_cases hin : InBox k0 k1 (s-g) (e+g) i0 i1 (k, j, i)
      · have n2 : InBox k0 k1 (e+1) (e+g) i0 i1 (k, j, i) := by simp only [InBox] at hin ⊢; omega
        have n3 : ¬ InBox k0 k1 (s-g) (s-1) i0 i1 (k, (h.hi e j), i) := by
          simp only [InBox] at hin ⊢
          cases h <;> simp only [BC.hi, BC.face] <;> omega
        simp only [n2, n3, hin, if_true, if_false]
      · have n2 : ¬ InBox k0 k1 (e+1) (e+g) i0 i1 (k, j, i) := by simp only [InBox] at hin ⊢; omega
        simp only [n2, hin, if_false]
    · have n2 : ¬ InBox k0 k1 (e+1) (e+g) i0 i1 (k, j, i) := by simp only [InBox]; omega
      simp only [c2, n2, if_false, one_mul, ite_self]

theorem pairn2 (l h : BC) (s e g k0 k1 i0 i1 : Int) (vl vh : K) (a : A3 K) (hg : 0 ≤ g) (hs : g ≤ e - s + 1) (k j i : Int) :
    fill3 (InBox k0 k1 (e+2) (e+g+1) i0 i1) (fun q => (q.1, h.face (e+1) q.2.1, q.2.2)) vh
      (fill3 (InBox k0 k1 (s-g) (s-1) i0 i1) (fun q => (q.1, l.face s q.2.1, q.2.2)) vl a) (k, j, i) =
    if InBox k0 k1 (s-g) (e+g+1) i0 i1 (k, j, i) then
      (if j < s then vl else if e + 1 < j then vh else 1) * a (k, faceSrc l h s e j, i) else a (k, j, i) := by
  unfold fill3 faceSrc
  simp only
  by_cases c1 : j < s
  · have n1 : ¬ InBox k0 k1 (e+2) (e+g+1) i0 i1 (k, j, i) := by simp only [InBox]; omega
    rw [if_neg n1]
    simp only [c1, if_true]
    refine ite_congr (propext ?_) (fun _ => rfl) (fun _ => rfl)
    simp only [InBox]; omega
  · have n1 : ¬ InBox k0 k1 (s-g) (s-1) i0 i1 (k, j, i) := by simp only [InBox]; omega
    simp only [c1, if_false, n1]
    by_cases c2 : e + 1 < j
    · simp only [c2, if_true]
      by_cases hin : InBox k0 k1 (s-g) (e+g+1) i0 i1 (k, j, i)
      · have n2 : InBox k0 k1 (e+2) (e+g+1) i0 i1 (k, j, i) := by simp only [InBox] at hin ⊢; omega
        have n3 : ¬ InBox k0 k1 (s-g) (s-1) i0 i1 (k, (h.face (e+1) j), i) := by
          simp only [InBox] at hin ⊢
          cases h <;> simp only [BC.hi, BC.face] <;> omega
        simp only [n2, n3, hin, if_true, if_false]
      · have n2 : ¬ InBox k0 k1 (e+2) (e+g+1) i0 i1 (k, j, i) := by simp only [InBox] at hin ⊢; omega
        simp only [n2, hin, if_false]
    · have n2 : ¬ InBox k0 k1 (e+2) (e+g+1) i0 i1 (k, j, i) := by simp only [InBox]; omega
      simp only [c2, n2, if_false, one_mul, ite_self]

theorem pairt3 (l h : BC) (s e g j0 j1 i0 i1 : Int) (vl vh : K) (a : A3 K) (hg : 0 ≤ g) (hs : g ≤ e - s + 1) (k j i : Int) :
    fill3 (InBox (e+1) (e+g) j0 j1 i0 i1) (fun q => (h.hi e q.1, q.2.1, q.2.2)) vh
      (fill3 (InBox (s-g) (s-1) j0 j1 i0 i1) (fun q => (l.lo s q.1, q.2.1, q.2.2)) vl a) (k, j, i) =
    if InBox (s-g) (e+g) j0 j1 i0 i1 (k, j, i) then
      (if k < s then vl else if e < k then vh else 1) * a (cellSrc l h s e k, j, i) else a (k, j, i) := by
  unfold fill3 cellSrc
  simp only
  by_cases c1 : k < s
  · have n1 : ¬ InBox (e+1) (e+g) j0 j1 i0 i1 (k, j, i) := by simp only [InBox]; omega
    rw [if_neg n1]
    simp only [c1, if_true]
    refine ite_congr (propext ?_) (fun _ => rfl) (fun _ => rfl)
    simp only [InBox]; omega
  · have n1 : ¬ InBox (s-g) (s-1) j0 j1 i0 i1 (k, j, i) := by simp only [InBox]; omega
    simp only [c1, if_false, n1]
    by_cases c2 : e < k
    · simp only [c2, if_true]
      by_cases hin : InBox (s-g) (e+g) j0 j1 i0 i1 (k, j, i)
      · have n2 : InBox (e+1) (e+g) j0 j1 i0 i1 (k, j, i) := by simp only [InBox] at hin ⊢; omega
        have n3 : ¬ InBox (s-g) (s-1) j0 j1 i0 i1 ((h.hi e k), j, i) := by
          simp only [InBox] at hin ⊢
          cases h <;> simp only [BC.hi, BC.face] <;> omega
        simp only [n2, n3, hin, if_true, if_false]
      · have n2 : ¬ InBox (e+1) (e+g) j0 j1 i0 i1 (k, j, i) := by simp only [InBox] at hin ⊢; omega
        simp only [n2, hin, if_false]
    · have n2 : ¬ InBox (e+1) (e+g) j0 j1 i0 i1 (k, j, i) := by simp only [InBox]; omega
      simp only [c2, n2, if_false, one_mul, ite_self]

theorem pairn3 (l h : BC) (s e g j0 j1 i0 i1 : Int) (vl vh : K) (a : A3 K) (hg : 0 ≤ g) (hs : g ≤ e - s + 1) (k j i : Int) :
    fill3 (InBox (e+2) (e+g+1) j0 j1 i0 i1) (fun q => (h.face (e+1) q.1, q.2.1, q.2.2)) vh
      (fill3 (InBox (s-g) (s-1) j0 j1 i0 i1) (fun q => (l.face s q.1, q.2.1, q.2.2)) vl a) (k, j, i) =
    if InBox (s-g) (e+g+1) j0 j1 i0 i1 (k, j, i) then
      (if k < s then vl else if e + 1 < k then vh else 1) * a (faceSrc l h s e k, j, i) else a (k, j, i) := by
  unfold fill3 faceSrc
  simp only
  by_cases c1 : k < s
  · have n1 : ¬ InBox (e+2) (e+g+1) j0 j1 i0 i1 (k, j, i) := by simp only [InBox]; omega
    rw [if_neg n1]
    simp only [c1, if_true]
    refine ite_congr (propext ?_) (fun _ => rfl) (fun _ => rfl)
    simp only [InBox]; omega
  · have n1 : ¬ InBox (s-g) (s-1) j0 j1 i0 i1 (k, j, i) := by simp only [InBox]; omega
    simp only [c1, if_false, n1]
    by_cases c2 : e + 1 < k
    · simp only [c2, if_true]
      by_cases hin : InBox (s-g) (e+g+1) j0 j1 i0 i1 (k, j, i)
      · have n2 : InBox (e+2) (e+g+1) j0 j1 i0 i1 (k, j, i) := by simp only [InBox] at hin ⊢; omega
        have n3 : ¬ InBox (s-g) (s-1) j0 j1 i0 i1 ((h.face (e+1) k), j, i) := by
          simp only [InBox] at hin ⊢
          cases h <;> simp only [BC.hi, BC.face] <;> omega
        simp only [n2, n3, hin, if_true, if_false]
      · have n2 : ¬ InBox (e+2) (e+g+1) j0 j1 i0 i1 (k, j, i) := by simp only [InBox] at hin ⊢; omega
        simp only [n2, hin, if_false]
    · have n2 : ¬ InBox (e+2) (e+g+1) j0 j1 i0 i1 (k, j, i) := by simp only [InBox]; omega
      simp only [c2, n2, if_false, one_mul, ite_self]

theorem pairz2 (l h : BC) (s e g k0 k1 i0 i1 : Int) (vl vh : K) (a : A3 K) (hg : 0 ≤ g) (hs : g ≤ e - s + 1) (hz : l = .wedge → g ≤ e - s) (k j i : Int) :
    zeroAt (h = .wedge) (InBox k0 k1 (e+1) (e+1) i0 i1) (fill3 (InBox k0 k1 (e+2) (e+g+1) i0 i1) (fun q => (q.1, h.face (e+1) q.2.1, q.2.2)) vh
      (zeroAt (l = .wedge) (InBox k0 k1 s s i0 i1) (fill3 (InBox k0 k1 (s-g) (s-1) i0 i1) (fun q => (q.1, l.face s q.2.1, q.2.2)) vl a))) (k, j, i) =
    if InBox k0 k1 (s-g) (e+g+1) i0 i1 (k, j, i) then
      (if l = .wedge ∧ j = s ∨ h = .wedge ∧ j = e + 1 then 0
       else (if j < s then vl else if e + 1 < j then vh else 1) * a (k, faceSrc l h s e j, i)) else a (k, j, i) := by
  have hp := pairn2 l h s e g k0 k1 i0 i1 vl vh a hg hs k j i
  by_cases c : h = .wedge ∧ j = e + 1 ∧ InBox k0 k1 (e+1) (e+1) i0 i1 (k, j, i)
  · obtain ⟨c1, c2, c3⟩ := c
    unfold zeroAt
    rw [if_pos ⟨c1, c3⟩]
    have n : InBox k0 k1 (s-g) (e+g+1) i0 i1 (k, j, i) := by simp only [InBox] at c3 ⊢; omega
    rw [if_pos n, if_pos (Or.inr ⟨c1, c2⟩)]
  · have e1 : ∀ b : A3 K, zeroAt (h = .wedge) (InBox k0 k1 (e+1) (e+1) i0 i1) b (k, j, i) = b (k, j, i) := by
      intro b; unfold zeroAt; rw [if_neg]
      rintro ⟨h1, h2⟩
      have := h2
      simp only [InBox] at this
      exact c ⟨h1, by omega, h2⟩
    rw [e1]
    by_cases c' : l = .wedge ∧ j = s ∧ InBox k0 k1 s s i0 i1 (k, j, i)
    · obtain ⟨c1, c2, c3⟩ := c'
      have : ∀ b : A3 K, fill3 (InBox k0 k1 (e+2) (e+g+1) i0 i1) (fun q => (q.1, h.face (e+1) q.2.1, q.2.2)) vh b (k, j, i) = b (k, j, i) := by
        intro b; unfold fill3; rw [if_neg]; simp only [InBox]; omega
      rw [this]
      unfold zeroAt
      rw [if_pos ⟨c1, c3⟩]
      have n : InBox k0 k1 (s-g) (e+g+1) i0 i1 (k, j, i) := by simp only [InBox] at c3 ⊢; omega
      rw [if_pos n, if_pos (Or.inl ⟨c1, c2⟩)]
    · have e2 : fill3 (InBox k0 k1 (e+2) (e+g+1) i0 i1) (fun q => (q.1, h.face (e+1) q.2.1, q.2.2)) vh
          (zeroAt (l = .wedge) (InBox k0 k1 s s i0 i1) (fill3 (InBox k0 k1 (s-g) (s-1) i0 i1) (fun q => (q.1, l.face s q.2.1, q.2.2)) vl a)) (k, j, i) =
          fill3 (InBox k0 k1 (e+2) (e+g+1) i0 i1) (fun q => (q.1, h.face (e+1) q.2.1, q.2.2)) vh
          (fill3 (InBox k0 k1 (s-g) (s-1) i0 i1) (fun q => (q.1, l.face s q.2.1, q.2.2)) vl a) (k, j, i) := by
        generalize fill3 (InBox k0 k1 (s-g) (s-1) i0 i1) (fun q => (q.1, l.face s q.2.1, q.2.2)) vl a = b
        unfold fill3 zeroAt
        simp only
        by_cases hin : InBox k0 k1 (e+2) (e+g+1) i0 i1 (k, j, i)
        · rw [if_pos hin, if_pos hin]
          congr 1
          rw [if_neg]
          rintro ⟨hw, h2⟩
          have := hz hw
          simp only [InBox] at h2 hin
          cases h <;> simp only [BC.face] at h2 <;> omega
        · rw [if_neg hin, if_neg hin]
          rw [if_neg]
          rintro ⟨hw, h2⟩
          have := h2
          simp only [InBox] at this
          exact c' ⟨hw, by omega, h2⟩
      rw [e2, hp]
      refine ite_congr rfl (fun hin => ?_) (fun _ => rfl)
      have n : ¬ (l = .wedge ∧ j = s ∨ h = .wedge ∧ j = e + 1) := by
        rintro (⟨hw, hj⟩ | ⟨hw, hj⟩)
        · refine c' ⟨hw, hj, ?_⟩
          simp only [InBox] at hin ⊢; omega
        · refine c ⟨hw, hj, ?_⟩
          simp only [InBox] at hin ⊢; omega
      rw [if_neg n]

theorem fill3_off (T : Int × Int × Int → Prop) [DecidablePred T] (g : Int × Int × Int → Int × Int × Int) (v : K) (a : A3 K)
    (q : Int × Int × Int) (h : ¬ T q) : fill3 T g v a q = a q := if_neg h
theorem zeroAt_miss (on : Prop) [Decidable on] (T : Int × Int × Int → Prop) [DecidablePred T] (a : A3 K)
    (q : Int × Int × Int) (h : ¬ T q) : zeroAt on T a q = a q := if_neg (fun x => h x.2)

theorem Coherent.transport {c : Conv K} {st st' : Blk K} {k j i : Int} (h : Coherent c st k j i)
    (hw : ∀ n, st'.w (n, k, j, i) = st.w (n, k, j, i)) (hb : st'.b.around k j i = st.b.around k j i)
    (hbu : ∀ n, st'.bcc (n, k, j, i) = st.bcc (n, k, j, i) ∧ st'.u (n, k, j, i) = st.u (n, k, j, i)) : Coherent c st' k j i := by
  constructor
  · intro m hm
    rw [(hbu m).1, hb]; exact h.1 m hm
  · intro n hn
    rw [(hbu n).2, h.2 n hn]
    simp only [hw, fun n => (hbu n).1]

/-- The arrays after the function of side i1. -/
structure Di1 (c : Conv K) (bc : BC) (a : Arg) (st s1 : Blk K) : Prop where
  w : s1.w = fill4 c.nu (InBox a.kl a.ku a.jl a.ju (a.il-a.ngh) (a.il-1)) (fun q => (q.1, q.2.1, bc.lo a.il q.2.2)) (bc.sgn 1) st.w
  x1 : s1.b.x1f = fill3 (InBox a.kl a.ku a.jl a.ju (a.il-a.ngh) (a.il-1)) (fun q => (q.1, q.2.1, bc.face a.il q.2.2)) (bc.sgn 1 1) st.b.x1f
  x2 : s1.b.x2f = fill3 (InBox a.kl a.ku a.jl (a.ju+1) (a.il-a.ngh) (a.il-1)) (fun q => (q.1, q.2.1, bc.lo a.il q.2.2)) (bc.sgn 1 2) st.b.x2f
  x3 : s1.b.x3f = fill3 (InBox a.kl (a.ku+1) a.jl a.ju (a.il-a.ngh) (a.il-1)) (fun q => (q.1, q.2.1, bc.lo a.il q.2.2)) (bc.sgn 1 3) st.b.x3f
  r : s1.r = fill4 c.ns (InBox a.kl a.ku a.jl a.ju (a.il-a.ngh) (a.il-1)) (fun q => (q.1, q.2.1, bc.lo a.il q.2.2)) (fun _ => bc.sgn 1 0) st.r

theorem Di1.comm (c : Conv K) (a : Arg) (st : Blk K) : Di1 c .comm a st st := by
  constructor
  · exact (fill4_comm_aux _ _ _ (fun _ => rfl) _).symm
  · exact (fill3_comm_aux _ _ (fun _ => rfl) _).symm
  · exact (fill3_comm_aux _ _ (fun _ => rfl) _).symm
  · exact (fill3_comm_aux _ _ (fun _ => rfl) _).symm
  · exact (fill4_comm_aux _ _ _ (fun _ => rfl) _).symm

/-- The arrays after the function of side o1. -/
structure Do1 (c : Conv K) (bc : BC) (a : Arg) (st s1 : Blk K) : Prop where
  w : s1.w = fill4 c.nu (InBox a.kl a.ku a.jl a.ju (a.iu+1) (a.iu+a.ngh)) (fun q => (q.1, q.2.1, bc.hi a.iu q.2.2)) (bc.sgn 1) st.w
  x1 : s1.b.x1f = fill3 (InBox a.kl a.ku a.jl a.ju (a.iu+2) (a.iu+a.ngh+1)) (fun q => (q.1, q.2.1, bc.face (a.iu+1) q.2.2)) (bc.sgn 1 1) st.b.x1f
  x2 : s1.b.x2f = fill3 (InBox a.kl a.ku a.jl (a.ju+1) (a.iu+1) (a.iu+a.ngh)) (fun q => (q.1, q.2.1, bc.hi a.iu q.2.2)) (bc.sgn 1 2) st.b.x2f
  x3 : s1.b.x3f = fill3 (InBox a.kl (a.ku+1) a.jl a.ju (a.iu+1) (a.iu+a.ngh)) (fun q => (q.1, q.2.1, bc.hi a.iu q.2.2)) (bc.sgn 1 3) st.b.x3f
  r : s1.r = fill4 c.ns (InBox a.kl a.ku a.jl a.ju (a.iu+1) (a.iu+a.ngh)) (fun q => (q.1, q.2.1, bc.hi a.iu q.2.2)) (fun _ => bc.sgn 1 0) st.r

theorem Do1.comm (c : Conv K) (a : Arg) (st : Blk K) : Do1 c .comm a st st := by
  constructor
  · exact (fill4_comm_aux _ _ _ (fun _ => rfl) _).symm
  · exact (fill3_comm_aux _ _ (fun _ => rfl) _).symm
  · exact (fill3_comm_aux _ _ (fun _ => rfl) _).symm
  · exact (fill3_comm_aux _ _ (fun _ => rfl) _).symm
  · exact (fill4_comm_aux _ _ _ (fun _ => rfl) _).symm

/-- The arrays after the function of side i2. -/
structure Di2 (c : Conv K) (bc : BC) (a : Arg) (st s1 : Blk K) : Prop where
  w : s1.w = fill4 c.nu (InBox a.kl a.ku (a.jl-a.ngh) (a.jl-1) a.il a.iu) (fun q => (q.1, bc.lo a.jl q.2.1, q.2.2)) (bc.sgn 2) st.w
  x1 : s1.b.x1f = fill3 (InBox a.kl a.ku (a.jl-a.ngh) (a.jl-1) a.il (a.iu+1)) (fun q => (q.1, bc.lo a.jl q.2.1, q.2.2)) (bc.sgn 2 1) st.b.x1f
  x2 : s1.b.x2f = zeroAt (bc = .wedge) (InBox a.kl a.ku a.jl a.jl a.il a.iu) (fill3 (InBox a.kl a.ku (a.jl-a.ngh) (a.jl-1) a.il a.iu) (fun q => (q.1, bc.face a.jl q.2.1, q.2.2)) (bc.sgn 2 2) st.b.x2f)
  x3 : s1.b.x3f = fill3 (InBox a.kl (a.ku+1) (a.jl-a.ngh) (a.jl-1) a.il a.iu) (fun q => (q.1, bc.lo a.jl q.2.1, q.2.2)) (bc.sgn 2 3) st.b.x3f
  r : s1.r = fill4 c.ns (InBox a.kl a.ku (a.jl-a.ngh) (a.jl-1) a.il a.iu) (fun q => (q.1, bc.lo a.jl q.2.1, q.2.2)) (fun _ => bc.sgn 2 0) st.r

theorem Di2.comm (c : Conv K) (a : Arg) (st : Blk K) : Di2 c .comm a st st := by
  constructor
  · exact (fill4_comm_aux _ _ _ (fun _ => rfl) _).symm
  · exact (fill3_comm_aux _ _ (fun _ => rfl) _).symm
  · rw [zeroAt_off (by decide)]; exact (fill3_comm_aux _ _ (fun _ => rfl) _).symm
  · exact (fill3_comm_aux _ _ (fun _ => rfl) _).symm
  · exact (fill4_comm_aux _ _ _ (fun _ => rfl) _).symm

/-- The arrays after the function of side o2. -/
structure Do2 (c : Conv K) (bc : BC) (a : Arg) (st s1 : Blk K) : Prop where
  w : s1.w = fill4 c.nu (InBox a.kl a.ku (a.ju+1) (a.ju+a.ngh) a.il a.iu) (fun q => (q.1, bc.hi a.ju q.2.1, q.2.2)) (bc.sgn 2) st.w
  x1 : s1.b.x1f = fill3 (InBox a.kl a.ku (a.ju+1) (a.ju+a.ngh) a.il (a.iu+1)) (fun q => (q.1, bc.hi a.ju q.2.1, q.2.2)) (bc.sgn 2 1) st.b.x1f
  x2 : s1.b.x2f = zeroAt (bc = .wedge) (InBox a.kl a.ku (a.ju+1) (a.ju+1) a.il a.iu) (fill3 (InBox a.kl a.ku (a.ju+2) (a.ju+a.ngh+1) a.il a.iu) (fun q => (q.1, bc.face (a.ju+1) q.2.1, q.2.2)) (bc.sgn 2 2) st.b.x2f)
  x3 : s1.b.x3f = fill3 (InBox a.kl (a.ku+1) (a.ju+1) (a.ju+a.ngh) a.il a.iu) (fun q => (q.1, bc.hi a.ju q.2.1, q.2.2)) (bc.sgn 2 3) st.b.x3f
  r : s1.r = fill4 c.ns (InBox a.kl a.ku (a.ju+1) (a.ju+a.ngh) a.il a.iu) (fun q => (q.1, bc.hi a.ju q.2.1, q.2.2)) (fun _ => bc.sgn 2 0) st.r

theorem Do2.comm (c : Conv K) (a : Arg) (st : Blk K) : Do2 c .comm a st st := by
  constructor
  · exact (fill4_comm_aux _ _ _ (fun _ => rfl) _).symm
  · exact (fill3_comm_aux _ _ (fun _ => rfl) _).symm
  · rw [zeroAt_off (by decide)]; exact (fill3_comm_aux _ _ (fun _ => rfl) _).symm
  · exact (fill3_comm_aux _ _ (fun _ => rfl) _).symm
  · exact (fill4_comm_aux _ _ _ (fun _ => rfl) _).symm

/-- The arrays after the function of side i3. -/
structure Di3 (c : Conv K) (bc : BC) (a : Arg) (st s1 : Blk K) : Prop where
  w : s1.w = fill4 c.nu (InBox (a.kl-a.ngh) (a.kl-1) a.jl a.ju a.il a.iu) (fun q => (bc.lo a.kl q.1, q.2.1, q.2.2)) (bc.sgn 3) st.w
  x1 : s1.b.x1f = fill3 (InBox (a.kl-a.ngh) (a.kl-1) a.jl a.ju a.il (a.iu+1)) (fun q => (bc.lo a.kl q.1, q.2.1, q.2.2)) (bc.sgn 3 1) st.b.x1f
  x2 : s1.b.x2f = fill3 (InBox (a.kl-a.ngh) (a.kl-1) a.jl (a.ju+1) a.il a.iu) (fun q => (bc.lo a.kl q.1, q.2.1, q.2.2)) (bc.sgn 3 2) st.b.x2f
  x3 : s1.b.x3f = fill3 (InBox (a.kl-a.ngh) (a.kl-1) a.jl a.ju a.il a.iu) (fun q => (bc.face a.kl q.1, q.2.1, q.2.2)) (bc.sgn 3 3) st.b.x3f
  r : s1.r = fill4 c.ns (InBox (a.kl-a.ngh) (a.kl-1) a.jl a.ju a.il a.iu) (fun q => (bc.lo a.kl q.1, q.2.1, q.2.2)) (fun _ => bc.sgn 3 0) st.r

theorem Di3.comm (c : Conv K) (a : Arg) (st : Blk K) : Di3 c .comm a st st := by
  constructor
  · exact (fill4_comm_aux _ _ _ (fun _ => rfl) _).symm
  · exact (fill3_comm_aux _ _ (fun _ => rfl) _).symm
  · exact (fill3_comm_aux _ _ (fun _ => rfl) _).symm
  · exact (fill3_comm_aux _ _ (fun _ => rfl) _).symm
  · exact (fill4_comm_aux _ _ _ (fun _ => rfl) _).symm

/-- The arrays after the function of side o3. -/
structure Do3 (c : Conv K) (bc : BC) (a : Arg) (st s1 : Blk K) : Prop where
  w : s1.w = fill4 c.nu (InBox (a.ku+1) (a.ku+a.ngh) a.jl a.ju a.il a.iu) (fun q => (bc.hi a.ku q.1, q.2.1, q.2.2)) (bc.sgn 3) st.w
  x1 : s1.b.x1f = fill3 (InBox (a.ku+1) (a.ku+a.ngh) a.jl a.ju a.il (a.iu+1)) (fun q => (bc.hi a.ku q.1, q.2.1, q.2.2)) (bc.sgn 3 1) st.b.x1f
  x2 : s1.b.x2f = fill3 (InBox (a.ku+1) (a.ku+a.ngh) a.jl (a.ju+1) a.il a.iu) (fun q => (bc.hi a.ku q.1, q.2.1, q.2.2)) (bc.sgn 3 2) st.b.x2f
  x3 : s1.b.x3f = fill3 (InBox (a.ku+2) (a.ku+a.ngh+1) a.jl a.ju a.il a.iu) (fun q => (bc.face (a.ku+1) q.1, q.2.1, q.2.2)) (bc.sgn 3 3) st.b.x3f
  r : s1.r = fill4 c.ns (InBox (a.ku+1) (a.ku+a.ngh) a.jl a.ju a.il a.iu) (fun q => (bc.hi a.ku q.1, q.2.1, q.2.2)) (fun _ => bc.sgn 3 0) st.r

theorem Do3.comm (c : Conv K) (a : Arg) (st : Blk K) : Do3 c .comm a st st := by
  constructor
  · exact (fill4_comm_aux _ _ _ (fun _ => rfl) _).symm
  · exact (fill3_comm_aux _ _ (fun _ => rfl) _).symm
  · exact (fill3_comm_aux _ _ (fun _ => rfl) _).symm
  · exact (fill3_comm_aux _ _ (fun _ => rfl) _).symm
  · exact (fill4_comm_aux _ _ _ (fun _ => rfl) _).symm

/-- What the pass over the two x1 sides does. -/
structure Pass1 (c : Conv K) (l h : BC) (a : Arg) (st st' : Blk K) : Prop where
  w : ∀ n k j i, st'.w (n, k, j, i) = if (0 ≤ n ∧ n ≤ c.nu) ∧ InBox a.kl a.ku a.jl a.ju (a.il-a.ngh) (a.iu+a.ngh) (k, j, i) then
    srcSgn l h 1 a.il a.iu n i * st.w (n, (k, j, cellSrc l h a.il a.iu i)) else st.w (n, k, j, i)
  r : ∀ n k j i, st'.r (n, k, j, i) = if (0 ≤ n ∧ n ≤ c.ns) ∧ InBox a.kl a.ku a.jl a.ju (a.il-a.ngh) (a.iu+a.ngh) (k, j, i) then
    srcSgn l h 1 a.il a.iu 0 i * st.r (n, (k, j, cellSrc l h a.il a.iu i)) else st.r (n, k, j, i)
  x1 : ∀ k j i, st'.b.x1f (k, j, i) = if InBox a.kl a.ku a.jl a.ju (a.il-a.ngh) (a.iu+a.ngh+1) (k, j, i) then (srcSgn l h 1 a.il (a.iu+1) 1 i * st.b.x1f (k, j, faceSrc l h a.il a.iu i)) else st.b.x1f (k, j, i)
  x2 : ∀ k j i, st'.b.x2f (k, j, i) = if InBox a.kl a.ku a.jl (a.ju+1) (a.il-a.ngh) (a.iu+a.ngh) (k, j, i) then (srcSgn l h 1 a.il a.iu 2 i * st.b.x2f (k, j, cellSrc l h a.il a.iu i)) else st.b.x2f (k, j, i)
  x3 : ∀ k j i, st'.b.x3f (k, j, i) = if InBox a.kl (a.ku+1) a.jl a.ju (a.il-a.ngh) (a.iu+a.ngh) (k, j, i) then (srcSgn l h 1 a.il a.iu 3 i * st.b.x3f (k, j, cellSrc l h a.il a.iu i)) else st.b.x3f (k, j, i)
  coh : ∀ k j i, InBox a.kl a.ku a.jl a.ju (a.il-a.ngh) (a.iu+a.ngh) (k, j, i) → Phys l h a.il a.iu i → Coherent c st' k j i
  out : ∀ n k j i, ¬ (InBox a.kl a.ku a.jl a.ju (a.il-a.ngh) (a.iu+a.ngh) (k, j, i) ∧ Phys l h a.il a.iu i) →
    st'.bcc (n, k, j, i) = st.bcc (n, k, j, i) ∧ st'.u (n, k, j, i) = st.u (n, k, j, i)

set_option linter.unusedSimpArgs false in
theorem pass1 (c : Conv K) (l h : BC) (a : Arg) (st : Blk K) (hg : 0 ≤ a.ngh) (hs : a.ngh ≤ a.iu - a.il + 1) (hp : a.il ≤ a.iu) (wl : l ≠ .wedge) (wh : h ≠ .wedge) :
    ∃ st', ((applySide c .i1 l a ⟨a.il-a.ngh, a.il-1, a.jl, a.ju, a.kl, a.ku, a.ngh⟩ st).bind fun st => applySide c .o1 h a ⟨a.iu+1, a.iu+a.ngh, a.jl, a.ju, a.kl, a.ku, a.ngh⟩ st) = some st' ∧ Pass1 c l h a st st' := by
  have d1 : ∃ s1 : Blk K, dispatch c .i1 l a st = some s1 ∧ s1.bcc = st.bcc ∧ s1.u = st.u ∧ Di1 c l a st s1 := by
    by_cases hc : l = .comm
    · subst hc
      exact ⟨st, dispatch_comm c a st _, rfl, rfl, Di1.comm c a st⟩
    · exact ⟨_, dispatch_i1 c a st l hc wl, rfl, rfl, ⟨rfl, rfl, rfl, rfl, rfl⟩⟩
  obtain ⟨s1, e1, f1, u1, D1⟩ := d1
  obtain ⟨st1, a1, w1, b1, r1, c1, o1⟩ := applySide_of c a st .i1 l ⟨a.il-a.ngh, a.il-1, a.jl, a.ju, a.kl, a.ku, a.ngh⟩ s1 e1 f1 u1
  have d2 : ∃ s1 : Blk K, dispatch c .o1 h a st1 = some s1 ∧ s1.bcc = st1.bcc ∧ s1.u = st1.u ∧ Do1 c h a st1 s1 := by
    by_cases hc : h = .comm
    · subst hc
      exact ⟨st1, dispatch_comm c a st1 _, rfl, rfl, Do1.comm c a st1⟩
    · exact ⟨_, dispatch_o1 c a st1 h hc wh, rfl, rfl, ⟨rfl, rfl, rfl, rfl, rfl⟩⟩
  obtain ⟨s2, e2, f2, u2, D2⟩ := d2
  obtain ⟨st2, a2, w2, b2, r2, c2, o2⟩ := applySide_of c a st1 .o1 h ⟨a.iu+1, a.iu+a.ngh, a.jl, a.ju, a.kl, a.ku, a.ngh⟩ s2 e2 f2 u2
  refine ⟨st2, by rw [a1]; exact a2, ?_⟩
  constructor
  · intro n k j i
    rw [w2, D2.w, w1, D1.w]
    by_cases hn : 0 ≤ n ∧ n ≤ c.nu
    · rw [fill4_slice _ _ _ _ _ _ hn]
      simp only [fill4_slice _ _ _ _ _ _ hn]
      rw [pairt1 l h a.il a.iu a.ngh _ _ _ _ _ _ _ hg hs]
      simp only [hn, and_self, true_and, srcSgn]
    · rw [fill4_off _ _ _ _ _ _ hn, fill4_off _ _ _ _ _ _ hn, if_neg (fun h => hn h.1)]
  · intro n k j i
    rw [r2, D2.r, r1, D1.r]
    by_cases hn : 0 ≤ n ∧ n ≤ c.ns
    · rw [fill4_slice _ _ _ _ _ _ hn]
      simp only [fill4_slice _ _ _ _ _ _ hn]
      rw [pairt1 l h a.il a.iu a.ngh _ _ _ _ _ _ _ hg hs]
      simp only [hn, and_self, true_and, srcSgn]
    · rw [fill4_off _ _ _ _ _ _ hn, fill4_off _ _ _ _ _ _ hn, if_neg (fun h => hn h.1)]
  · intro k j i
    rw [b2, D2.x1, b1, D1.x1, pairn1 l h a.il a.iu a.ngh _ _ _ _ _ _ _ hg hs]
    rfl
  · intro k j i
    rw [b2, D2.x2, b1, D1.x2, pairt1 l h a.il a.iu a.ngh _ _ _ _ _ _ _ hg hs]
    rfl
  · intro k j i
    rw [b2, D2.x3, b1, D1.x3, pairt1 l h a.il a.iu a.ngh _ _ _ _ _ _ _ hg hs]
    rfl
  · rintro k j i hin (⟨hi, hc⟩ | ⟨hi, hc⟩)
    · refine (c1 k j i hc ?_).transport ?_ ?_ ?_
      · simp only [InBox] at hin ⊢; omega
      · intro n
        rw [w2, D2.w]
        unfold fill4
        have : ¬ InBox a.kl a.ku a.jl a.ju (a.iu+1) (a.iu+a.ngh) (k, j, i) := by
          simp only [InBox]; omega
        simp only [this, and_false, if_false]
      · refine Prod.ext (Prod.ext ?_ ?_) (Prod.ext (Prod.ext ?_ ?_) (Prod.ext ?_ ?_))
        · show st2.b.x1f _ = _
          rw [b2, D2.x1]; exact fill3_off _ _ _ _ _ (by simp only [InBox]; omega)
        · show st2.b.x1f _ = _
          rw [b2, D2.x1]; exact fill3_off _ _ _ _ _ (by simp only [InBox]; omega)
        · show st2.b.x2f _ = _
          rw [b2, D2.x2]; exact fill3_off _ _ _ _ _ (by simp only [InBox]; omega)
        · show st2.b.x2f _ = _
          rw [b2, D2.x2]; exact fill3_off _ _ _ _ _ (by simp only [InBox]; omega)
        · show st2.b.x3f _ = _
          rw [b2, D2.x3]; exact fill3_off _ _ _ _ _ (by simp only [InBox]; omega)
        · show st2.b.x3f _ = _
          rw [b2, D2.x3]; exact fill3_off _ _ _ _ _ (by simp only [InBox]; omega)
      · intro n
        refine o2 n k j i (fun hh => ?_)
        have := hh.2
        simp only [InBox] at this
        omega
    · refine c2 k j i hc ?_
      simp only [InBox] at hin ⊢; omega
  · intro n k j i hno
    have x2 : ¬ (h ≠ .comm ∧ InBox a.kl a.ku a.jl a.ju (a.iu+1) (a.iu+a.ngh) (k, j, i)) := by
      rintro ⟨hc, hin⟩
      refine hno ⟨?_, Or.inr ⟨?_, hc⟩⟩ <;> simp only [InBox] at hin ⊢ <;> omega
    have x1 : ¬ (l ≠ .comm ∧ InBox a.kl a.ku a.jl a.ju (a.il-a.ngh) (a.il-1) (k, j, i)) := by
      rintro ⟨hc, hin⟩
      refine hno ⟨?_, Or.inl ⟨?_, hc⟩⟩ <;> simp only [InBox] at hin ⊢ <;> omega
    have y2 := o2 n k j i x2
    have y1 := o1 n k j i x1
    exact ⟨y2.1.trans y1.1, y2.2.trans y1.2⟩

/-- What the pass over the two x2 sides does. -/
structure Pass2 (c : Conv K) (l h : BC) (a : Arg) (st st' : Blk K) : Prop where
  w : ∀ n k j i, st'.w (n, k, j, i) = if (0 ≤ n ∧ n ≤ c.nu) ∧ InBox a.kl a.ku (a.jl-a.ngh) (a.ju+a.ngh) a.il a.iu (k, j, i) then
    srcSgn l h 2 a.jl a.ju n j * st.w (n, (k, cellSrc l h a.jl a.ju j, i)) else st.w (n, k, j, i)
  r : ∀ n k j i, st'.r (n, k, j, i) = if (0 ≤ n ∧ n ≤ c.ns) ∧ InBox a.kl a.ku (a.jl-a.ngh) (a.ju+a.ngh) a.il a.iu (k, j, i) then
    srcSgn l h 2 a.jl a.ju 0 j * st.r (n, (k, cellSrc l h a.jl a.ju j, i)) else st.r (n, k, j, i)
  x1 : ∀ k j i, st'.b.x1f (k, j, i) = if InBox a.kl a.ku (a.jl-a.ngh) (a.ju+a.ngh) a.il (a.iu+1) (k, j, i) then (srcSgn l h 2 a.jl a.ju 1 j * st.b.x1f (k, cellSrc l h a.jl a.ju j, i)) else st.b.x1f (k, j, i)
  x2 : ∀ k j i, st'.b.x2f (k, j, i) = if InBox a.kl a.ku (a.jl-a.ngh) (a.ju+a.ngh+1) a.il a.iu (k, j, i) then (if l = .wedge ∧ j = a.jl ∨ h = .wedge ∧ j = a.ju + 1 then 0 else srcSgn l h 2 a.jl (a.ju+1) 2 j * st.b.x2f (k, faceSrc l h a.jl a.ju j, i)) else st.b.x2f (k, j, i)
  x3 : ∀ k j i, st'.b.x3f (k, j, i) = if InBox a.kl (a.ku+1) (a.jl-a.ngh) (a.ju+a.ngh) a.il a.iu (k, j, i) then (srcSgn l h 2 a.jl a.ju 3 j * st.b.x3f (k, cellSrc l h a.jl a.ju j, i)) else st.b.x3f (k, j, i)
  coh : ∀ k j i, InBox a.kl a.ku (a.jl-a.ngh) (a.ju+a.ngh) a.il a.iu (k, j, i) → Phys l h a.jl a.ju j → Coherent c st' k j i
  out : ∀ n k j i, ¬ (InBox a.kl a.ku (a.jl-a.ngh) (a.ju+a.ngh) a.il a.iu (k, j, i) ∧ Phys l h a.jl a.ju j) →
    st'.bcc (n, k, j, i) = st.bcc (n, k, j, i) ∧ st'.u (n, k, j, i) = st.u (n, k, j, i)

set_option linter.unusedSimpArgs false in
theorem pass2 (c : Conv K) (l h : BC) (a : Arg) (st : Blk K) (hg : 0 ≤ a.ngh) (hs : a.ngh ≤ a.ju - a.jl + 1) (hp : a.jl ≤ a.ju) (hz : l = .wedge → a.ngh ≤ a.ju - a.jl) :
    ∃ st', ((applySide c .i2 l a ⟨a.il, a.iu, a.jl-a.ngh, a.jl-1, a.kl, a.ku, a.ngh⟩ st).bind fun st => applySide c .o2 h a ⟨a.il, a.iu, a.ju+1, a.ju+a.ngh, a.kl, a.ku, a.ngh⟩ st) = some st' ∧ Pass2 c l h a st st' := by
  have d1 : ∃ s1 : Blk K, dispatch c .i2 l a st = some s1 ∧ s1.bcc = st.bcc ∧ s1.u = st.u ∧ Di2 c l a st s1 := by
    by_cases hc : l = .comm
    · subst hc
      exact ⟨st, dispatch_comm c a st _, rfl, rfl, Di2.comm c a st⟩
    · exact ⟨_, dispatch_i2 c a st l hc, rfl, rfl, ⟨rfl, rfl, rfl, rfl, rfl⟩⟩
  obtain ⟨s1, e1, f1, u1, D1⟩ := d1
  obtain ⟨st1, a1, w1, b1, r1, c1, o1⟩ := applySide_of c a st .i2 l ⟨a.il, a.iu, a.jl-a.ngh, a.jl-1, a.kl, a.ku, a.ngh⟩ s1 e1 f1 u1
  have d2 : ∃ s1 : Blk K, dispatch c .o2 h a st1 = some s1 ∧ s1.bcc = st1.bcc ∧ s1.u = st1.u ∧ Do2 c h a st1 s1 := by
    by_cases hc : h = .comm
    · subst hc
      exact ⟨st1, dispatch_comm c a st1 _, rfl, rfl, Do2.comm c a st1⟩
    · exact ⟨_, dispatch_o2 c a st1 h hc, rfl, rfl, ⟨rfl, rfl, rfl, rfl, rfl⟩⟩
  obtain ⟨s2, e2, f2, u2, D2⟩ := d2
  obtain ⟨st2, a2, w2, b2, r2, c2, o2⟩ := applySide_of c a st1 .o2 h ⟨a.il, a.iu, a.ju+1, a.ju+a.ngh, a.kl, a.ku, a.ngh⟩ s2 e2 f2 u2
  refine ⟨st2, by rw [a1]; exact a2, ?_⟩
  constructor
  · intro n k j i
    rw [w2, D2.w, w1, D1.w]
    by_cases hn : 0 ≤ n ∧ n ≤ c.nu
    · rw [fill4_slice _ _ _ _ _ _ hn]
      simp only [fill4_slice _ _ _ _ _ _ hn]
      rw [pairt2 l h a.jl a.ju a.ngh _ _ _ _ _ _ _ hg hs]
      simp only [hn, and_self, true_and, srcSgn]
    · rw [fill4_off _ _ _ _ _ _ hn, fill4_off _ _ _ _ _ _ hn, if_neg (fun h => hn h.1)]
  · intro n k j i
    rw [r2, D2.r, r1, D1.r]
    by_cases hn : 0 ≤ n ∧ n ≤ c.ns
    · rw [fill4_slice _ _ _ _ _ _ hn]
      simp only [fill4_slice _ _ _ _ _ _ hn]
      rw [pairt2 l h a.jl a.ju a.ngh _ _ _ _ _ _ _ hg hs]
      simp only [hn, and_self, true_and, srcSgn]
    · rw [fill4_off _ _ _ _ _ _ hn, fill4_off _ _ _ _ _ _ hn, if_neg (fun h => hn h.1)]
  · intro k j i
    rw [b2, D2.x1, b1, D1.x1, pairt2 l h a.jl a.ju a.ngh _ _ _ _ _ _ _ hg hs]
    rfl
  · intro k j i
    rw [b2, D2.x2, b1, D1.x2, pairz2 l h a.jl a.ju a.ngh _ _ _ _ _ _ _ hg hs hz]
    rfl
  · intro k j i
    rw [b2, D2.x3, b1, D1.x3, pairt2 l h a.jl a.ju a.ngh _ _ _ _ _ _ _ hg hs]
    rfl
  · rintro k j i hin (⟨hi, hc⟩ | ⟨hi, hc⟩)
    · refine (c1 k j i hc ?_).transport ?_ ?_ ?_
      · simp only [InBox] at hin ⊢; omega
      · intro n
        rw [w2, D2.w]
        unfold fill4
        have : ¬ InBox a.kl a.ku (a.ju+1) (a.ju+a.ngh) a.il a.iu (k, j, i) := by
          simp only [InBox]; omega
        simp only [this, and_false, if_false]
      · refine Prod.ext (Prod.ext ?_ ?_) (Prod.ext (Prod.ext ?_ ?_) (Prod.ext ?_ ?_))
        · show st2.b.x1f _ = _
          rw [b2, D2.x1]; exact fill3_off _ _ _ _ _ (by simp only [InBox]; omega)
        · show st2.b.x1f _ = _
          rw [b2, D2.x1]; exact fill3_off _ _ _ _ _ (by simp only [InBox]; omega)
        · show st2.b.x2f _ = _
          rw [b2, D2.x2]; rw [zeroAt_miss _ _ _ _ (by simp only [InBox]; omega)]; exact fill3_off _ _ _ _ _ (by simp only [InBox]; omega)
        · show st2.b.x2f _ = _
          rw [b2, D2.x2]; rw [zeroAt_miss _ _ _ _ (by simp only [InBox]; omega)]; exact fill3_off _ _ _ _ _ (by simp only [InBox]; omega)
        · show st2.b.x3f _ = _
          rw [b2, D2.x3]; exact fill3_off _ _ _ _ _ (by simp only [InBox]; omega)
        · show st2.b.x3f _ = _
          rw [b2, D2.x3]; exact fill3_off _ _ _ _ _ (by simp only [InBox]; omega)
      · intro n
        refine o2 n k j i (fun hh => ?_)
        have := hh.2
        simp only [InBox] at this
        omega
    · refine c2 k j i hc ?_
      simp only [InBox] at hin ⊢; omega
  · intro n k j i hno
    have x2 : ¬ (h ≠ .comm ∧ InBox a.kl a.ku (a.ju+1) (a.ju+a.ngh) a.il a.iu (k, j, i)) := by
      rintro ⟨hc, hin⟩
      refine hno ⟨?_, Or.inr ⟨?_, hc⟩⟩ <;> simp only [InBox] at hin ⊢ <;> omega
    have x1 : ¬ (l ≠ .comm ∧ InBox a.kl a.ku (a.jl-a.ngh) (a.jl-1) a.il a.iu (k, j, i)) := by
      rintro ⟨hc, hin⟩
      refine hno ⟨?_, Or.inl ⟨?_, hc⟩⟩ <;> simp only [InBox] at hin ⊢ <;> omega
    have y2 := o2 n k j i x2
    have y1 := o1 n k j i x1
    exact ⟨y2.1.trans y1.1, y2.2.trans y1.2⟩

/-- What the pass over the two x3 sides does. -/
structure Pass3 (c : Conv K) (l h : BC) (a : Arg) (st st' : Blk K) : Prop where
  w : ∀ n k j i, st'.w (n, k, j, i) = if (0 ≤ n ∧ n ≤ c.nu) ∧ InBox (a.kl-a.ngh) (a.ku+a.ngh) a.jl a.ju a.il a.iu (k, j, i) then
    srcSgn l h 3 a.kl a.ku n k * st.w (n, (cellSrc l h a.kl a.ku k, j, i)) else st.w (n, k, j, i)
  r : ∀ n k j i, st'.r (n, k, j, i) = if (0 ≤ n ∧ n ≤ c.ns) ∧ InBox (a.kl-a.ngh) (a.ku+a.ngh) a.jl a.ju a.il a.iu (k, j, i) then
    srcSgn l h 3 a.kl a.ku 0 k * st.r (n, (cellSrc l h a.kl a.ku k, j, i)) else st.r (n, k, j, i)
  x1 : ∀ k j i, st'.b.x1f (k, j, i) = if InBox (a.kl-a.ngh) (a.ku+a.ngh) a.jl a.ju a.il (a.iu+1) (k, j, i) then (srcSgn l h 3 a.kl a.ku 1 k * st.b.x1f (cellSrc l h a.kl a.ku k, j, i)) else st.b.x1f (k, j, i)
  x2 : ∀ k j i, st'.b.x2f (k, j, i) = if InBox (a.kl-a.ngh) (a.ku+a.ngh) a.jl (a.ju+1) a.il a.iu (k, j, i) then (srcSgn l h 3 a.kl a.ku 2 k * st.b.x2f (cellSrc l h a.kl a.ku k, j, i)) else st.b.x2f (k, j, i)
  x3 : ∀ k j i, st'.b.x3f (k, j, i) = if InBox (a.kl-a.ngh) (a.ku+a.ngh+1) a.jl a.ju a.il a.iu (k, j, i) then (srcSgn l h 3 a.kl (a.ku+1) 3 k * st.b.x3f (faceSrc l h a.kl a.ku k, j, i)) else st.b.x3f (k, j, i)
  coh : ∀ k j i, InBox (a.kl-a.ngh) (a.ku+a.ngh) a.jl a.ju a.il a.iu (k, j, i) → Phys l h a.kl a.ku k → Coherent c st' k j i
  out : ∀ n k j i, ¬ (InBox (a.kl-a.ngh) (a.ku+a.ngh) a.jl a.ju a.il a.iu (k, j, i) ∧ Phys l h a.kl a.ku k) →
    st'.bcc (n, k, j, i) = st.bcc (n, k, j, i) ∧ st'.u (n, k, j, i) = st.u (n, k, j, i)

set_option linter.unusedSimpArgs false in
theorem pass3 (c : Conv K) (l h : BC) (a : Arg) (st : Blk K) (hg : 0 ≤ a.ngh) (hs : a.ngh ≤ a.ku - a.kl + 1) (hp : a.kl ≤ a.ku) (wl : l ≠ .wedge) (wh : h ≠ .wedge) :
    ∃ st', ((applySide c .i3 l a ⟨a.il, a.iu, a.jl, a.ju, a.kl-a.ngh, a.kl-1, a.ngh⟩ st).bind fun st => applySide c .o3 h a ⟨a.il, a.iu, a.jl, a.ju, a.ku+1, a.ku+a.ngh, a.ngh⟩ st) = some st' ∧ Pass3 c l h a st st' := by
  have d1 : ∃ s1 : Blk K, dispatch c .i3 l a st = some s1 ∧ s1.bcc = st.bcc ∧ s1.u = st.u ∧ Di3 c l a st s1 := by
    by_cases hc : l = .comm
    · subst hc
      exact ⟨st, dispatch_comm c a st _, rfl, rfl, Di3.comm c a st⟩
    · exact ⟨_, dispatch_i3 c a st l hc wl, rfl, rfl, ⟨rfl, rfl, rfl, rfl, rfl⟩⟩
  obtain ⟨s1, e1, f1, u1, D1⟩ := d1
  obtain ⟨st1, a1, w1, b1, r1, c1, o1⟩ := applySide_of c a st .i3 l ⟨a.il, a.iu, a.jl, a.ju, a.kl-a.ngh, a.kl-1, a.ngh⟩ s1 e1 f1 u1
  have d2 : ∃ s1 : Blk K, dispatch c .o3 h a st1 = some s1 ∧ s1.bcc = st1.bcc ∧ s1.u = st1.u ∧ Do3 c h a st1 s1 := by
    by_cases hc : h = .comm
    · subst hc
      exact ⟨st1, dispatch_comm c a st1 _, rfl, rfl, Do3.comm c a st1⟩
    · exact ⟨_, dispatch_o3 c a st1 h hc wh, rfl, rfl, ⟨rfl, rfl, rfl, rfl, rfl⟩⟩
  obtain ⟨s2, e2, f2, u2, D2⟩ := d2
  obtain ⟨st2, a2, w2, b2, r2, c2, o2⟩ := applySide_of c a st1 .o3 h ⟨a.il, a.iu, a.jl, a.ju, a.ku+1, a.ku+a.ngh, a.ngh⟩ s2 e2 f2 u2
  refine ⟨st2, by rw [a1]; exact a2, ?_⟩
  constructor
  · intro n k j i
    rw [w2, D2.w, w1, D1.w]
    by_cases hn : 0 ≤ n ∧ n ≤ c.nu
    · rw [fill4_slice _ _ _ _ _ _ hn]
      simp only [fill4_slice _ _ _ _ _ _ hn]
      rw [pairt3 l h a.kl a.ku a.ngh _ _ _ _ _ _ _ hg hs]
      simp only [hn, and_self, true_and, srcSgn]
    · rw [fill4_off _ _ _ _ _ _ hn, fill4_off _ _ _ _ _ _ hn, if_neg (fun h => hn h.1)]
  · intro n k j i
    rw [r2, D2.r, r1, D1.r]
    by_cases hn : 0 ≤ n ∧ n ≤ c.ns
    · rw [fill4_slice _ _ _ _ _ _ hn]
      simp only [fill4_slice _ _ _ _ _ _ hn]
      rw [pairt3 l h a.kl a.ku a.ngh _ _ _ _ _ _ _ hg hs]
      simp only [hn, and_self, true_and, srcSgn]
    · rw [fill4_off _ _ _ _ _ _ hn, fill4_off _ _ _ _ _ _ hn, if_neg (fun h => hn h.1)]
  · intro k j i
    rw [b2, D2.x1, b1, D1.x1, pairt3 l h a.kl a.ku a.ngh _ _ _ _ _ _ _ hg hs]
    rfl
  · intro k j i
    rw [b2, D2.x2, b1, D1.x2, pairt3 l h a.kl a.ku a.ngh _ _ _ _ _ _ _ hg hs]
    rfl
  · intro k j i
    rw [b2, D2.x3, b1, D1.x3, pairn3 l h a.kl a.ku a.ngh _ _ _ _ _ _ _ hg hs]
    rfl
  · rintro k j i hin (⟨hi, hc⟩ | ⟨hi, hc⟩)
    · refine (c1 k j i hc ?_).transport ?_ ?_ ?_
      · simp only [InBox] at hin ⊢; omega
      · intro n
        rw [w2, D2.w]
        unfold fill4
        have : ¬ InBox (a.ku+1) (a.ku+a.ngh) a.jl a.ju a.il a.iu (k, j, i) := by
          simp only [InBox]; omega
        simp only [this, and_false, if_false]
      · refine Prod.ext (Prod.ext ?_ ?_) (Prod.ext (Prod.ext ?_ ?_) (Prod.ext ?_ ?_))
        · show st2.b.x1f _ = _
          rw [b2, D2.x1]; exact fill3_off _ _ _ _ _ (by simp only [InBox]; omega)
        · show st2.b.x1f _ = _
          rw [b2, D2.x1]; exact fill3_off _ _ _ _ _ (by simp only [InBox]; omega)
        · show st2.b.x2f _ = _
          rw [b2, D2.x2]; exact fill3_off _ _ _ _ _ (by simp only [InBox]; omega)
        · show st2.b.x2f _ = _
          rw [b2, D2.x2]; exact fill3_off _ _ _ _ _ (by simp only [InBox]; omega)
        · show st2.b.x3f _ = _
          rw [b2, D2.x3]; exact fill3_off _ _ _ _ _ (by simp only [InBox]; omega)
        · show st2.b.x3f _ = _
          rw [b2, D2.x3]; exact fill3_off _ _ _ _ _ (by simp only [InBox]; omega)
      · intro n
        refine o2 n k j i (fun hh => ?_)
        have := hh.2
        simp only [InBox] at this
        omega
    · refine c2 k j i hc ?_
      simp only [InBox] at hin ⊢; omega
  · intro n k j i hno
    have x2 : ¬ (h ≠ .comm ∧ InBox (a.ku+1) (a.ku+a.ngh) a.jl a.ju a.il a.iu (k, j, i)) := by
      rintro ⟨hc, hin⟩
      refine hno ⟨?_, Or.inr ⟨?_, hc⟩⟩ <;> simp only [InBox] at hin ⊢ <;> omega
    have x1 : ¬ (l ≠ .comm ∧ InBox (a.kl-a.ngh) (a.kl-1) a.jl a.ju a.il a.iu (k, j, i)) := by
      rintro ⟨hc, hin⟩
      refine hno ⟨?_, Or.inl ⟨?_, hc⟩⟩ <;> simp only [InBox] at hin ⊢ <;> omega
    have y2 := o2 n k j i x2
    have y1 := o1 n k j i x1
    exact ⟨y2.1.trans y1.1, y2.2.trans y1.2⟩

theorem Pass2.idle (c : Conv K) (a : Arg) (st : Blk K) : Pass2 c .comm .comm a st st := by
  constructor
  all_goals intro n k j
  all_goals try intro i
  all_goals simp [srcSgn, cellSrc, faceSrc, BC.lo, BC.hi, BC.face, BC.sgn, Phys]

theorem Pass3.idle (c : Conv K) (a : Arg) (st : Blk K) : Pass3 c .comm .comm a st st := by
  constructor
  all_goals intro n k j
  all_goals try intro i
  all_goals simp [srcSgn, cellSrc, faceSrc, BC.lo, BC.hi, BC.face, BC.sgn, Phys]

theorem cellSrc_range (l h : BC) (s e g x : Int) (hs : g ≤ e - s + 1) (hp : s ≤ e) (h1 : s - g ≤ x) (h2 : x ≤ e + g) :
    (if l = .comm then s - g else s) ≤ cellSrc l h s e x ∧ cellSrc l h s e x ≤ (if h = .comm then e + g else e) := by
  unfold cellSrc
  cases l <;> cases h <;> simp [BC.lo, BC.hi] <;> (repeat' split) <;> omega

theorem faceSrc_range (l h : BC) (s e g x : Int) (hs : g ≤ e - s + 1) (hp : s ≤ e) (h1 : s - g ≤ x) (h2 : x ≤ e + g + 1) :
    (if l = .comm then s - g else s) ≤ faceSrc l h s e x ∧ faceSrc l h s e x ≤ (if h = .comm then e + g else e) + 1 := by
  unfold faceSrc
  cases l <;> cases h <;> simp [BC.face] <;> (repeat' split) <;> omega

theorem srcSgn_zero {l h : BC} (m : Int) (hm : (0 : Int) ≠ m) {s e x : Int} : (srcSgn l h m s e 0 x : K) = 1 := by
  unfold srcSgn
  cases l <;> cases h <;> simp [BC.sgn, hm]

/-- The transverse ranges of the code. -/
def Dims.bjs (d : Dims) (bc : Side → BC) : Int := if eff d bc .i2 = .comm then d.js - d.g2 else d.js
def Dims.bje (d : Dims) (bc : Side → BC) : Int := if eff d bc .o2 = .comm then d.je + d.g2 else d.je
def Dims.bks (d : Dims) (bc : Side → BC) : Int := if eff d bc .i3 = .comm then d.ks - d.g3 else d.ks
def Dims.bke (d : Dims) (bc : Side → BC) : Int := if eff d bc .o3 = .comm then d.ke + d.g3 else d.ke

structure Sizes (d : Dims) : Prop where
  p1 : d.is ≤ d.ie
  p2 : d.js ≤ d.je
  p3 : d.ks ≤ d.ke
  s1 : d.ng ≤ d.ie - d.is + 1
  s2 : d.g2 ≤ d.je - d.js + 1
  s3 : d.g3 ≤ d.ke - d.ks + 1
  n1 : 0 ≤ d.ng
  n2 : 0 ≤ d.g2
  n3 : 0 ≤ d.g3

theorem Fits.sizes {d : Dims} {bc : Side → BC} (f : Fits d bc) : Sizes d := by
  obtain ⟨⟨x1, x2, x3, _⟩, ng, f1, f2, f3, _⟩ := f
  constructor <;> (try simp only [Dims.is, Dims.ie, Dims.js, Dims.je, Dims.ks, Dims.ke, Dims.g2, Dims.g3]) <;> (repeat' split) <;> omega

theorem passes (c : Conv K) (d : Dims) (bc : Side → BC) (st : Blk K) (f : Fits d bc) :
    ∃ st1 st2 st', applyPhysicalBoundaries c d bc st = some st' ∧
      Pass1 c (eff d bc .i1) (eff d bc .o1) ⟨d.is, d.ie, d.bjs bc, d.bje bc, d.bks bc, d.bke bc, d.ng⟩ st st1 ∧
      Pass2 c (eff d bc .i2) (eff d bc .o2) ⟨d.is-d.ng, d.ie+d.ng, d.js, d.je, d.bks bc, d.bke bc, d.g2⟩ st1 st2 ∧
      Pass3 c (eff d bc .i3) (eff d bc .o3) ⟨d.is-d.ng, d.ie+d.ng, d.js-d.g2, d.je+d.g2, d.ks, d.ke, d.g3⟩ st2 st' := by
  have z := f.sizes
  have hjs : (if bc .i2 = .comm ∧ d.nx2 > 1 then d.js - d.ng else d.js) = d.bjs bc := by
    unfold Dims.bjs eff Dims.g2; by_cases h : d.nx2 > 1 <;> simp [h]
  have hje : (if bc .o2 = .comm ∧ d.nx2 > 1 then d.je + d.ng else d.je) = d.bje bc := by
    unfold Dims.bje eff Dims.g2; by_cases h : d.nx2 > 1 <;> simp [h]
  have hks : (if bc .i3 = .comm ∧ d.nx3 > 1 then d.ks - d.ng else d.ks) = d.bks bc := by
    unfold Dims.bks eff Dims.g3; by_cases h : d.nx3 > 1 <;> simp [h]
  have hke : (if bc .o3 = .comm ∧ d.nx3 > 1 then d.ke + d.ng else d.ke) = d.bke bc := by
    unfold Dims.bke eff Dims.g3; by_cases h : d.nx3 > 1 <;> simp [h]
  unfold applyPhysicalBoundaries
  simp only [hjs, hje, hks, hke]
  obtain ⟨st1, a1, P1⟩ := pass1 c (bc .i1) (bc .o1) ⟨d.is, d.ie, d.bjs bc, d.bje bc, d.bks bc, d.bke bc, d.ng⟩ st z.n1 z.s1 z.p1 f.w1.1 f.w1.2
  have a1' : ∀ F : Blk K → Option (Blk K), ((applySide c .i1 (bc .i1) ⟨d.is, d.ie, d.bjs bc, d.bje bc, d.bks bc, d.bke bc, d.ng⟩
      ⟨d.is-d.ng, d.is-1, d.bjs bc, d.bje bc, d.bks bc, d.bke bc, d.ng⟩ st).bind fun st =>
      (applySide c .o1 (bc .o1) ⟨d.is, d.ie, d.bjs bc, d.bje bc, d.bks bc, d.bke bc, d.ng⟩
      ⟨d.ie+1, d.ie+d.ng, d.bjs bc, d.bje bc, d.bks bc, d.bke bc, d.ng⟩ st).bind F) = F st1 := by
    intro F
    rw [← Option.bind_assoc, a1]; rfl
  rw [a1']
  have h2 : ∃ st2, (if d.nx2 > 1 then
      (applySide c .i2 (bc .i2) ⟨d.is-d.ng, d.ie+d.ng, d.js, d.je, d.bks bc, d.bke bc, d.ng⟩
        ⟨d.is-d.ng, d.ie+d.ng, d.js-d.ng, d.js-1, d.bks bc, d.bke bc, d.ng⟩ st1).bind fun st =>
      applySide c .o2 (bc .o2) ⟨d.is-d.ng, d.ie+d.ng, d.js, d.je, d.bks bc, d.bke bc, d.ng⟩
        ⟨d.is-d.ng, d.ie+d.ng, d.je+1, d.je+d.ng, d.bks bc, d.bke bc, d.ng⟩ st
      else some st1) = some st2 ∧
      Pass2 c (eff d bc .i2) (eff d bc .o2) ⟨d.is-d.ng, d.ie+d.ng, d.js, d.je, d.bks bc, d.bke bc, d.g2⟩ st1 st2 := by
    by_cases h : d.nx2 > 1
    · have g : d.g2 = d.ng := if_pos h
      have e1 : eff d bc .i2 = bc .i2 := if_pos h
      have e2 : eff d bc .o2 = bc .o2 := if_pos h
      have sz := z.s2
      rw [g] at sz
      rw [if_pos h, e1, e2, g]
      refine pass2 c (bc .i2) (bc .o2) ⟨d.is-d.ng, d.ie+d.ng, d.js, d.je, d.bks bc, d.bke bc, d.ng⟩ st1 z.n1 sz z.p2 (fun hw => ?_)
      have := f.z h (Or.inl hw)
      simp only [Dims.js, Dims.je, if_pos h]; omega
    · have e1 : eff d bc .i2 = .comm := if_neg h
      have e2 : eff d bc .o2 = .comm := if_neg h
      rw [if_neg h, e1, e2]
      exact ⟨st1, rfl, Pass2.idle c _ st1⟩
  obtain ⟨st2, a2, P2⟩ := h2
  rw [a2]
  have h3 : ∃ st3, (if d.nx3 > 1 then
      (applySide c .i3 (bc .i3) ⟨d.is-d.ng, d.ie+d.ng, d.js-d.ng, d.je+d.ng, d.ks, d.ke, d.ng⟩
        ⟨d.is-d.ng, d.ie+d.ng, d.js-d.ng, d.je+d.ng, d.ks-d.ng, d.ks-1, d.ng⟩ st2).bind fun st =>
      applySide c .o3 (bc .o3) ⟨d.is-d.ng, d.ie+d.ng, d.js-d.ng, d.je+d.ng, d.ks, d.ke, d.ng⟩
        ⟨d.is-d.ng, d.ie+d.ng, d.js-d.ng, d.je+d.ng, d.ke+1, d.ke+d.ng, d.ng⟩ st
      else some st2) = some st3 ∧
      Pass3 c (eff d bc .i3) (eff d bc .o3) ⟨d.is-d.ng, d.ie+d.ng, d.js-d.g2, d.je+d.g2, d.ks, d.ke, d.g3⟩ st2 st3 := by
    by_cases h : d.nx3 > 1
    · have g : d.g3 = d.ng := if_pos h
      have g2 : d.g2 = d.ng := if_pos (f.ok.ord h)
      have e1 : eff d bc .i3 = bc .i3 := if_pos h
      have e2 : eff d bc .o3 = bc .o3 := if_pos h
      have sz := z.s3
      rw [g] at sz
      rw [if_pos h, e1, e2, g, g2]
      exact pass3 c (bc .i3) (bc .o3) ⟨d.is-d.ng, d.ie+d.ng, d.js-d.ng, d.je+d.ng, d.ks, d.ke, d.ng⟩ st2 z.n1 sz z.p3 (f.w3 h).1 (f.w3 h).2
    · have e1 : eff d bc .i3 = .comm := if_neg h
      have e2 : eff d bc .o3 = .comm := if_neg h
      rw [if_neg h, e1, e2]
      exact ⟨st2, rfl, Pass3.idle c _ st2⟩
  obtain ⟨st3, a3, P3⟩ := h3
  exact ⟨st1, st2, st3, a3, P1, P2, P3⟩

theorem cellSrc_id {l h : BC} {s e x : Int} (hp : ¬ Phys l h s e x) : cellSrc l h s e x = x := by
  unfold Phys at hp; unfold cellSrc
  cases l <;> cases h <;> simp_all [BC.lo, BC.hi] <;> (repeat' split) <;> omega

theorem srcSgn_id {l h : BC} {m s e n x : Int} (hp : ¬ Phys l h s e x) : (srcSgn l h m s e n x : K) = 1 := by
  unfold Phys at hp
  have h1 : x < s → l = .comm := fun hx => by by_contra hc; exact hp (Or.inl ⟨hx, hc⟩)
  have h2 : e < x → h = .comm := fun hx => by by_contra hc; exact hp (Or.inr ⟨hx, hc⟩)
  unfold srcSgn
  split
  · rw [h1 ‹_›]; rfl
  · split
    · rw [h2 ‹_›]; rfl
    · rfl

theorem Phys.face {l h : BC} {s e x : Int} (hp : ¬ Phys l h s e x) : ¬ Phys l h s (e+1) x ∧ ¬ Phys l h s (e+1) (x+1) := by
  unfold Phys at *
  constructor <;> rintro (⟨h1, h2⟩ | ⟨h1, h2⟩)
  · exact hp (Or.inl ⟨h1, h2⟩)
  · exact hp (Or.inr ⟨by omega, h2⟩)
  · exact hp (Or.inl ⟨by omega, h2⟩)
  · exact hp (Or.inr ⟨by omega, h2⟩)

theorem faceSrc_id {l h : BC} {s e x : Int} (hp : ¬ Phys l h s (e+1) x) : faceSrc l h s e x = x := by
  unfold Phys at hp; unfold faceSrc
  cases l <;> cases h <;> simp_all [BC.face] <;> (repeat' split) <;> omega

theorem cellSrc_nphys {l h : BC} {s e g x : Int} (hs : g ≤ e - s + 1) (hp : s ≤ e) (h1 : s - g ≤ x) (h2 : x ≤ e + g) :
    ¬ Phys l h s e (cellSrc l h s e x) := by
  have := cellSrc_range l h s e g x hs hp h1 h2
  rintro (⟨a, b⟩ | ⟨a, b⟩)
  · rw [if_neg b] at this; omega
  · rw [if_neg b] at this; omega

theorem faceSrc_nphys {l h : BC} {s e g x : Int} (hs : g ≤ e - s + 1) (hp : s ≤ e) (h1 : s - g ≤ x) (h2 : x ≤ e + g + 1) :
    ¬ Phys l h s (e+1) (faceSrc l h s e x) := by
  have := faceSrc_range l h s e g x hs hp h1 h2
  rintro (⟨a, b⟩ | ⟨a, b⟩)
  · rw [if_neg b] at this; omega
  · rw [if_neg b] at this; omega

theorem cellSrc_in {l h : BC} {s e g x : Int} (hg : 0 ≤ g) (hs : g ≤ e - s + 1) (hp : s ≤ e) (h1 : s - g ≤ x) (h2 : x ≤ e + g) :
    s - g ≤ cellSrc l h s e x ∧ cellSrc l h s e x ≤ e + g := by
  have := cellSrc_range l h s e g x hs hp h1 h2
  repeat' split at this
  all_goals omega

theorem faceSrc_in {l h : BC} {s e g x : Int} (hg : 0 ≤ g) (hs : g ≤ e - s + 1) (hp : s ≤ e) (h1 : s - g ≤ x) (h2 : x ≤ e + g + 1) :
    s - g ≤ faceSrc l h s e x ∧ faceSrc l h s e x ≤ e + g + 1 := by
  have := faceSrc_range l h s e g x hs hp h1 h2
  repeat' split at this
  all_goals omega

theorem Dims.b_range {d : Dims} {bc : Side → BC} (z : Sizes d) :
    (d.js - d.g2 ≤ d.bjs bc ∧ d.bje bc ≤ d.je + d.g2) ∧ (d.ks - d.g3 ≤ d.bks bc ∧ d.bke bc ≤ d.ke + d.g3) := by
  have := z.n2; have := z.n3
  unfold Dims.bjs Dims.bje Dims.bks Dims.bke
  refine ⟨⟨?_, ?_⟩, ?_, ?_⟩ <;> split <;> omega

theorem Dims.k_in {d : Dims} {bc : Side → BC} {k : Int} (h1 : d.ks - d.g3 ≤ k) (h2 : k ≤ d.ke + d.g3)
    (hp : ¬ Phys (eff d bc .i3) (eff d bc .o3) d.ks d.ke k) : d.bks bc ≤ k ∧ k ≤ d.bke bc := by
  unfold Phys at hp
  unfold Dims.bks Dims.bke
  constructor
  · split
    · omega
    · by_contra hc; exact hp (Or.inl ⟨by omega, ‹_›⟩)
  · split
    · omega
    · by_contra hc; exact hp (Or.inr ⟨by omega, ‹_›⟩)

theorem Dims.j_in {d : Dims} {bc : Side → BC} {j : Int} (h1 : d.js - d.g2 ≤ j) (h2 : j ≤ d.je + d.g2)
    (hp : ¬ Phys (eff d bc .i2) (eff d bc .o2) d.js d.je j) : d.bjs bc ≤ j ∧ j ≤ d.bje bc := by
  unfold Phys at hp
  unfold Dims.bjs Dims.bje
  constructor
  · split
    · omega
    · by_contra hc; exact hp (Or.inl ⟨by omega, ‹_›⟩)
  · split
    · omega
    · by_contra hc; exact hp (Or.inr ⟨by omega, ‹_›⟩)

/-- The x3 pass leaves a cell alone that is not beyond an x3 boundary. -/
theorem Pass3.keep {c : Conv K} {l h : BC} {a : Arg} {st st' : Blk K} (P : Pass3 c l h a st st') {k j i : Int}
    (hp : ¬ Phys l h a.kl a.ku k) (hc : Coherent c st k j i) : Coherent c st' k j i := by
  obtain ⟨p1, p2⟩ := Phys.face hp
  refine hc.transport ?_ ?_ ?_
  · intro n; rw [P.w, cellSrc_id hp, srcSgn_id hp, one_mul, ite_self]
  · unfold FF.around
    simp only [P.x1, P.x2, P.x3, cellSrc_id hp, srcSgn_id hp, faceSrc_id p1, faceSrc_id p2, srcSgn_id p1, srcSgn_id p2, one_mul, ite_self]
  · intro n; exact P.out n k j i (fun x => hp x.2)

/-- The x2 pass leaves a cell alone that is not beyond an x2 boundary, if the field on the pole is zero. -/
theorem Pass2.keep {c : Conv K} {l h : BC} {a : Arg} {st st' : Blk K} (P : Pass2 c l h a st st') {k j i : Int}
    (hp : ¬ Phys l h a.jl a.ju j) (hz : ∀ j', l = .wedge ∧ j' = a.jl ∨ h = .wedge ∧ j' = a.ju + 1 → st.b.x2f (k, j', i) = 0)
    (hc : Coherent c st k j i) : Coherent c st' k j i := by
  obtain ⟨p1, p2⟩ := Phys.face hp
  refine hc.transport ?_ ?_ ?_
  · intro n; rw [P.w, cellSrc_id hp, srcSgn_id hp, one_mul, ite_self]
  · have q1 : st'.b.x2f (k, j, i) = st.b.x2f (k, j, i) := by
      rw [P.x2, faceSrc_id p1, srcSgn_id p1, one_mul]
      split
      · split
        · exact (hz j ‹_›).symm
        · rfl
      · rfl
    have q2 : st'.b.x2f (k, j+1, i) = st.b.x2f (k, j+1, i) := by
      rw [P.x2, faceSrc_id p2, srcSgn_id p2, one_mul]
      split
      · split
        · exact (hz (j+1) ‹_›).symm
        · rfl
      · rfl
    unfold FF.around
    rw [q1, q2]
    simp only [P.x1, P.x3, cellSrc_id hp, srcSgn_id hp, one_mul, ite_self]
  · intro n; exact P.out n k j i (fun x => hp x.2)

theorem OnPole.src {d : Dims} {bc : Side → BC} (f : Fits d bc) {j : Int} (h1 : d.js - d.g2 ≤ j) (h2 : j ≤ d.je + d.g2 + 1)
    (hp : ¬ OnPole d bc j) : ¬ OnPole d bc (faceSrc (eff d bc .i2) (eff d bc .o2) d.js d.je j) := by
  have z := f.sizes
  have zp := z.p2
  unfold OnPole at hp ⊢
  have hz : eff d bc .i2 = .wedge ∨ eff d bc .o2 = .wedge → d.g2 ≤ d.je - d.js := by
    intro hw
    by_cases h : d.nx2 > 1
    · have := f.z h (by simpa only [eff, if_pos h] using hw)
      simp only [Dims.js, Dims.je, Dims.g2, if_pos h]; omega
    · simp only [eff, if_neg h] at hw; simp at hw
  rintro (⟨hw, e⟩ | ⟨hw, e⟩)
  · have := hz (Or.inl hw)
    unfold faceSrc at e
    rw [hw] at e
    generalize eff d bc .o2 = b at *
    refine hp (Or.inl ⟨hw, ?_⟩)
    cases b <;> simp only [BC.face] at e <;> (repeat' split at e) <;> omega
  · have := hz (Or.inr hw)
    unfold faceSrc at e
    rw [hw] at e
    generalize eff d bc .i2 = b at *
    refine hp (Or.inr ⟨hw, ?_⟩)
    cases b <;> simp only [BC.face] at e <;> (repeat' split at e) <;> omega

end

end Verif.Grid
