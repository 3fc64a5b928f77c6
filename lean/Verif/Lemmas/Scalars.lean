import Verif.Spec.Scalars
import Verif.Lemmas.Refine
import Verif.Lemmas.Flux
import Verif.Props.Reconstruct

/-!
# Helper lemmas for passive scalars
-/
namespace Verif.Scalars
open Verif.Grid Verif.Recon
open Verif.Arr (loop Mem Arr store rng)

/-- Induction along a loop. -/
theorem loop_run {σ : Type} (Inv : Int → σ → Prop) (s e : Int) (B : Int → σ → σ) (hse : s ≤ e + 1)
    (step : ∀ i, s ≤ i → i ≤ e → ∀ st, Inv i st → Inv (i + 1) (B i st)) (st : σ) (h0 : Inv s st) :
    Inv (e + 1) (loop s e B st) := by
  obtain ⟨n, hn⟩ : ∃ n : Nat, e + 1 = s + n := ⟨(e + 1 - s).toNat, by omega⟩
  have he : e = s + n - 1 := by omega
  subst he
  rw [loop_eq]
  have hr : rng s (s + n - 1) = (List.range n).map (fun t : Nat => s + (t : Int)) := by
    unfold rng
    have : (s + (n : Int) - 1 + 1 - s).toNat = n := by omega
    rw [this]
  rw [hr, List.foldl_map]
  have : ∀ t : Nat, t ≤ n → Inv (s + t) ((List.range t).foldl (fun st (i : Nat) => B (s + i) st) st) := by
    intro t
    induction t with
    | zero => intro _; simpa using h0
    | succ t ih =>
      intro ht
      rw [List.range_succ, List.foldl_append]
      have := step (s + t) (by omega) (by omega) _ (ih (by omega))
      simpa [add_assoc] using this
  have := this n le_rfl
  rwa [show s + (n : Int) - 1 + 1 = s + n by omega]

variable {K : Type} [Field K] [LinearOrder K]

/-- The values a reconstruction gives at the two faces of a cell. -/
def cellVal (dir : Nat) (R : Rec K) (i : Int) (s : Sten K) : K × K :=
  match R with
  | .donor => (s.c, s.c)
  | .plm mm flat m _ =>
    let sl := (if dir = 1 then slopeX1 else if dir = 2 then slopeX2 else slopeX3) mm flat m i (s.c - s.m1) (s.p1 - s.c)
    (s.c - ((m.xv i - m.xf i) / m.dxf i) * sl, s.c + ((m.xf (i + 1) - m.xv i) / m.dxf i) * sl)
  | .ppm ext uniform curv w => ppmCell ext uniform (curv && (dir != 3)) w i s

/-- Stencil along a line. -/
def sten (q : Int → K) (i : Int) : Sten K := ⟨q (i - 2), q (i - 1), q i, q (i + 1), q (i + 2)⟩

theorem recX1_val {R : Rec K} {ns : Nat} {il iu : Int} {s : Scratch K} {q rl rr : Row K} {n i : Int}
    (hR : ∀ mm flat m nwave, R = .plm mm flat m nwave → mm = true → n < nwave)
    (hn : 0 ≤ n ∧ n < ns) (hi : il ≤ i ∧ i ≤ iu) :
    (recX1 R ns il iu s q rl rr).1 n (i + 1) = (cellVal 1 R i (sten (q n) i)).2 ∧
      (recX1 R ns il iu s q rl rr).2 n i = (cellVal 1 R i (sten (q n) i)).1 := by
  have hn' : 0 ≤ n ∧ n ≤ (ns : Int) - 1 := ⟨hn.1, by omega⟩
  cases R with
  | donor => exact donor_x1 _ _ _ _ _ _ hn' hi
  | plm mm flat m nwave =>
    have := plmX1_val (flat := flat) (m := m) (q := q) (dql0 := s.1) (dqr0 := s.2.1) (dqm0 := s.2.2) (ql0 := rl)
      (qr0 := rr) hn' hi (hR mm flat m nwave rfl)
    exact this
  | ppm ext uniform curv w =>
    have := ppmX1_val (ext := ext) (uniform := uniform) (curv := curv) (w := w) (q := q) (ql0 := rl) (qr0 := rr) hn' hi
    simpa [recX1, cellVal, sten] using this

theorem recT_val {third : Bool} {R : Rec K} {ns : Nat} {il iu c : Int} {q : Int → Row K} {rl rr : Row K} {n i : Int}
    (hn : 0 ≤ n ∧ n < ns) (hi : il ≤ i ∧ i ≤ iu) :
    (recT third R ns il iu c q rl rr).1 n i = (cellVal (if third then 3 else 2) R c (sten (fun c => q c n i) c)).2 ∧
      (recT third R ns il iu c q rl rr).2 n i = (cellVal (if third then 3 else 2) R c (sten (fun c => q c n i) c)).1 := by
  have hn' : 0 ≤ n ∧ n ≤ (ns : Int) - 1 := ⟨hn.1, by omega⟩
  have h3 : 0 ≤ n ∧ n ≤ (ns : Int) - 1 ∧ il ≤ i ∧ i ≤ iu := ⟨hn'.1, hn'.2, hi⟩
  cases R with
  | donor => simp only [recT, donorT, cellVal, sten]; rw [if_pos h3, if_pos h3]; exact ⟨rfl, rfl⟩
  | plm mm flat m nwave =>
    cases third
    · simp only [recT, plmX2, plmT, cellVal, sten, Bool.false_eq_true, if_false]
      rw [if_pos h3, if_pos h3]; exact ⟨rfl, rfl⟩
    · simp only [recT, plmX3, plmT, cellVal, sten, if_true]
      rw [if_pos h3, if_pos h3]; exact ⟨rfl, rfl⟩
  | ppm ext uniform curv w =>
    have := ppmT_val (ext := ext) (uniform := uniform) (curv := curv && !third) (w := w) (q := q) (ql0 := rl) (qr0 := rr)
      (j := c) hn' hi
    cases third <;> simpa [recT, cellVal, sten] using this

/-- The floor on an interface value. -/
def fv (R : Rec K) (fl x : K) : K := if R.floors = true then (if x > fl then x else fl) else x

theorem floorRow_val {R : Rec K} {fl : K} {ns : Nat} {il iu : Int} {q : Row K} {n i : Int}
    (hn : 0 ≤ n ∧ n < ns) (hi : il ≤ i ∧ i ≤ iu) : floorRow R.floors fl ns il iu q n i = fv R fl (q n i) := by
  unfold floorRow fv
  have : n ≤ (ns : Int) - 1 := by omega
  by_cases h : R.floors = true
  · rw [if_pos ⟨h, hn.1, this, hi.1, hi.2⟩, if_pos h]
  · rw [if_neg (fun h' => h h'.1), if_neg h]

/-- The upwind flux of the two interface values. -/
def up (h a b : K) : K := if h ≥ 0 then h * a else h * b

theorem upwind_hit {ns : Nat} {k j il iu : Int} {rl rr : Row K} {mass : A3 K} {f : A4 K} {n i : Int}
    (hn : 0 ≤ n ∧ n < ns) (hi : il ≤ i ∧ i ≤ iu) :
    upwind ns k j il iu rl rr mass f (n, k, j, i) = up (mass (k, j, i)) (rl n i) (rr n i) := by
  unfold upwind up
  rw [if_pos ⟨hn.1, by simp only; omega, rfl, rfl, hi.1, hi.2⟩]

theorem upwind_keep {ns : Nat} {k j il iu : Int} {rl rr : Row K} {mass : A3 K} {f : A4 K} {n k' j' i : Int}
    (h : k' ≠ k ∨ j' ≠ j) : upwind ns k j il iu rl rr mass f (n, k', j', i) = f (n, k', j', i) := by
  unfold upwind
  rw [if_neg (by simp only; tauto)]

/-- The x1-fluxes. -/
theorem sweepX1_val {d : Dims} {ns : Nat} {R : Rec K} {fl : K} {scr : Int → Int → Scratch K} {r : A4 K} {mass : A3 K}
    {st : Work K} {n k j i : Int} (hR : ∀ mm flat m nwave, R = .plm mm flat m nwave → mm = true → n < nwave)
    (hn : 0 ≤ n ∧ n < ns) (hk : d.ks ≤ k ∧ k ≤ d.ke) (hj : d.js ≤ j ∧ j ≤ d.je) (hi : d.is ≤ i ∧ i ≤ d.ie + 1) :
    (sweepX1 d ns R fl scr r mass st).f (n, k, j, i) =
      up (mass (k, j, i)) (fv R fl (cellVal 1 R (i - 1) (sten (fun i => r (n, k, j, i)) (i - 1))).2)
        (fv R fl (cellVal 1 R i (sten (fun i => r (n, k, j, i)) i)).1) := by
  unfold sweepX1
  simp only
  refine loop2_hit (fun st : Work K => st.f (n, k, j, i)) _ _ _ _ _ _ k j ?_ ?_ ?_ ?_ st
  · constructor <;> split <;> omega
  · constructor <;> split <;> omega
  · intro st
    simp only
    rw [upwind_hit hn hi, floorRow_val hn hi, floorRow_val hn hi]
    have h1 := (recX1_val (s := scr k j) (q := fun n i => r (n, k, j, i)) (rl := st.rl) (rr := st.rr) (i := i - 1)
      (il := d.is - 1) (iu := d.ie + 1) hR hn ⟨by omega, by omega⟩).1
    rw [sub_add_cancel] at h1
    rw [h1, (recX1_val (s := scr k j) (q := fun n i => r (n, k, j, i)) (rl := st.rl) (rr := st.rr) (i := i)
      (il := d.is - 1) (iu := d.ie + 1) hR hn ⟨by omega, by omega⟩).2]
  · intro k' j' hne st
    simp only
    apply upwind_keep
    by_contra hc
    push Not at hc
    exact hne (by rw [hc.1, hc.2])

/-- The x2-fluxes. -/
theorem sweepX2_val {d : Dims} {ns : Nat} {R : Rec K} {fl : K} {r : A4 K} {mass : A3 K} {st : Work K} {n k j i : Int}
    (hn : 0 ≤ n ∧ n < ns) (hk : d.ks ≤ k ∧ k ≤ d.ke) (hj : d.js ≤ j ∧ j ≤ d.je + 1) (hi : d.is ≤ i ∧ i ≤ d.ie) :
    (sweepX2 d ns R fl r mass st).f (n, k, j, i) =
      up (mass (k, j, i)) (fv R fl (cellVal 2 R (j - 1) (sten (fun j => r (n, k, j, i)) (j - 1))).2)
        (fv R fl (cellVal 2 R j (sten (fun j => r (n, k, j, i)) j)).1) := by
  have hi' : d.is - 1 ≤ i ∧ i ≤ d.ie + 1 := ⟨by omega, by omega⟩
  unfold sweepX2
  simp only
  refine loop_hit (fun st : Work K => st.f (n, k, j, i)) _ _ _ _ k ?_ ?_ ?_ ?_ st
  · split <;> omega
  · split <;> omega
  · intro st
    have := loop_run (fun j (st : Work K) =>
      st.rl n i = fv R fl (cellVal 2 R (j - 1) (sten (fun j => r (n, k, j, i)) (j - 1))).2 ∧
      ∀ j', d.js ≤ j' → j' < j → st.f (n, k, j', i) =
        up (mass (k, j', i)) (fv R fl (cellVal 2 R (j' - 1) (sten (fun j => r (n, k, j, i)) (j' - 1))).2)
          (fv R fl (cellVal 2 R j' (sten (fun j => r (n, k, j, i)) j')).1)) d.js (d.je + 1)
      (fun j => fun st =>
        let q := recT false R ns (d.is - 1) (d.ie + 1) j (fun j n i => r (n, k, j, i)) st.rlb st.rr
        let rlb := floorRow R.floors fl ns (d.is - 1) (d.ie + 1) q.1
        let rr := floorRow R.floors fl ns (d.is - 1) (d.ie + 1) q.2
        { rl := rlb, rlb := st.rl, rr := rr, f := upwind ns k j (d.is - 1) (d.ie + 1) st.rl rr mass st.f })
      (by omega) ?_
      { st with
        rl := floorRow R.floors fl ns (d.is - 1) (d.ie + 1) (recT false R ns (d.is - 1) (d.ie + 1) (d.js - 1)
          (fun j n i => r (n, k, j, i)) st.rl st.rr).1,
        rr := (recT false R ns (d.is - 1) (d.ie + 1) (d.js - 1) (fun j n i => r (n, k, j, i)) st.rl st.rr).2 } ?_
    · exact this.2 j hj.1 (by omega)
    · intro c h1 h2 st hst
      simp only
      refine ⟨?_, ?_⟩
      · rw [floorRow_val hn hi', (recT_val hn hi').1]
        simp
      · intro j' h3 h4
        by_cases he : j' = c
        · subst he
          rw [upwind_hit hn hi', hst.1, floorRow_val hn hi', (recT_val hn hi').2]
          simp
        · rw [upwind_keep (Or.inr he)]
          exact hst.2 j' h3 (by omega)
    · refine ⟨?_, fun j' h1 h2 => absurd h2 (by omega)⟩
      simp only
      rw [floorRow_val hn hi', (recT_val hn hi').1]
      simp
  · intro k' _ _ hne st
    refine (loop_keep (fun st : Work K => st.f (n, k, j, i)) _ _ _ ?_ _).trans rfl
    intro j' _ _ st
    exact upwind_keep (Or.inl (Ne.symm hne))

/-- The x3-fluxes. -/
theorem sweepX3_val {d : Dims} {ns : Nat} {R : Rec K} {fl : K} {r : A4 K} {mass : A3 K} {st : Work K} {n k j i : Int}
    (hn : 0 ≤ n ∧ n < ns) (hk : d.ks ≤ k ∧ k ≤ d.ke + 1) (hj : d.js ≤ j ∧ j ≤ d.je) (hi : d.is ≤ i ∧ i ≤ d.ie) :
    (sweepX3 d ns R fl r mass st).f (n, k, j, i) =
      up (mass (k, j, i)) (fv R fl (cellVal 3 R (k - 1) (sten (fun k => r (n, k, j, i)) (k - 1))).2)
        (fv R fl (cellVal 3 R k (sten (fun k => r (n, k, j, i)) k)).1) := by
  have hi' : d.is - 1 ≤ i ∧ i ≤ d.ie + 1 := ⟨by omega, by omega⟩
  unfold sweepX3
  simp only
  refine loop_hit (fun st : Work K => st.f (n, k, j, i)) _ _ _ _ j (by omega) (by omega) ?_ ?_ st
  · intro st
    have := loop_run (fun k (st : Work K) =>
      st.rl n i = fv R fl (cellVal 3 R (k - 1) (sten (fun k => r (n, k, j, i)) (k - 1))).2 ∧
      ∀ k', d.ks ≤ k' → k' < k → st.f (n, k', j, i) =
        up (mass (k', j, i)) (fv R fl (cellVal 3 R (k' - 1) (sten (fun k => r (n, k, j, i)) (k' - 1))).2)
          (fv R fl (cellVal 3 R k' (sten (fun k => r (n, k, j, i)) k')).1)) d.ks (d.ke + 1)
      (fun k => fun st =>
        let q := recT true R ns (d.is - 1) (d.ie + 1) k (fun k n i => r (n, k, j, i)) st.rlb st.rr
        let rlb := floorRow R.floors fl ns (d.is - 1) (d.ie + 1) q.1
        let rr := floorRow R.floors fl ns (d.is - 1) (d.ie + 1) q.2
        { rl := rlb, rlb := st.rl, rr := rr, f := upwind ns k j (d.is - 1) (d.ie + 1) st.rl rr mass st.f })
      (by omega) ?_
      { st with
        rl := floorRow R.floors fl ns (d.is - 1) (d.ie + 1) (recT true R ns (d.is - 1) (d.ie + 1) (d.ks - 1)
          (fun k n i => r (n, k, j, i)) st.rl st.rr).1,
        rr := (recT true R ns (d.is - 1) (d.ie + 1) (d.ks - 1) (fun k n i => r (n, k, j, i)) st.rl st.rr).2 } ?_
    · exact this.2 k hk.1 (by omega)
    · intro c h1 h2 st hst
      simp only
      refine ⟨?_, ?_⟩
      · rw [floorRow_val hn hi', (recT_val hn hi').1]
        simp
      · intro k' h3 h4
        by_cases he : k' = c
        · subst he
          rw [upwind_hit hn hi', hst.1, floorRow_val hn hi', (recT_val hn hi').2]
          simp
        · rw [upwind_keep (Or.inl he)]
          exact hst.2 k' h3 (by omega)
    · refine ⟨?_, fun j' h1 h2 => absurd h2 (by omega)⟩
      simp only
      rw [floorRow_val hn hi', (recT_val hn hi').1]
      simp
  · intro j' _ _ hne st
    refine (loop_keep (fun st : Work K => st.f (n, k, j, i)) _ _ _ ?_ _).trans rfl
    intro k' _ _ st
    exact upwind_keep (Or.inr (Ne.symm hne))


/-! ## Constants -/

theorem cellVal_const [IsStrictOrderedRing K] {dir ns : Nat} {R : Rec K} (hR : R.Consistent ns) (i : Int) (a : K) :
    cellVal dir R i ⟨a, a, a, a, a⟩ = (a, a) := by
  cases R with
  | donor => rfl
  | plm mm flat m nwave =>
    have h : (if dir = 1 then slopeX1 else if dir = 2 then slopeX2 else slopeX3) mm flat m i (a - a) (a - a) = 0 := by
      rw [sub_self]
      split
      · cases mm <;> cases flat <;> simp [slopeX1, minmod, vanLeer, vanLeerM]
      · split <;> cases mm <;> cases flat <;> simp [slopeX2, slopeX3, minmod, vanLeer, vanLeerM]
    simp only [cellVal, h, mul_zero, sub_zero, add_zero]
  | ppm ext uniform curv w => exact ppm_constant a (hR i).1 (hR i).2

/-! ## Limited values -/

/-- What limited interface values `v.1`, `v.2` of a cell with value `c` between neighbours `a`, `b` satisfy. -/
structure Mono2 (kap a c b : K) (v : K × K) : Prop where
  btw : Between a c v.1 ∧ Between c b v.2
  lo : ∀ lo, lo ≤ a → lo ≤ c → lo ≤ b →
    (lo ≤ v.1 ∧ lo ≤ v.2) ∧ v.1 - lo ≤ kap * (c - lo) ∧ v.2 - lo ≤ kap * (c - lo)
  hi : ∀ hi, a ≤ hi → c ≤ hi → b ≤ hi →
    (v.1 ≤ hi ∧ v.2 ≤ hi) ∧ hi - v.1 ≤ kap * (hi - c) ∧ hi - v.2 ≤ kap * (hi - c)

section
variable [IsStrictOrderedRing K]

theorem Mono2.of_ratio {kap a c b vm vp : K} (h1 : Between a c vm) (h2 : Between c b vp)
    (hk : 1 ≤ kap)
    (hp : c ≤ vp → vp - c ≤ (kap - 1) * (c - vm)) (hp' : vp ≤ c → c - vp ≤ (kap - 1) * (vm - c))
    (hm : c ≤ vm → vm - c ≤ (kap - 1) * (c - vp)) (hm' : vm ≤ c → c - vm ≤ (kap - 1) * (vp - c)) :
    Mono2 kap a c b (vm, vp) := by
  have hk' : 0 ≤ kap - 1 := by linarith
  refine ⟨⟨h1, h2⟩, ?_, ?_⟩
  · intro lo ha hc hb
    have l1 : lo ≤ vm := (le_min ha hc).trans h1.1
    have l2 : lo ≤ vp := (le_min hc hb).trans h2.1
    refine ⟨⟨l1, l2⟩, ?_, ?_⟩
    · rcases le_total c vm with h | h
      · have := hm h
        have := mul_le_mul_of_nonneg_left (sub_le_sub_left l2 c) hk'
        simp only; linarith
      · have := mul_le_mul_of_nonneg_right hk (sub_nonneg.2 hc)
        simp only; linarith
    · rcases le_total c vp with h | h
      · have := hp h
        have := mul_le_mul_of_nonneg_left (sub_le_sub_left l1 c) hk'
        simp only; linarith
      · have := mul_le_mul_of_nonneg_right hk (sub_nonneg.2 hc)
        simp only; linarith
  · intro hi ha hc hb
    have l1 : vm ≤ hi := h1.2.trans (max_le ha hc)
    have l2 : vp ≤ hi := h2.2.trans (max_le hc hb)
    refine ⟨⟨l1, l2⟩, ?_, ?_⟩
    · rcases le_total vm c with h | h
      · have := hm' h
        have := mul_le_mul_of_nonneg_left (sub_le_sub_right l2 c) hk'
        simp only; linarith
      · have := mul_le_mul_of_nonneg_right hk (sub_nonneg.2 hc)
        simp only; linarith
    · rcases le_total vp c with h | h
      · have := hp' h
        have := mul_le_mul_of_nonneg_left (sub_le_sub_right l1 c) hk'
        simp only; linarith
      · have := mul_le_mul_of_nonneg_right hk (sub_nonneg.2 hc)
        simp only; linarith

omit [Field K] [IsStrictOrderedRing K] in
theorem between_comm {a b x : K} (h : Between a b x) : Between b a x := by
  unfold Between at *
  rwa [min_comm, max_comm]

theorem ratio_pos {hp hm t x y : K} (p1 : 1 ≤ hp) (p2 : hp ≤ t) (m1 : 1 ≤ hm) (m2 : hm ≤ t) (hx : 0 < x) (hy : 0 < y) :
    let u := if x ≥ hp * y then hp * y else x
    let v := if y ≥ hm * x then hm * x else y
    0 < u ∧ 0 < v ∧ u ≤ t * v ∧ v ≤ t * u := by
  have ht : 1 ≤ t := p1.trans p2
  have e1 := mul_le_mul_of_nonneg_right p2 hy.le
  have e2 := mul_le_mul_of_nonneg_right m2 hx.le
  have e3 := mul_le_mul_of_nonneg_right p1 hy.le
  have e4 := mul_le_mul_of_nonneg_right m1 hx.le
  have e5 := mul_le_mul_of_nonneg_right ht hx.le
  have e6 := mul_le_mul_of_nonneg_right ht hy.le
  have f1 := mul_le_mul_of_nonneg_right ht (mul_nonneg (by linarith : (0:K) ≤ hp) hy.le)
  have f2 := mul_le_mul_of_nonneg_right ht (mul_nonneg (by linarith : (0:K) ≤ hm) hx.le)
  simp only
  split <;> split
  all_goals try push Not at *
  all_goals refine ⟨by linarith, by linarith, by linarith, by linarith⟩

/-- The steepness limiter of PPM. -/
theorem limitCellM_ratio {hp hm kap : K} (p1 : 1 ≤ hp) (p2 : hp ≤ kap - 1) (m1 : 1 ≤ hm) (m2 : hm ≤ kap - 1) (c a b : K) :
    let v := limitCellM hp hm c a b
    (c ≤ v.2 → v.2 - c ≤ (kap - 1) * (c - v.1)) ∧ (v.2 ≤ c → c - v.2 ≤ (kap - 1) * (v.1 - c)) ∧
    (c ≤ v.1 → v.1 - c ≤ (kap - 1) * (c - v.2)) ∧ (v.1 ≤ c → c - v.1 ≤ (kap - 1) * (v.2 - c)) := by
  simp only
  unfold limitCellM
  simp only
  by_cases h : (c - a) * (b - c) ≤ 0
  · rw [if_pos h]; simp
  rw [if_neg h]
  push Not at h
  rcases pos_and_pos_or_neg_and_neg_of_mul_pos h with ⟨x, y⟩ | ⟨x, y⟩
  · rw [abs_of_pos x, abs_of_pos y]
    have hr := ratio_pos p1 p2 m1 m2 x y
    simp only at hr
    have g1 : (if c - a ≥ hp * (b - c) then c - hp * (b - c) else a) =
        c - (if c - a ≥ hp * (b - c) then hp * (b - c) else c - a) := by split <;> ring
    have g2 : (if b - c ≥ hm * (c - a) then c + hm * (c - a) else b) =
        c + (if b - c ≥ hm * (c - a) then hm * (c - a) else b - c) := by split <;> ring
    simp only [g1, g2]
    generalize (if c - a ≥ hp * (b - c) then hp * (b - c) else c - a) = u at *
    generalize (if b - c ≥ hm * (c - a) then hm * (c - a) else b - c) = v at *
    obtain ⟨hu, hv, h1, h2⟩ := hr
    exact ⟨fun _ => by linarith, fun _ => by linarith, fun _ => by linarith, fun _ => by linarith⟩
  · rw [abs_of_neg x, abs_of_neg y]
    have hr := ratio_pos p1 p2 m1 m2 (neg_pos.2 x) (neg_pos.2 y)
    simp only at hr
    have g1 : (if -(c - a) ≥ hp * -(b - c) then c - hp * (b - c) else a) =
        c + (if -(c - a) ≥ hp * -(b - c) then hp * -(b - c) else -(c - a)) := by split <;> ring
    have g2 : (if -(b - c) ≥ hm * -(c - a) then c + hm * (c - a) else b) =
        c - (if -(b - c) ≥ hm * -(c - a) then hm * -(c - a) else -(b - c)) := by split <;> ring
    simp only [g1, g2]
    generalize (if -(c - a) ≥ hp * -(b - c) then hp * -(b - c) else -(c - a)) = u at *
    generalize (if -(b - c) ≥ hm * -(c - a) then hm * -(c - a) else -(b - c)) = v at *
    obtain ⟨hu, hv, h1, h2⟩ := hr
    exact ⟨fun _ => by linarith, fun _ => by linarith, fun _ => by linarith, fun _ => by linarith⟩

theorem cellVal_mono {dir ns : Nat} {R : Rec K} {kap : K} (hd : dir = 1 ∨ dir = 2 ∨ dir = 3) (hR : R.Limited (dir == 3) ns kap) (i : Int) (s : Sten K) :
    Mono2 kap s.m1 s.c s.p1 (cellVal dir R i s) := by
  cases R with
  | donor =>
    have hk : 1 ≤ kap := hR
    apply Mono2.of_ratio (between_right _ _) (between_left _ _) hk <;> intro _ <;> simp
  | plm mm flat m nwave =>
    obtain ⟨hk, -, hm⟩ := hR
    obtain ⟨hc, hmid, hs⟩ := hm i
    have hpos := hc.dxf_pos
    have e1 : (m.xv i - m.xf i) / m.dxf i = 1 / 2 := by
      rw [div_eq_div_iff hpos.ne' two_ne_zero, hc.dxf, hmid]; ring
    have e2 : (m.xf (i + 1) - m.xv i) / m.dxf i = 1 / 2 := by
      rw [div_eq_div_iff hpos.ne' two_ne_zero, hc.dxf, hmid]; ring
    set sl := (if dir = 1 then slopeX1 else if dir = 2 then slopeX2 else slopeX3) mm flat m i (s.c - s.m1) (s.p1 - s.c)
      with hsl
    have hl : Lim ((m.xf (i + 1) - m.xv i) / m.dxf i) ((m.xv i - m.xf i) / m.dxf i) (s.c - s.m1) (s.p1 - s.c) sl := by
      by_cases h3 : dir = 3
      · have : sl = slopeX3 mm flat m i (s.c - s.m1) (s.p1 - s.c) := by rw [hsl, h3]; simp
        rw [this]
        refine slopeX3_lim hc (fun _ => hmid) (fun a b => ?_) _ _
        have := hs a b
        rw [if_pos (by simp [h3])] at this
        rw [hc.dxv, hc.dxv']
        exact this
      · have hs' : mm = false → flat = false → m.Smooth i := fun a b => by
          have := hs a b
          rwa [if_neg (by simp [h3])] at this
        have h12 : sl = slopeX1 mm flat m i (s.c - s.m1) (s.p1 - s.c) := by
          rcases hd with h | h | h
          · rw [hsl, h]; simp
          · rw [hsl, h]; simp [slopeX2_eq]
          · exact absurd h h3
        rw [h12]
        exact slopeX1_lim hc (fun _ => hmid) hs' _ _
    have hb := hl.between hc.p_ratio.1.le hc.r_ratio.1.le
    have hv : cellVal dir (.plm mm flat m nwave) i s = (s.c - 1 / 2 * sl, s.c + 1 / 2 * sl) := by
      simp only [cellVal]; rw [e1, e2]
    rw [e1, e2] at hb
    rw [hv]
    have hk' : 1 ≤ kap - 1 := by linarith
    apply Mono2.of_ratio hb.2 hb.1 (by linarith) <;> intro h
    · have := mul_le_mul_of_nonneg_right hk' (by linarith : 0 ≤ 1 / 2 * sl); nlinarith
    · have := mul_le_mul_of_nonneg_right hk' (by linarith : 0 ≤ -(1 / 2 * sl)); nlinarith
    · have := mul_le_mul_of_nonneg_right hk' (by linarith : 0 ≤ -(1 / 2 * sl)); nlinarith
    · have := mul_le_mul_of_nonneg_right hk' (by linarith : 0 ≤ 1 / 2 * sl); nlinarith
  | ppm ext uniform curv w =>
    obtain ⟨hf, hw⟩ := hR
    obtain ⟨p1, p2, m1, m2⟩ := hw i
    have hf' : uniform = false ∨ (curv && (dir != 3)) = true := hf
    have hb := ppmCell_limited (ext := ext) hf' (by linarith : 0 ≤ w.hp i) (by linarith : 0 ≤ w.hm i) s
    have hx : ∃ a b, cellVal dir (.ppm ext uniform curv w) i s = limitCellM (w.hp i) (w.hm i) s.c a b := by
      have hflat : (uniform && !(curv && (dir != 3))) = false := by
        rcases hf' with h | h <;> simp [h]
      simp only [cellVal, ppmCell, hflat, Bool.and_false, Bool.false_eq_true, if_false]
      exact ⟨_, _, rfl⟩
    obtain ⟨a, b, hab⟩ := hx
    have hr := limitCellM_ratio (kap := kap) p1 p2 m1 m2 s.c a b
    rw [← hab] at hr
    exact Mono2.of_ratio (between_comm hb.1) hb.2 (by linarith) hr.1 hr.2.1 hr.2.2.1 hr.2.2.2

omit [IsStrictOrderedRing K] in
theorem fv_eq {R : Rec K} {fl x : K} (h : R.floors = true → fl ≤ x) : fv R fl x = x := by
  unfold fv
  split
  · next h' =>
    split
    · rfl
    · next hx => exact le_antisymm (h h') (not_lt.1 hx)
  · rfl

theorem face_up {a h v v' c lo kap : K} (ha : 0 ≤ a) (h1 : v - lo ≤ kap * (c - lo)) (h2 : lo ≤ v') :
    a * up h v v' - lo * (a * h) ≤ kap * (c - lo) * (a * max h 0) := by
  unfold up
  split
  · next hh =>
    rw [max_eq_left hh]
    have := mul_le_mul_of_nonneg_left h1 (mul_nonneg ha hh)
    nlinarith
  · next hh =>
    push Not at hh
    rw [max_eq_right hh.le]
    have := mul_nonneg (mul_nonneg ha (sub_nonneg.2 h2)) (neg_nonneg.2 hh.le)
    nlinarith

theorem face_dn {a h v v' c lo kap : K} (ha : 0 ≤ a) (h1 : v - lo ≤ kap * (c - lo)) (h2 : lo ≤ v') :
    -(a * up h v' v - lo * (a * h)) ≤ kap * (c - lo) * (a * max (-h) 0) := by
  unfold up
  split
  · next hh =>
    rw [max_eq_right (by linarith)]
    have := mul_nonneg (mul_nonneg ha (sub_nonneg.2 h2)) hh
    nlinarith
  · next hh =>
    push Not at hh
    rw [max_eq_left (by linarith)]
    have := mul_le_mul_of_nonneg_left h1 (mul_nonneg ha (neg_nonneg.2 hh.le))
    nlinarith

omit [IsStrictOrderedRing K] in
theorem up_neg (h a b : K) : up h (-a) (-b) = -up h a b := by
  unfold up; split <;> ring

/-- Both faces of a cell in one direction, bound from below. -/
theorem faces_lo {a1 a0 h1 h0 v1 v0 x1 x0 c lo kap : K} (p1 : 0 ≤ a1) (p0 : 0 ≤ a0) (q1 : v1 - lo ≤ kap * (c - lo))
    (q0 : v0 - lo ≤ kap * (c - lo)) (y1 : lo ≤ x1) (y0 : lo ≤ x0) :
    (a1 * up h1 v1 x1 - a0 * up h0 x0 v0) - lo * (a1 * h1 - a0 * h0) ≤
      kap * (c - lo) * (a1 * max h1 0 + a0 * max (-h0) 0) := by
  have e1 := face_up (h := h1) p1 q1 y1
  have e2 := face_dn (h := h0) p0 q0 y0
  rw [mul_add]
  linarith

/-- The same from above. -/
theorem faces_hi {a1 a0 h1 h0 v1 v0 x1 x0 c hi kap : K} (p1 : 0 ≤ a1) (p0 : 0 ≤ a0) (q1 : hi - v1 ≤ kap * (hi - c))
    (q0 : hi - v0 ≤ kap * (hi - c)) (y1 : x1 ≤ hi) (y0 : x0 ≤ hi) :
    hi * (a1 * h1 - a0 * h0) - (a1 * up h1 v1 x1 - a0 * up h0 x0 v0) ≤
      kap * (hi - c) * (a1 * max h1 0 + a0 * max (-h0) 0) := by
  have := faces_lo (h1 := h1) (h0 := h0) (v1 := -v1) (v0 := -v0) (x1 := -x1) (x0 := -x0) (c := -c) (lo := -hi)
    (kap := kap) p1 p0 (by linarith) (by linarith) (by linarith) (by linarith)
  rw [up_neg, up_neg, show -c - -hi = hi - c by ring] at this
  linarith

/-- The limited values of the cells on a line, with floors that do not act. -/
theorem line_vals {dir ns : Nat} {R : Rec K} {kap fl lo hi : K} (hd : dir = 1 ∨ dir = 2 ∨ dir = 3)
    (hR : R.Limited (dir == 3) ns kap) (q : Int → K) (i : Int) (hfl : R.floors = true → fl ≤ lo)
    (h : ∀ x, x = i - 1 ∨ x = i ∨ x = i + 1 → lo ≤ q x ∧ q x ≤ hi) :
    let v := fun x => cellVal dir R x (sten q x)
    (fv R fl (v i).2 - lo ≤ kap * (q i - lo) ∧ fv R fl (v i).1 - lo ≤ kap * (q i - lo) ∧
      lo ≤ fv R fl (v (i + 1)).1 ∧ lo ≤ fv R fl (v (i - 1)).2) ∧
    (hi - fv R fl (v i).2 ≤ kap * (hi - q i) ∧ hi - fv R fl (v i).1 ≤ kap * (hi - q i) ∧
      fv R fl (v (i + 1)).1 ≤ hi ∧ fv R fl (v (i - 1)).2 ≤ hi) := by
  have m := cellVal_mono (ns := ns) hd hR i (sten q i)
  have m1 := (cellVal_mono (ns := ns) hd hR (i + 1) (sten q (i + 1))).btw.1
  have m0 := (cellVal_mono (ns := ns) hd hR (i - 1) (sten q (i - 1))).btw.2
  obtain ⟨a, a'⟩ := h (i - 1) (by simp)
  obtain ⟨b, b'⟩ := h i (by simp)
  obtain ⟨c, c'⟩ := h (i + 1) (by simp)
  have l := m.lo lo a b c
  have u := m.hi hi a' b' c'
  simp only [sten, add_sub_cancel_right, sub_add_cancel] at m1 m0
  have l1 := (le_min b c).trans m1.1
  have u1 := m1.2.trans (max_le b' c')
  have l0 := (le_min a b).trans m0.1
  have u0 := m0.2.trans (max_le a' b')
  simp only [sten, add_sub_cancel_right, sub_add_cancel] at *
  rw [fv_eq (fun h => (hfl h).trans l.1.1), fv_eq (fun h => (hfl h).trans l.1.2), fv_eq (fun h => (hfl h).trans l1),
    fv_eq (fun h => (hfl h).trans l0)]
  exact ⟨⟨l.2.2, l.2.1, l1, l0⟩, ⟨u.2.2, u.2.1, u1, u0⟩⟩

omit [IsStrictOrderedRing K] in
theorem opt_lo {P : Prop} [Decidable P] {x y z lo k : K} (h : P → x - lo * y ≤ k * z) :
    (if P then x else 0) - lo * (if P then y else 0) ≤ k * (if P then z else 0) := by
  split
  · next g => exact h g
  · simp

omit [IsStrictOrderedRing K] in
theorem opt_hi {P : Prop} [Decidable P] {x y z hi k : K} (h : P → hi * y - x ≤ k * z) :
    hi * (if P then y else 0) - (if P then x else 0) ≤ k * (if P then z else 0) := by
  split
  · next g => exact h g
  · simp

omit [LinearOrder K] [IsStrictOrderedRing K] in
theorem ite_add {P : Prop} [Decidable P] (x y : K) : (if P then x + y else x) = x + if P then y else 0 := by
  split <;> simp

theorem sum_lo {x1 x2 x3 y1 y2 y3 z1 z2 z3 lo k : K} (h1 : x1 - lo * y1 ≤ k * z1) (h2 : x2 - lo * y2 ≤ k * z2)
    (h3 : x3 - lo * y3 ≤ k * z3) : x1 + x2 + x3 - lo * (y1 + y2 + y3) ≤ k * (z1 + z2 + z3) := by
  have : lo * (y1 + y2 + y3) = lo * y1 + lo * y2 + lo * y3 := by ring
  have : k * (z1 + z2 + z3) = k * z1 + k * z2 + k * z3 := by ring
  linarith

theorem sum_hi {x1 x2 x3 y1 y2 y3 z1 z2 z3 hi k : K} (h1 : hi * y1 - x1 ≤ k * z1) (h2 : hi * y2 - x2 ≤ k * z2)
    (h3 : hi * y3 - x3 ≤ k * z3) : hi * (y1 + y2 + y3) - (x1 + x2 + x3) ≤ k * (z1 + z2 + z3) := by
  have : hi * (y1 + y2 + y3) = hi * y1 + hi * y2 + hi * y3 := by ring
  have : k * (z1 + z2 + z3) = k * z1 + k * z2 + k * z3 := by ring
  linarith

theorem bound_fin {C U V w O Ds Dm lo hi kap : K} (hV : 0 < V) (hw : 0 ≤ w) (c1 : lo ≤ C) (c2 : C ≤ hi)
    (hout : kap * (w * O) ≤ U * V) (m1 : Ds - lo * Dm ≤ kap * (C - lo) * O) (m2 : hi * Dm - Ds ≤ kap * (hi - C) * O) :
    lo * (U - w * Dm / V) ≤ C * U - w * Ds / V ∧ C * U - w * Ds / V ≤ hi * (U - w * Dm / V) := by
  have t1 : 0 ≤ (C - lo) * (U * V - kap * (w * O)) := mul_nonneg (by linarith) (by linarith)
  have t2 : 0 ≤ (hi - C) * (U * V - kap * (w * O)) := mul_nonneg (by linarith) (by linarith)
  have s1 := mul_le_mul_of_nonneg_left m1 hw
  have s2 := mul_le_mul_of_nonneg_left m2 hw
  constructor
  · rw [← sub_nonneg]
    have : C * U - w * Ds / V - lo * (U - w * Dm / V) = ((C - lo) * (U * V) - w * (Ds - lo * Dm)) / V := by
      field_simp; ring
    rw [this]
    exact div_nonneg (by linarith) hV.le
  · rw [← sub_nonneg]
    have : hi * (U - w * Dm / V) - (C * U - w * Ds / V) = ((hi - C) * (U * V) - w * (hi * Dm - Ds)) / V := by
      field_simp; ring
    rw [this]
    exact div_nonneg (by linarith) hV.le

end
end Verif.Scalars
