import Verif.Model.RadMulti
import Verif.Props.RadSource

/-!
# C95: exchange with several frequency groups, Compton scattering
-/

namespace Verif.RadSrc

open scoped BigOperators

variable {N F : ℕ}

namespace Spec

/-- The implicit equations for several groups, with the spectrum `e` of the emission. -/
def SolvesMulti (prat red gm1 rho : ℝ) (o : Fin F → Opac) (w tc : Fin N → ℝ)
    (im I : Fin F → Fin N → ℝ) (e : Fin F → ℝ) (T T' : ℝ) (I' : Fin F → Fin N → ℝ) : Prop :=
  T' = T - prat * gm1 / rho * ∑ f, ((o f).dp * (e f * T' ^ 4) - (o f).de * ∑ n, w n * I' f n) ∧
  ∀ f n, im f n * I' f n = I f n + red * tc n *
    (((o f).ds + (o f).dr - (o f).de) * (∑ n, w n * I' f n) + (o f).dp * (e f * T' ^ 4) -
      ((o f).ds + (o f).dr) * I' f n)

end Spec

/-! ### Lemmas -/

/-- The new intensities of a group for any emission `E`. -/
theorem group_solves {o : Opac} {w im tc : Fin N → ℝ} (h : Spec.Ok o w im tc) (I : Fin N → ℝ)
    (E : ℝ) :
    let jr := (suma1 o w im tc * E + suma2 o w im tc I) / (1 - suma3 o w im tc)
    let I' := fun n => I n + ((o.red * o.ds + o.red * o.dr - o.red * o.de) * jr + o.red * o.dp * E
        - ((im n - 1) / tc n + o.red * o.ds + o.red * o.dr) * I n) * (tc n * vn o im tc n)
    (∑ n, w n * I' n) = jr ∧
    ∀ n, im n * I' n = I n + o.red * tc n * ((o.ds + o.dr - o.de) * jr + o.dp * E -
      (o.ds + o.dr) * I' n) := by
  intro jr I'
  have hd := (den3_pos h).ne'
  have hj : jr * (1 - suma3 o w im tc) = suma1 o w im tc * E + suma2 o w im tc I :=
    div_mul_cancel₀ _ hd
  have hn : ∀ n, I' n = I n * vn o im tc n + ((o.red * o.ds + o.red * o.dr - o.red * o.de) * jr +
        o.red * o.dp * E) * (tc n * vn o im tc n) := fun n => new_eq h I jr E n
  refine ⟨?_, ?_⟩
  · have : ∀ n, w n * I' n = I n * w n * vn o im tc n + w n * (tc n * vn o im tc n) *
          ((o.red * o.ds + o.red * o.dr - o.red * o.de) * jr + o.red * o.dp * E) := by
      intro n
      rw [hn n]; ring
    rw [Finset.sum_congr rfl fun n _ => this n, Finset.sum_add_distrib, ← Finset.sum_mul]
    change suma2 o w im tc I + sumw o w im tc * _ = jr
    unfold suma3 suma1 at hj
    linear_combination -hj
  · intro n
    rw [hn n]
    linear_combination (I n + (tc n * o.red) * ((o.ds + o.dr - o.de) * jr + o.dp * E)) *
      vn_mul h n

/-- The passes of the loop form a chain that ends after the last pass or with a small change. -/
theorem mloop_chain (step : ℝ → Option ℝ) (err : ℝ) :
    ∀ (m : ℕ) (s x : ℝ) (r : ℝ × ℝ), mloop step err m (|s - x| / s) s x = some r →
      step s = some x → ∃ k ≤ m, ∃ t : ℕ → ℝ, t 0 = s ∧ t 1 = x ∧
        (∀ i ≤ k, step (t i) = some (t (i + 1))) ∧ (k = m ∨ |t k - t (k + 1)| / t k ≤ err) ∧
        r = (t k, t (k + 1)) := by
  intro m
  have base : ∀ (m : ℕ) (s x : ℝ) (r : ℝ × ℝ), some (s, x) = some r → step s = some x →
      (0 = m ∨ |s - x| / s ≤ err) → ∃ k ≤ m, ∃ t : ℕ → ℝ, t 0 = s ∧ t 1 = x ∧
        (∀ i ≤ k, step (t i) = some (t (i + 1))) ∧ (k = m ∨ |t k - t (k + 1)| / t k ≤ err) ∧
        r = (t k, t (k + 1)) := by
    intro m s x r hr hst hc
    refine ⟨0, Nat.zero_le _, fun i => if i = 0 then s else x, by simp, by simp, ?_, by simpa using hc,
      by simpa using (Option.some.inj hr).symm⟩
    intro i hi
    obtain rfl : i = 0 := by omega
    simpa using hst
  induction m with
  | zero =>
    intro s x r hr hst
    exact base 0 s x r hr hst (Or.inl rfl)
  | succ m ih =>
    intro s x r hr hst
    unfold mloop at hr
    split at hr
    · cases hy : step x with
      | none => rw [hy] at hr; cases hr
      | some y =>
        rw [hy] at hr
        obtain ⟨k, hk, t, t0, t1, hc, he, hr'⟩ := ih x y r hr hy
        refine ⟨k + 1, by omega, fun i => if i = 0 then s else t (i - 1), by simp, by simpa using t0,
          ?_, ?_, by simpa using hr'⟩
        · intro i hi
          rcases Nat.eq_zero_or_pos i with rfl | hp
          · simpa [t0] using hst
          · have := hc (i - 1) (by omega)
            rw [show i - 1 + 1 = i by omega] at this
            simpa [hp.ne'] using this
        · rcases he with he | he
          · left; omega
          · right; simpa using he
    · rename_i hd
      exact base _ s x r hr hst (Or.inr (not_lt.1 hd))

theorem mloop_some (step : ℝ → Option ℝ) (err : ℝ) (P : ℝ → Prop)
    (hP : ∀ x, P x → ∃ y, step x = some y ∧ P y) :
    ∀ (m : ℕ) (diff s x : ℝ), P x → ∃ r, mloop step err m diff s x = some r := by
  intro m
  induction m with
  | zero => intro diff s x _; exact ⟨_, rfl⟩
  | succ m ih =>
    intro diff s x hx
    unfold mloop
    split
    · obtain ⟨y, hy, py⟩ := hP x hx
      rw [hy]
      exact ih _ _ _ py
    · exact ⟨_, rfl⟩

section
variable {o : Fin F → Opac} {w tc : Fin N → ℝ} {im : Fin F → Fin N → ℝ}
  (h : ∀ f, Spec.Ok (o f) w (im f) tc)
include h

theorem mcoef1_eq (e : Fin F → ℝ) :
    mcoef1 o w tc im e = ∑ f, coef1 (o f) w (im f) tc * e f := by
  unfold mcoef1 coef1
  apply Finset.sum_congr rfl
  intro f _
  ring

theorem mcoef0_nonpos {I : Fin F → Fin N → ℝ} (hI : ∀ f n, 0 ≤ I f n) {T : ℝ} (hT : 0 ≤ T) :
    mcoef0 o w tc im I T ≤ 0 := by
  unfold mcoef0
  have : ∑ f, -(o f).de * (o f).prat * suma2 (o f) w (im f) tc (I f) * (o f).gm1 /
      ((o f).rho * (1 - suma3 (o f) w (im f) tc)) ≤ 0 := by
    apply Finset.sum_nonpos
    intro f _
    have q : 0 ≤ (o f).de * (o f).prat * suma2 (o f) w (im f) tc (I f) * (o f).gm1 /
        ((o f).rho * (1 - suma3 (o f) w (im f) tc)) :=
      div_nonneg (mul_nonneg (mul_nonneg (mul_nonneg (h f).de (h f).prat.le)
        (suma2_nonneg (h f) (hI f))) (h f).gm1.le) (mul_nonneg (h f).rho.le (den3_pos (h f)).le)
    have e : -(o f).de * (o f).prat * suma2 (o f) w (im f) tc (I f) * (o f).gm1 /
        ((o f).rho * (1 - suma3 (o f) w (im f) tc)) = -((o f).de * (o f).prat *
        suma2 (o f) w (im f) tc (I f) * (o f).gm1 / ((o f).rho * (1 - suma3 (o f) w (im f) tc))) := by
      ring
    rw [e]
    linarith
  linarith

/-- From a root of the polynomial to a solution of the equations. -/
theorem multi_root {prat red gm1 rho : ℝ}
    (hk : ∀ f, (o f).prat = prat ∧ (o f).red = red ∧ (o f).gm1 = gm1 ∧ (o f).rho = rho)
    {I : Fin F → Fin N → ℝ} {T T' : ℝ} (e : Fin F → ℝ)
    (hr : mcoef1 o w tc im e * T' ^ 4 + T' + mcoef0 o w tc im I T = 0) :
    Spec.SolvesMulti prat red gm1 rho o w tc im I e T T' (fun f n =>
      I f n + (((o f).red * (o f).ds + (o f).red * (o f).dr - (o f).red * (o f).de) *
          ((suma1 (o f) w (im f) tc * (T' * T' * T' * T' * e f) + suma2 (o f) w (im f) tc (I f)) /
            (1 - suma3 (o f) w (im f) tc)) + (o f).red * (o f).dp * (T' * T' * T' * T' * e f)
        - ((im f n - 1) / tc n + (o f).red * (o f).ds + (o f).red * (o f).dr) * I f n) *
          (tc n * vn (o f) (im f) tc n)) := by
  refine ⟨?_, ?_⟩
  · have g := fun f => (group_solves (h f) (I f) (T' * T' * T' * T' * e f)).1
    beta_reduce at g
    simp only [g]
    have q : mcoef1 o w tc im e * T' ^ 4 + mcoef0 o w tc im I T = -T + prat * gm1 / rho *
        ∑ f, ((o f).dp * (e f * T' ^ 4) - (o f).de * ((suma1 (o f) w (im f) tc *
          (T' * T' * T' * T' * e f) + suma2 (o f) w (im f) tc (I f)) /
            (1 - suma3 (o f) w (im f) tc))) := by
      unfold mcoef1 mcoef0
      rw [Finset.sum_mul, Finset.mul_sum, ← add_assoc, ← Finset.sum_add_distrib, add_comm (-T)]
      congr 1
      apply Finset.sum_congr rfl
      intro f _
      obtain ⟨k1, k2, k3, k4⟩ := hk f
      rw [← k1, ← k3, ← k4]
      have hd := (den3_pos (h f)).ne'
      have hrho := (h f).rho.ne'
      field_simp
      ring
    linear_combination hr - q
  · intro f n
    have g := group_solves (h f) (I f) (T' * T' * T' * T' * e f)
    obtain ⟨g1, g2⟩ := g
    have g2 := g2 n
    beta_reduce at g1 g2
    rw [g1]
    beta_reduce
    rw [← (hk f).2.1]
    linear_combination g2

end

/-! ### Theorems -/

/-- Several groups: the temperatures of the passes form a sequence `t` that starts with the old
temperature; each solves the implicit equations with the spectrum of emission at the one before. The
result is the last one, with the intensities that belong to it; the sequence ends after the allowed
number of passes or when the relative change is small enough. The hypotheses `hc` and `hb` exclude a
neglected coefficient and the approximation of the solver. -/
theorem multi_solves_partial (big tiny err : ℝ) (htiny : 0 ≤ tiny) (herr : err < 1) (iter : ℕ)
    (prat red gm1 rho : ℝ) (o : Fin F → Opac) (w tc : Fin N → ℝ) (im I : Fin F → Fin N → ℝ)
    (hk : ∀ f, (o f).prat = prat ∧ (o f).red = red ∧ (o f).gm1 = gm1 ∧ (o f).rho = rho)
    (h : ∀ f, Spec.Ok (o f) w (im f) tc) (hI : ∀ f n, 0 ≤ I f n) (spec : ℝ → Fin F → ℝ) (s0 T : ℝ)
    (hT : 0 ≤ T) (hc : ∀ s, 0 ≤ s → tiny < mcoef1 o w tc im (spec s))
    (hb : ∀ s, 0 ≤ s → Real.sqrt (1 / 4 - 64 * (mcoef0 o w tc im I T * mcoef0 o w tc im I T *
      mcoef0 o w tc im I T) * mcoef1 o w tc im (spec s) / 27) ≤ big) :
    ∃ k ≤ iter, ∃ (t : ℕ → ℝ) (J : ℕ → Fin F → Fin N → ℝ), t 0 = T ∧
      (∀ i ≤ k, 0 ≤ t (i + 1) ∧
        Spec.SolvesMulti prat red gm1 rho o w tc im I (spec (t i)) T (t (i + 1)) (J i)) ∧
      (k = iter ∨ |t k - t (k + 1)| / t k ≤ err) ∧
      absorbMulti big tiny err iter o w tc im I spec s0 T =
        (t (k + 1), fun f n => max (J k f n) tiny) := by
  have h0 := mcoef0_nonpos h hI hT
  have hstep : ∀ x, 0 ≤ x → ∃ y, mstep big tiny o w tc im I spec T x = some y ∧ 0 ≤ y := by
    intro x hx
    have c := lt_of_le_of_lt htiny (hc x hx)
    obtain ⟨y, e1, e2, -, -⟩ := Quartic.root_exists_partial big _ _ c h0 (hb x hx)
    refine ⟨y, ?_, e2⟩
    unfold mstep
    rw [if_pos (by rw [abs_of_pos c]; exact hc x hx)]
    exact e1
  have hroot : ∀ x y, 0 ≤ x → mstep big tiny o w tc im I spec T x = some y →
      0 ≤ y ∧ mcoef1 o w tc im (spec x) * y ^ 4 + y + mcoef0 o w tc im I T = 0 := by
    intro x y hx hy
    have c := lt_of_le_of_lt htiny (hc x hx)
    unfold mstep at hy
    rw [if_pos (by rw [abs_of_pos c]; exact hc x hx)] at hy
    exact (Quartic.root_found_partial big _ _ c (hb x hx) y).1 hy
  obtain ⟨y, hy, py⟩ := hstep T hT
  have e : mloop (mstep big tiny o w tc im I spec T) err (iter + 1) 1 s0 T =
      mloop (mstep big tiny o w tc im I spec T) err iter (|T - y| / T) T y := by
    rw [mloop, if_pos herr, hy]
  obtain ⟨r, hr⟩ := mloop_some (mstep big tiny o w tc im I spec T) err (fun x => 0 ≤ x)
    hstep iter (|T - y| / T) T y py
  obtain ⟨k, hk', t, t0, -, hch, hend, hres⟩ := mloop_chain _ err iter T y r hr hy
  have hpos : ∀ i ≤ k + 1, 0 ≤ t i := by
    intro i
    induction i with
    | zero => intro _; rw [t0]; exact hT
    | succ i ih => intro hi; exact (hroot _ _ (ih (by omega)) (hch i (by omega))).1
  refine ⟨k, hk', t, fun i => _, t0, fun i hi => ⟨hpos _ (by omega), multi_root h hk (spec (t i))
    (hroot _ _ (hpos i (by omega)) (hch i hi)).2⟩, hend, ?_⟩
  unfold absorbMulti
  rw [e, hr, hres]

/-- Gas at rest: the energy of gas and all groups together is conserved. -/
theorem multi_energy (prat red gm1 rho : ℝ) (hred : 0 < red) (hg : 0 < gm1) (hrho : 0 < rho)
    (o : Fin F → Opac) (w : Fin N → ℝ) (hw : ∑ n, w n = 1) (I I' : Fin F → Fin N → ℝ) (e : Fin F → ℝ)
    (T T' : ℝ)
    (hs : Spec.SolvesMulti prat red gm1 rho o w (fun _ => 1) (fun _ _ => 1) I e T T' I') :
    rho * T' / gm1 + prat / red * ∑ f, ∑ n, w n * I' f n =
      rho * T / gm1 + prat / red * ∑ f, ∑ n, w n * I f n := by
  obtain ⟨h1, h2⟩ := hs
  have q : ∀ f, ∑ n, w n * I' f n = (∑ n, w n * I f n) +
      red * ((o f).dp * (e f * T' ^ 4) - (o f).de * ∑ n, w n * I' f n) := by
    intro f
    have q : ∀ n, w n * I' f n = w n * I f n + w n * (red * (((o f).ds + (o f).dr - (o f).de) *
        (∑ n, w n * I' f n) + (o f).dp * (e f * T' ^ 4))) -
          red * ((o f).ds + (o f).dr) * (w n * I' f n) := by
      intro n
      linear_combination w n * h2 f n
    have := Finset.sum_congr rfl fun n (_ : n ∈ Finset.univ) => q n
    rw [Finset.sum_sub_distrib, Finset.sum_add_distrib, ← Finset.sum_mul, ← Finset.mul_sum,
      hw] at this
    generalize (∑ n, w n * I' f n) = J at *
    linear_combination this
  have qs : ∑ f, ∑ n, w n * I' f n = (∑ f, ∑ n, w n * I f n) +
      red * ∑ f, ((o f).dp * (e f * T' ^ 4) - (o f).de * ∑ n, w n * I' f n) := by
    rw [Finset.mul_sum, ← Finset.sum_add_distrib]
    exact Finset.sum_congr rfl fun f _ => q f
  rw [qs]
  generalize (∑ f, ((o f).dp * (e f * T' ^ 4) - (o f).de * ∑ n, w n * I' f n)) = X at *
  generalize (∑ f, ∑ n, w n * I f n) = J0 at *
  have a : rho * T' = rho * T - prat * gm1 * X := by
    have : rho * (prat * gm1 / rho) = prat * gm1 := by field_simp
    calc rho * T' = rho * (T - prat * gm1 / rho * X) := by rw [← h1]
      _ = _ := by linear_combination -X * this
  field_simp
  linear_combination red * a

/-! ### Compton scattering -/

namespace Spec

/-- The implicit equations of Compton scattering: the radiation has the temperature `x` afterwards;
every intensity gains, and the gas loses, in proportion to the difference of the new temperatures. -/
def SolvesCompton (lorz te : ℝ) (o : Opac) (w tc I : Fin N → ℝ) (T T' x : ℝ) (I' : Fin N → ℝ) : Prop :=
  0 ≤ x ∧ x ^ 4 = ∑ n, w n * I' n ∧
  T' = T - lorz * o.prat * o.gm1 / o.rho * (4 * o.ds / te * (∑ n, w n * I n) * (T' - x)) ∧
  ∀ n, I' n = I n + tc n * o.red * (4 * o.ds / te * (∑ n, w n * I n) * (T' - x))

end Spec

section
variable {o : Opac} {w tc : Fin N → ℝ} {te : ℝ}

theorem csum1_eq : csum1 te o w tc = (∑ n, w n * tc n) * (4 * o.red * o.ds / te) := by
  unfold csum1
  rw [Finset.sum_mul]
  apply Finset.sum_congr rfl
  intro n _
  ring

theorem csum1_pos (h : Spec.Ok o w (fun _ => 1) tc) (hte : 0 < te) (hds : 0 < o.ds) :
    0 < csum1 te o w tc := by
  rw [csum1_eq]
  apply mul_pos
  · have hne : ∃ n, 0 < w n := by
      by_contra hc
      push Not at hc
      have := Finset.sum_nonpos fun n (_ : n ∈ Finset.univ) => hc n
      rw [h.one] at this
      linarith
    obtain ⟨n, hn⟩ := hne
    exact Finset.sum_pos' (fun m _ => mul_nonneg (h.wpos m) (h.tcpos m).le)
      ⟨n, Finset.mem_univ _, mul_pos hn (h.tcpos n)⟩
  · have := h.red
    positivity

end

/-- Compton scattering solves its implicit equations, if the temperatures differ and the solver does
not approximate. Heat flows from the hot to the cold and does not overshoot: the new temperatures lie
between the old ones in the same order. -/
theorem compton_solves_partial (big tiny lorz te : ℝ) (hte : 0 < te) (hl : 0 < lorz)
    (htiny : 0 ≤ tiny) (o : Opac) (w tc I : Fin N → ℝ) (h : Spec.Ok o w (fun _ => 1) tc)
    (hds : tiny < o.red * o.ds) (hJ : 0 < ∑ n, w n * I n) (T : ℝ) (hT : 0 ≤ T)
    (hne : 1 / 10 ^ 12 < |Real.sqrt (Real.sqrt (∑ n, w n * I n)) - T|)
    (hb : Real.sqrt (1 / 4 - 64 * (ccoef0 lorz te o w tc (∑ n, w n * I n) T *
      ccoef0 lorz te o w tc (∑ n, w n * I n) T * ccoef0 lorz te o w tc (∑ n, w n * I n) T) *
        ccoef1 lorz te o w tc (∑ n, w n * I n) / 27) ≤ big) :
    ∃ x, Spec.SolvesCompton lorz te o w tc I T (compton big tiny lorz te o w tc I T).1 x
        (compton big tiny lorz te o w tc I T).2 ∧
      (Real.sqrt (Real.sqrt (∑ n, w n * I n)) < T →
        Real.sqrt (Real.sqrt (∑ n, w n * I n)) < x ∧ x < (compton big tiny lorz te o w tc I T).1 ∧
          (compton big tiny lorz te o w tc I T).1 < T) ∧
      (T < Real.sqrt (Real.sqrt (∑ n, w n * I n)) →
        T < (compton big tiny lorz te o w tc I T).1 ∧ (compton big tiny lorz te o w tc I T).1 < x ∧
          x < Real.sqrt (Real.sqrt (∑ n, w n * I n))) := by
  have hd : 0 < o.ds := by
    have := lt_of_le_of_lt htiny hds
    exact (mul_pos_iff_of_pos_left h.red).1 this
  have s1 := csum1_pos h hte hd
  have s2 : 0 < csum2 lorz te o := by
    unfold csum2
    have := h.prat; have := h.gm1; have := h.rho
    positivity
  have hcomm : ∑ n, I n * w n = ∑ n, w n * I n := Finset.sum_congr rfl fun n _ => mul_comm _ _
  obtain ⟨tr, htr⟩ : ∃ tr, tr = Real.sqrt (Real.sqrt (∑ n, w n * I n)) := ⟨_, rfl⟩
  have tr0 : 0 ≤ tr := htr ▸ Real.sqrt_nonneg _
  have tr4 : tr ^ 4 = ∑ n, w n * I n := by
    have a := Real.sq_sqrt (Real.sqrt_nonneg (∑ n, w n * I n))
    have b := Real.sq_sqrt hJ.le
    rw [htr]
    calc _ = (Real.sqrt (Real.sqrt (∑ n, w n * I n)) ^ 2) ^ 2 := by ring
      _ = _ := by rw [a, b]
  have hw : ∀ c : ℝ, ∑ n, w n * (I n + c * tc n) = (∑ n, w n * I n) + c * ∑ n, w n * tc n := by
    intro c
    rw [Finset.mul_sum, ← Finset.sum_add_distrib]
    exact Finset.sum_congr rfl fun n _ => by ring
  have hs := csum1_eq (o := o) (w := w) (tc := tc) (te := te)
  rw [← htr] at hne ⊢
  unfold compton
  simp only [hcomm]
  rw [if_pos hds]
  rw [← htr, if_pos hne]
  unfold Spec.SolvesCompton
  generalize hJe : (∑ n, w n * I n) = J at *
  generalize (∑ n, w n * tc n) = W at *
  have hden : 0 < csum1 te o w tc * J := mul_pos s1 hJ
  have hk : 0 < 1 + csum2 lorz te o * J := by positivity
  have c1 : 0 < ccoef1 lorz te o w tc J := div_pos hk hden
  have c0 : ccoef0 lorz te o w tc J T ≤ 0 := by
    unfold ccoef0
    have : 0 < (1 + csum2 lorz te o * J) / csum1 te o w tc := div_pos hk s1
    rw [neg_div]
    linarith
  obtain ⟨x, e1, e2, -, e3⟩ := Quartic.root_exists_partial big _ _ c1 c0 hb
  rw [e1]
  dsimp only
  obtain ⟨D, hD⟩ : ∃ D, D = (x * x * x * x - J) / (csum1 te o w tc * J) := ⟨_, rfl⟩
  rw [← hD]
  have hDm : D * (csum1 te o w tc * J) = x ^ 4 - J := by
    rw [hD, div_mul_cancel₀ _ hden.ne']; ring
  have key : D * (1 + csum2 lorz te o * J) = T - x := by
    have : D * (1 + csum2 lorz te o * J) = ccoef1 lorz te o w tc J * x ^ 4 +
        (ccoef0 lorz te o w tc J T + T) := by
      rw [hD]
      unfold ccoef1 ccoef0
      have := s1.ne'; have := hJ.ne'
      field_simp
      ring
    linear_combination this + e3
  have hte' := hte.ne'
  have hrho := h.rho.ne'
  refine ⟨x, ⟨e2, ?_, ?_, ?_⟩, ?_, ?_⟩
  · have := hw (o.red * o.ds * 4 * J * (1 / te) * (D + x - x))
    rw [this]
    have q : o.red * o.ds * 4 * J * (1 / te) * (D + x - x) * W = D * (csum1 te o w tc * J) := by
      rw [hs]
      field_simp
      ring
    rw [q, hDm]
    ring
  · have q : lorz * o.prat * o.gm1 / o.rho * (4 * o.ds / te * J * (D + x - x)) =
        D * (csum2 lorz te o * J) := by
      unfold csum2
      field_simp
      ring
    rw [q]
    linear_combination key
  · intro n
    ring
  · intro hlt
    have hx : tr < x := by
      by_contra hc
      push Not at hc
      have p4 : x ^ 4 ≤ tr ^ 4 := pow_le_pow_left₀ e2 hc 4
      have hD0 : D ≤ 0 := by
        by_contra hp
        push Not at hp
        have := mul_pos hp hden
        linarith
      have := mul_nonpos_of_nonpos_of_nonneg hD0 hk.le
      linarith
    have p4 : tr ^ 4 < x ^ 4 := pow_lt_pow_left₀ hx tr0 (by norm_num)
    have hD0 : 0 < D := by
      by_contra hp
      push Not at hp
      have := mul_nonpos_of_nonpos_of_nonneg hp hden.le
      linarith
    have q : 0 < D * (csum2 lorz te o * J) := mul_pos hD0 (mul_pos s2 hJ)
    refine ⟨hx, by linarith, ?_⟩
    linear_combination q + key
  · intro hlt
    have hx : x < tr := by
      by_contra hc
      push Not at hc
      have p4 : tr ^ 4 ≤ x ^ 4 := pow_le_pow_left₀ tr0 hc 4
      have hD0 : 0 ≤ D := by
        by_contra hp
        push Not at hp
        have := mul_neg_of_neg_of_pos hp hden
        linarith
      have := mul_nonneg hD0 hk.le
      linarith
    have p4 : x ^ 4 < tr ^ 4 := pow_lt_pow_left₀ hx e2 (by norm_num)
    have hD0 : D < 0 := by
      by_contra hp
      push Not at hp
      have := mul_nonneg hp hden.le
      linarith
    have q : D * (csum2 lorz te o * J) < 0 := mul_neg_of_neg_of_pos hD0 (mul_pos s2 hJ)
    refine ⟨?_, by linarith, hx⟩
    linear_combination q - key

/-- Gas at rest: a solution of the equations of Compton scattering conserves the energy. -/
theorem compton_energy (te : ℝ) (o : Opac) (hred : 0 < o.red) (hg : 0 < o.gm1) (hrho : 0 < o.rho)
    (w I I' : Fin N → ℝ) (hw : ∑ n, w n = 1) (T T' x : ℝ)
    (hs : Spec.SolvesCompton 1 te o w (fun _ => 1) I T T' x I') :
    o.rho * T' / o.gm1 + o.prat / o.red * ∑ n, w n * I' n =
      o.rho * T / o.gm1 + o.prat / o.red * ∑ n, w n * I n := by
  obtain ⟨-, -, h1, h2⟩ := hs
  generalize hS : 4 * o.ds / te * (∑ n, w n * I n) * (T' - x) = S at *
  have q : ∑ n, w n * I' n = (∑ n, w n * I n) + o.red * S := by
    have : ∀ n, w n * I' n = w n * I n + w n * (o.red * S) := by
      intro n
      rw [h2 n]; ring
    rw [Finset.sum_congr rfl fun n _ => this n, Finset.sum_add_distrib, ← Finset.sum_mul, hw]
    ring
  rw [q]
  generalize (∑ n, w n * I n) = J at *
  rw [h1]
  field_simp
  ring

/-- Finding: Compton scattering has no floor. If the radiation is hotter than the gas, every direction
without light gets a negative intensity. -/
theorem compton_negative (big tiny lorz te : ℝ) (hte : 0 < te) (hl : 0 < lorz)
    (htiny : 0 ≤ tiny) (o : Opac) (w tc I : Fin N → ℝ) (h : Spec.Ok o w (fun _ => 1) tc)
    (hds : tiny < o.red * o.ds) (hJ : 0 < ∑ n, w n * I n) (T : ℝ) (hT : 0 ≤ T)
    (hne : T + 1 / 10 ^ 12 < Real.sqrt (Real.sqrt (∑ n, w n * I n)))
    (hb : Real.sqrt (1 / 4 - 64 * (ccoef0 lorz te o w tc (∑ n, w n * I n) T *
      ccoef0 lorz te o w tc (∑ n, w n * I n) T * ccoef0 lorz te o w tc (∑ n, w n * I n) T) *
        ccoef1 lorz te o w tc (∑ n, w n * I n) / 27) ≤ big) (n : Fin N) (hn : I n = 0) :
    (compton big tiny lorz te o w tc I T).2 n < 0 := by
  have hp : (0 : ℝ) < 1 / 10 ^ 12 := by norm_num
  have hd : 0 < o.ds := by
    have := lt_of_le_of_lt htiny hds
    exact (mul_pos_iff_of_pos_left h.red).1 this
  obtain ⟨x, ⟨-, -, -, e⟩, -, hx⟩ := compton_solves_partial big tiny lorz te hte hl htiny o w tc I h hds hJ
    T hT (by rw [abs_of_pos (by linarith)]; linarith) hb
  obtain ⟨-, h2, -⟩ := hx (by linarith)
  rw [e n, hn, zero_add]
  have a : 0 < tc n * o.red := mul_pos (h.tcpos n) h.red
  have b : 0 < 4 * o.ds / te * ∑ n, w n * I n := by positivity
  exact mul_neg_of_pos_of_neg a (mul_neg_of_pos_of_neg b (by linarith))

/-! ### Non-vacuity -/

/-- Two groups, the second without scattering. -/
noncomputable def twoOpac : Fin 2 → Opac := ![unitOpac, { unitOpac with ds := 0 }]

theorem twoOpac_ok : ∀ f, Spec.Ok (twoOpac f) (fun _ : Fin 2 => 1 / 2) (fun _ => 1) (fun _ => 1) := by
  intro f
  fin_cases f <;> constructor <;> simp [twoOpac, unitOpac]

/-- `multi_solves_partial`: the hypothesis on the coefficient, for a spectrum that depends on the
temperature. -/
example : ∀ s : ℝ, 0 ≤ s → (1 / 100 : ℝ) < mcoef1 twoOpac (fun _ : Fin 2 => 1 / 2) (fun _ => 1)
    (fun _ _ => 1) ![1 / (1 + s), s / (1 + s)] := by
  intro s hs
  rw [mcoef1_eq twoOpac_ok]
  have hp : 0 < 1 + s := by linarith
  unfold coef1 suma1 suma3 sumw vn twoOpac unitOpac
  norm_num [Fin.sum_univ_two]
  have e : s / (1 + s) = 1 - (1 + s)⁻¹ := by field_simp; ring
  have b : 0 < (1 + s)⁻¹ := by positivity
  have b1 : (1 + s)⁻¹ ≤ 1 := inv_le_one_of_one_le₀ (by linarith)
  rw [e]
  linarith

/-- `compton_negative`: light from one side, `J = 1`, and cold gas. -/
example : let I : Fin 2 → ℝ := ![2, 0]
    Spec.Ok unitOpac (fun _ : Fin 2 => 1 / 2) (fun _ => 1) (fun _ => 1) ∧
    (0 : ℝ) < unitOpac.red * unitOpac.ds ∧ 0 < ∑ n, (1 / 2 : ℝ) * I n ∧
    (1 / 2 : ℝ) + 1 / 10 ^ 12 < Real.sqrt (Real.sqrt (∑ n, (1 / 2 : ℝ) * I n)) ∧ I 1 = 0 := by
  refine ⟨by constructor <;> simp [unitOpac], by simp [unitOpac], ?_, ?_, by simp⟩
  · simp [Fin.sum_univ_two]
  · simp [Fin.sum_univ_two]
    norm_num

end Verif.RadSrc
