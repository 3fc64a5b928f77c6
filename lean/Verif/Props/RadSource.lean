import Verif.Spec.RadSource
import Verif.Props.Quartic
import Mathlib.Algebra.Order.BigOperators.Ring.Finset
import Mathlib.Tactic.FieldSimp
import Mathlib.Tactic.LinearCombination
import Mathlib.Tactic.Positivity

/-!
# C94: exchange of energy and momentum between gas and radiation
-/

namespace Verif.RadSrc

open scoped BigOperators

variable {N : ℕ}

/-! ### Lemmas -/

theorem pos_right {a b : ℝ} (h : 0 < a * b) (ha : 0 ≤ a) : 0 < b := by
  by_contra hn
  have := mul_nonpos_of_nonneg_of_nonpos ha (not_lt.1 hn)
  linarith

section
variable {o : Opac} {w im tc : Fin N → ℝ} (h : Spec.Ok o w im tc)
include h

theorem den_pos (n : Fin N) : 0 < im n + (o.red * o.dr + o.red * o.ds) * tc n := by
  have := h.impos n
  have h1 := mul_nonneg (add_nonneg (mul_nonneg h.red.le h.dr) (mul_nonneg h.red.le h.ds)) (h.tcpos n).le
  linarith

theorem vn_pos (n : Fin N) : 0 < vn o im tc n := one_div_pos.2 (den_pos h n)

theorem vn_mul (n : Fin N) : vn o im tc n * (im n + (o.red * o.dr + o.red * o.ds) * tc n) = 1 :=
  one_div_mul_cancel (den_pos h n).ne'

theorem sumw_nonneg : 0 ≤ sumw o w im tc :=
  Finset.sum_nonneg fun n _ => mul_nonneg (h.wpos n) (mul_nonneg (h.tcpos n).le (vn_pos h n).le)

theorem rest_pos : 0 < ∑ n, w n * (im n * vn o im tc n) := by
  have hw : ∃ n, 0 < w n := by
    by_contra hn
    push Not at hn
    have : ∑ n, w n ≤ 0 := Finset.sum_nonpos fun n _ => hn n
    rw [h.one] at this
    linarith
  obtain ⟨n, hn⟩ := hw
  have pos : ∀ n, 0 < im n * vn o im tc n := fun n =>
    mul_pos (lt_of_lt_of_le one_pos (h.impos n)) (vn_pos h n)
  exact Finset.sum_pos' (fun n _ => mul_nonneg (h.wpos n) (pos n).le)
    ⟨n, Finset.mem_univ n, mul_pos hn (pos n)⟩

theorem den3 : 1 - suma3 o w im tc =
    (∑ n, w n * (im n * vn o im tc n)) + sumw o w im tc * (o.red * o.de) := by
  have e : (∑ n, w n * (im n * vn o im tc n)) +
      sumw o w im tc * (o.red * o.dr + o.red * o.ds) = 1 := by
    unfold sumw
    rw [Finset.sum_mul, ← Finset.sum_add_distrib, ← h.one]
    apply Finset.sum_congr rfl
    intro n _
    linear_combination w n * vn_mul h n
  unfold suma3
  linear_combination -e

theorem den3_pos : 0 < 1 - suma3 o w im tc := by
  rw [den3 h]
  have := mul_nonneg (sumw_nonneg h) (mul_nonneg h.red.le h.de)
  linarith [rest_pos h]

theorem coef1_eq : coef1 o w im tc = o.prat * o.dp * o.gm1 / o.rho *
    ((∑ n, w n * (im n * vn o im tc n)) / (1 - suma3 o w im tc)) := by
  have hd := (den3_pos h).ne'
  have hr := h.rho.ne'
  have e := den3 h
  unfold coef1 suma1
  generalize (∑ n, w n * (im n * vn o im tc n)) = P at *
  field_simp
  linear_combination o.prat * o.gm1 * o.dp * e

theorem coef1_nonneg : 0 ≤ coef1 o w im tc := by
  rw [coef1_eq h]
  exact mul_nonneg (div_nonneg (mul_nonneg (mul_nonneg h.prat.le h.dp) h.gm1.le) h.rho.le)
    (div_nonneg (rest_pos h).le (den3_pos h).le)

theorem suma2_nonneg {I : Fin N → ℝ} (hI : ∀ n, 0 ≤ I n) : 0 ≤ suma2 o w im tc I :=
  Finset.sum_nonneg fun n _ => mul_nonneg (mul_nonneg (hI n) (h.wpos n)) (vn_pos h n).le

theorem coef0_nonpos {I : Fin N → ℝ} (hI : ∀ n, 0 ≤ I n) {T : ℝ} (hT : 0 ≤ T) :
    coef0 o w im tc I T ≤ 0 := by
  unfold coef0
  have : 0 ≤ o.de * o.prat * suma2 o w im tc I * o.gm1 / (o.rho * (1 - suma3 o w im tc)) :=
    div_nonneg (mul_nonneg (mul_nonneg (mul_nonneg h.de h.prat.le) (suma2_nonneg h hI)) h.gm1.le)
      (mul_nonneg h.rho.le (den3_pos h).le)
  linarith

theorem new_eq (I : Fin N → ℝ) (jr E : ℝ) (n : Fin N) :
    I n + ((o.red * o.ds + o.red * o.dr - o.red * o.de) * jr + o.red * o.dp * E
        - ((im n - 1) / tc n + o.red * o.ds + o.red * o.dr) * I n) * (tc n * vn o im tc n) =
      I n * vn o im tc n + ((o.red * o.ds + o.red * o.dr - o.red * o.de) * jr +
        o.red * o.dp * E) * (tc n * vn o im tc n) := by
  have ht := (h.tcpos n).ne'
  have e : (im n - 1) / tc n * tc n = im n - 1 := div_mul_cancel₀ _ ht
  linear_combination -(I n * vn o im tc n) * e - I n * vn_mul h n

/-- From a root of the polynomial to a solution of the equations. -/
theorem root_solves {I : Fin N → ℝ} {T T' : ℝ}
    (hr : coef1 o w im tc * T' ^ 4 + T' + coef0 o w im tc I T = 0) :
    let jr := (suma1 o w im tc * (T' * T' * T' * T') + suma2 o w im tc I) / (1 - suma3 o w im tc)
    Spec.Solves o w im tc I T T' (fun n =>
      I n + ((o.red * o.ds + o.red * o.dr - o.red * o.de) * jr + o.red * o.dp * (T' * T' * T' * T')
        - ((im n - 1) / tc n + o.red * o.ds + o.red * o.dr) * I n) * (tc n * vn o im tc n)) := by
  intro jr
  have hd := (den3_pos h).ne'
  have hrho := h.rho.ne'
  have hj : jr * (1 - suma3 o w im tc) =
      suma1 o w im tc * (T' * T' * T' * T') + suma2 o w im tc I := div_mul_cancel₀ _ hd
  -- the new intensity
  have hn : ∀ n, I n + ((o.red * o.ds + o.red * o.dr - o.red * o.de) * jr +
      o.red * o.dp * (T' * T' * T' * T')
        - ((im n - 1) / tc n + o.red * o.ds + o.red * o.dr) * I n) * (tc n * vn o im tc n) =
      I n * vn o im tc n + ((o.red * o.ds + o.red * o.dr - o.red * o.de) * jr +
        o.red * o.dp * (T' * T' * T' * T')) * (tc n * vn o im tc n) :=
    fun n => new_eq h I jr _ n
  have hsum : ∑ n, w n * (I n + ((o.red * o.ds + o.red * o.dr - o.red * o.de) * jr +
      o.red * o.dp * (T' * T' * T' * T')
        - ((im n - 1) / tc n + o.red * o.ds + o.red * o.dr) * I n) * (tc n * vn o im tc n)) = jr := by
    have : ∀ n, w n * (I n + ((o.red * o.ds + o.red * o.dr - o.red * o.de) * jr +
        o.red * o.dp * (T' * T' * T' * T')
        - ((im n - 1) / tc n + o.red * o.ds + o.red * o.dr) * I n) * (tc n * vn o im tc n)) =
        I n * w n * vn o im tc n + w n * (tc n * vn o im tc n) *
          ((o.red * o.ds + o.red * o.dr - o.red * o.de) * jr + o.red * o.dp * (T' * T' * T' * T')) := by
      intro n
      rw [hn n]; ring
    rw [Finset.sum_congr rfl fun n _ => this n, Finset.sum_add_distrib, ← Finset.sum_mul]
    change suma2 o w im tc I + sumw o w im tc * _ = jr
    unfold suma3 suma1 at hj
    linear_combination -hj
  refine ⟨?_, ?_⟩
  · rw [hsum]
    have e : coef1 o w im tc * T' ^ 4 + coef0 o w im tc I T =
        -T + o.prat * o.gm1 / o.rho * (o.dp * T' ^ 4 - o.de * jr) := by
      unfold coef1 coef0
      have hjr : jr = (suma1 o w im tc * T' ^ 4 + suma2 o w im tc I) / (1 - suma3 o w im tc) := by
        rw [eq_div_iff hd, hj]; ring
      rw [hjr]
      field_simp
      ring
    linear_combination hr - e
  · intro n
    rw [hsum]
    beta_reduce
    rw [hn n]
    linear_combination (I n + (tc n * o.red) * ((o.ds + o.dr - o.de) * jr + o.dp * T' ^ 4)) *
      vn_mul h n

end

/-! ### Theorems -/

/-- The exchange solves the implicit equations; the temperature is not negative, and the intensities
are positive (up to the floor). The hypotheses `hc` and `hb` exclude the cases in which the code
neglects a coefficient or takes the approximation of the solver. -/
theorem absorb_solves_partial (big tiny : ℝ) (htiny : 0 ≤ tiny) (o : Opac) (w im tc I : Fin N → ℝ)
    (h : Spec.Ok o w im tc) (hI : ∀ n, 0 ≤ I n) (T : ℝ) (hT : 0 ≤ T)
    (hc : o.dp = 0 ∨ tiny < coef1 o w im tc)
    (hb : Real.sqrt (1 / 4 - 64 * (coef0 o w im tc I T * coef0 o w im tc I T *
      coef0 o w im tc I T) * coef1 o w im tc / 27) ≤ big) :
    ∃ T' I', absorb big tiny o w im tc I T = (T', fun n => max (I' n) tiny) ∧
      Spec.Solves o w im tc I T T' I' ∧ 0 ≤ T' ∧
      (o.de ≤ o.ds + o.dr → ∀ n, 0 ≤ I' n) := by
  have h0 := coef0_nonpos h hI hT
  have h1 := coef1_nonneg h
  -- the root
  obtain ⟨T', e, pos, root⟩ : ∃ T', (open Classical in
      (if |coef1 o w im tc| > tiny then
        Quartic.polyRoot big (coef1 o w im tc) (coef0 o w im tc I T)
        else some (-coef0 o w im tc I T)) = some T') ∧ 0 ≤ T' ∧
      coef1 o w im tc * T' ^ 4 + T' + coef0 o w im tc I T = 0 := by
    rcases hc with hc | hc
    · have z : coef1 o w im tc = 0 := by rw [coef1_eq h, hc]; ring
      refine ⟨-coef0 o w im tc I T, ?_, by linarith, ?_⟩
      · rw [if_neg]
        rw [z, abs_zero]
        exact not_lt.2 htiny
      · rw [z]; ring
    · obtain ⟨x, e1, e2, -, e3⟩ := Quartic.root_exists_partial big _ _
        (lt_of_le_of_lt htiny hc) h0 hb
      refine ⟨x, ?_, e2, e3⟩
      rw [if_pos (by rw [abs_of_nonneg h1]; exact hc)]
      exact e1
  refine ⟨T', _, ?_, root_solves h root, pos, ?_⟩
  · unfold absorb
    simp only
    rw [e]
  · intro hd n
    have hj : 0 ≤ (suma1 o w im tc * (T' * T' * T' * T') + suma2 o w im tc I) /
        (1 - suma3 o w im tc) := by
      apply div_nonneg _ (den3_pos h).le
      apply add_nonneg _ (suma2_nonneg h hI)
      unfold suma1
      have := sumw_nonneg h
      have := h.red
      have := h.dp
      positivity
    rw [new_eq h I _ _ n]
    have v0 := (vn_pos h n).le
    have t0 := (h.tcpos n).le
    have a0 : 0 ≤ o.red * o.ds + o.red * o.dr - o.red * o.de := by
      have := mul_nonneg h.red.le (sub_nonneg.2 hd)
      linarith
    have p0 := mul_nonneg h.red.le h.dp
    exact add_nonneg (mul_nonneg (hI n) v0)
      (mul_nonneg (add_nonneg (mul_nonneg a0 hj) (mul_nonneg p0 (by positivity)))
        (mul_nonneg t0 v0))

/-- Gas at rest, explicit transport: the energy of gas and radiation is conserved by every solution
of the equations (with the reduced speed of light, weighted accordingly). -/
theorem energy_conserved (o : Opac) (w I I' : Fin N → ℝ) (T T' : ℝ)
    (h : Spec.Ok o w (fun _ => 1) (fun _ => 1))
    (hs : Spec.Solves o w (fun _ => 1) (fun _ => 1) I T T' I') :
    o.rho * T' / o.gm1 + o.prat / o.red * ∑ n, w n * I' n =
      o.rho * T / o.gm1 + o.prat / o.red * ∑ n, w n * I n := by
  obtain ⟨h1, h2⟩ := hs
  have e : ∑ n, w n * I' n = (∑ n, w n * I n) + o.red * (o.dp * T' ^ 4 - o.de * ∑ n, w n * I' n) := by
    have q : ∀ n, w n * I' n = w n * I n + w n * (o.red * ((o.ds + o.dr - o.de) * (∑ n, w n * I' n) +
        o.dp * T' ^ 4)) - o.red * (o.ds + o.dr) * (w n * I' n) := by
      intro n
      linear_combination w n * h2 n
    have := Finset.sum_congr rfl fun n (_ : n ∈ Finset.univ) => q n
    rw [Finset.sum_sub_distrib, Finset.sum_add_distrib, ← Finset.sum_mul, ← Finset.mul_sum,
      h.one] at this
    generalize (∑ n, w n * I' n) = J at *
    linear_combination this
  have hr := h.red.ne'
  have hg := h.gm1.ne'
  have hp := h.rho.ne'
  generalize (∑ n, w n * I' n) = J at *
  generalize (∑ n, w n * I n) = J0 at *
  have h1' : o.rho * T' = o.rho * T - o.prat * o.gm1 * (o.dp * T' ^ 4 - o.de * J) := by
    have : o.rho * (o.prat * o.gm1 / o.rho) = o.prat * o.gm1 := by field_simp
    calc o.rho * T' = o.rho * (T - o.prat * o.gm1 / o.rho * (o.dp * T' ^ 4 - o.de * J)) := by
          rw [← h1]
      _ = _ := by linear_combination -(o.dp * T' ^ 4 - o.de * J) * this
  field_simp
  linear_combination o.red * h1' + o.gm1 * o.prat * e

/-- Equilibrium stays: isotropic intensity with the temperature of the gas, explicit transport, equal
means of the opacity. The solution is then the old state, and the only one. -/
theorem equilibrium_kept (o : Opac) (w tc : Fin N → ℝ) (T : ℝ)
    (h : Spec.Ok o w (fun _ => 1) tc) (hT : 0 ≤ T) (hp : o.de = o.dp) (T' : ℝ) (I' : Fin N → ℝ)
    (hT' : 0 ≤ T') (hs : Spec.Solves o w (fun _ => 1) tc (fun _ => T ^ 4) T T' I') :
    T' = T ∧ ∀ n, I' n = T ^ 4 := by
  obtain ⟨h1, h2⟩ := hs
  obtain ⟨J, hJ⟩ : ∃ J, J = ∑ n, w n * I' n := ⟨_, rfl⟩
  rw [← hJ, hp] at h1
  rw [← hJ, hp] at h2
  -- every intensity is a mean of the old one and `A`
  have key : ∀ n, (I' n - T ^ 4) = tc n * vn o (fun _ => 1) tc n * o.red *
      ((o.ds + o.dr) * (J - T ^ 4) + o.dp * (T' ^ 4 - J)) := by
    intro n
    have e := vn_mul h n
    linear_combination vn o (fun _ => 1) tc n * h2 n + (T ^ 4 - I' n) * e
  have hsum : J - T ^ 4 = sumw o w (fun _ => 1) tc * o.red *
      ((o.ds + o.dr) * (J - T ^ 4) + o.dp * (T' ^ 4 - J)) := by
    have a : J - T ^ 4 = ∑ n, w n * (I' n - T ^ 4) := by
      simp only [mul_sub]
      rw [Finset.sum_sub_distrib, ← Finset.sum_mul, h.one, ← hJ, one_mul]
    have b : sumw o w (fun _ => 1) tc * o.red *
        ((o.ds + o.dr) * (J - T ^ 4) + o.dp * (T' ^ 4 - J)) =
        ∑ n, w n * (tc n * vn o (fun _ => 1) tc n * o.red *
          ((o.ds + o.dr) * (J - T ^ 4) + o.dp * (T' ^ 4 - J))) := by
      unfold sumw
      rw [Finset.sum_mul, Finset.sum_mul]
      apply Finset.sum_congr rfl
      intro n _
      ring
    rw [b]
    conv_lhs => rw [a]
    exact Finset.sum_congr rfl fun n _ => by rw [key n]
  have hk : 0 < o.prat * o.gm1 / o.rho := div_pos (mul_pos h.prat h.gm1) h.rho
  obtain ⟨k, hk'⟩ : ∃ k, k = o.prat * o.gm1 / o.rho := ⟨_, rfl⟩
  rw [← hk'] at h1 hk
  have d3 := den3 h
  have rp := rest_pos h
  have s0 := sumw_nonneg h
  unfold suma3 at d3
  rw [hp] at d3
  generalize (∑ n, w n * (1 * vn o (fun _ => 1) tc n)) = P at *
  generalize sumw o w (fun _ => 1) tc = S at *
  have hr := h.red
  have hd := h.dp
  -- `P (J - T⁴) = S red dp (T'⁴ - J)`
  have e1 : P * (J - T ^ 4) = S * (o.red * o.dp) * (T' ^ 4 - J) := by
    linear_combination hsum - (J - T ^ 4) * d3
  have q0 : 0 ≤ S * (o.red * o.dp) := mul_nonneg s0 (mul_nonneg hr.le hd)
  have tt : T' = T := by
    rcases lt_trichotomy T' T with l | l | l
    · -- colder gas: it must have gained energy
      exfalso
      have : T' ^ 4 < T ^ 4 := pow_lt_pow_left₀ l hT' (by norm_num)
      have g : 0 < o.dp * (T' ^ 4 - J) := by
        have : 0 < k * (o.dp * T' ^ 4 - o.dp * J) := by linarith
        have := pos_right this hk.le
        linarith
      have g2 : 0 < T' ^ 4 - J := pos_right g hd
      have : 0 ≤ S * (o.red * o.dp) * (T' ^ 4 - J) := mul_nonneg q0 g2.le
      have : 0 ≤ J - T ^ 4 := by
        by_contra hn
        have := mul_neg_of_pos_of_neg rp (not_le.1 hn)
        linarith
      linarith
    · exact l
    · exfalso
      have : T ^ 4 < T' ^ 4 := pow_lt_pow_left₀ l hT (by norm_num)
      have g : o.dp * (J - T' ^ 4) > 0 := by
        have : 0 < k * (o.dp * J - o.dp * T' ^ 4) := by linarith
        have := pos_right this hk.le
        linarith
      have g2 : 0 < J - T' ^ 4 := pos_right g hd
      have : 0 ≤ S * (o.red * o.dp) * (J - T' ^ 4) := mul_nonneg q0 g2.le
      have : J - T ^ 4 ≤ 0 := by
        by_contra hn
        have := mul_pos rp (not_le.1 hn)
        linarith
      linarith
  subst tt
  have jj : J = T' ^ 4 := by
    have : (P + S * (o.red * o.dp)) * (J - T' ^ 4) = 0 := by linear_combination e1
    rcases mul_eq_zero.1 this with z | z
    · linarith
    · linarith
  refine ⟨rfl, fun n => ?_⟩
  have := key n
  rw [jj] at this
  linarith [this, sub_self (T' ^ 4)]

/-! ### Source terms of the gas -/

/-- The momentum of gas and radiation is conserved, as long as the limit of the velocity is not
reached. -/
theorem momentum_conserved {F : ℕ} (prat crat redc vmax gm1 pb Tnew Tceil : ℝ) (flag2 : Bool)
    (wmu : Fin N → ℝ) (mu : Fin 3 → Fin N → ℝ) (i0 i1 : Fin F → Fin N → ℝ) (u : Gas)
    (hv : Real.sqrt (∑ a, ((u.m a + (radSource prat crat redc wmu mu i0 i1).2 a) / u.d) ^ 2) ≤
      vmax * crat) (hc : 0 < crat) (a : Fin 3) :
    (addSource crat vmax gm1 pb Tnew Tceil flag2 (radSource prat crat redc wmu mu i0 i1) u).m a +
      prat / redc * ∑ f, ∑ n, i1 f n * wmu n * mu a n =
    u.m a + prat / redc * ∑ f, ∑ n, i0 f n * wmu n * mu a n := by
  have hm : newMom crat vmax (radSource prat crat redc wmu mu i0 i1) u =
      fun a => u.m a + (radSource prat crat redc wmu mu i0 i1).2 a := by
    unfold newMom
    simp only
    rw [if_neg]
    rw [not_lt, mul_one_div, div_le_iff₀ hc]
    refine le_trans (le_of_eq ?_) hv
    congr 1
    rw [Fin.sum_univ_three]
    ring
  have e : (addSource crat vmax gm1 pb Tnew Tceil flag2
      (radSource prat crat redc wmu mu i0 i1) u).m =
      newMom crat vmax (radSource prat crat redc wmu mu i0 i1) u := by
    unfold addSource
    simp only
    split_ifs <;> rfl
  rw [e, hm]
  unfold radSource
  simp only [Finset.sum_sub_distrib]
  ring

/-- The energy of gas and radiation is conserved, unless the internal energy would become negative or
the temperature would exceed the ceiling. -/
theorem source_energy {F : ℕ} (prat crat redc vmax gm1 pb Tnew Tceil : ℝ) (hc : 0 < crat)
    (hr : 0 < redc) (wmu : Fin N → ℝ) (mu : Fin 3 → Fin N → ℝ) (i0 i1 : Fin F → Fin N → ℝ) (u u' : Gas)
    (hu : u' = addSource crat vmax gm1 pb Tnew Tceil false (radSource prat crat redc wmu mu i0 i1) u)
    (h0 : 0 ≤ u.e + (radSource prat crat redc wmu mu i0 i1).1 - ekin u'.m u.d - pb)
    (h1 : (u.e + (radSource prat crat redc wmu mu i0 i1).1 - ekin u'.m u.d - pb) * gm1 / u.d ≤
      Tceil) :
    u'.e + prat * (crat / redc) * ∑ f, ∑ n, i1 f n * wmu n =
      u.e + prat * (crat / redc) * ∑ f, ∑ n, i0 f n * wmu n := by
  have em : u'.m = newMom crat vmax (radSource prat crat redc wmu mu i0 i1) u := by
    rw [hu]
    unfold addSource
    simp only
    split_ifs <;> rfl
  rw [em] at h0 h1
  have ee : u'.e = u.e + (radSource prat crat redc wmu mu i0 i1).1 := by
    rw [hu]
    unfold addSource
    simp only [Bool.false_eq_true, if_false]
    rw [if_neg (not_lt.2 h0), if_neg (not_lt.2 h1)]
  rw [ee]
  unfold radSource
  simp only [Finset.sum_sub_distrib]
  have h1 := hc.ne'
  have h2 := hr.ne'
  field_simp
  ring

/-- The gas never moves faster than `vmax` times the speed of light. -/
theorem velocity_limited (crat vmax gm1 pb Tnew Tceil : ℝ) (hc : 0 < crat) (hv : 0 ≤ vmax)
    (flag2 : Bool) (src : ℝ × (Fin 3 → ℝ)) (u : Gas) :
    Real.sqrt (∑ a, ((addSource crat vmax gm1 pb Tnew Tceil flag2 src u).m a / u.d) ^ 2) ≤
      vmax * crat := by
  have e : (addSource crat vmax gm1 pb Tnew Tceil flag2 src u).m = newMom crat vmax src u := by
    unfold addSource
    simp only
    split_ifs <;> rfl
  rw [e]
  unfold newMom
  simp only
  obtain ⟨v, hvdef⟩ : ∃ v, v = Real.sqrt ((u.m 0 + src.2 0) / u.d * ((u.m 0 + src.2 0) / u.d) +
      (u.m 1 + src.2 1) / u.d * ((u.m 1 + src.2 1) / u.d) +
      (u.m 2 + src.2 2) / u.d * ((u.m 2 + src.2 2) / u.d)) := ⟨_, rfl⟩
  rw [← hvdef]
  have h0 : 0 ≤ v := by rw [hvdef]; exact Real.sqrt_nonneg _
  have hsq : v ^ 2 = ∑ a, ((u.m a + src.2 a) / u.d) ^ 2 := by
    rw [hvdef, Real.sq_sqrt (add_nonneg (add_nonneg (mul_self_nonneg _) (mul_self_nonneg _))
      (mul_self_nonneg _)), Fin.sum_univ_three]
    ring
  by_cases hif : v * (1 / crat) > vmax
  · simp only [if_pos hif]
    have hvp : 0 < v := by
      have : 0 < v * (1 / crat) := lt_of_le_of_lt hv hif
      rw [mul_comm] at this
      exact pos_right this (by positivity)
    have : ∑ a, ((u.m a + src.2 a) * (vmax / (v * (1 / crat))) / u.d) ^ 2 = (vmax * crat) ^ 2 := by
      have q : ∀ a, ((u.m a + src.2 a) * (vmax / (v * (1 / crat))) / u.d) ^ 2 =
          ((u.m a + src.2 a) / u.d) ^ 2 * (vmax / (v * (1 / crat))) ^ 2 := by intro a; ring
      rw [Finset.sum_congr rfl fun a _ => q a, ← Finset.sum_mul, ← hsq]
      have h1 := hvp.ne'
      have h2 := hc.ne'
      field_simp
    rw [this, Real.sqrt_sq (mul_nonneg hv hc.le)]
  · simp only [if_neg hif]
    rw [← hsq, Real.sqrt_sq h0]
    have := not_lt.1 hif
    rwa [mul_one_div, div_le_iff₀ hc] at this

/-- The internal energy of the gas is not negative afterwards. -/
theorem internal_nonneg (crat vmax gm1 pb Tnew Tceil : ℝ) (hg : 0 < gm1) (hT : 0 ≤ Tnew)
    (hC : 0 ≤ Tceil) (flag2 : Bool) (src : ℝ × (Fin 3 → ℝ)) (u : Gas) (hd : 0 < u.d) :
    let u' := addSource crat vmax gm1 pb Tnew Tceil flag2 src u
    0 ≤ u'.e - ekin u'.m u'.d - pb := by
  intro u'
  have a : 0 ≤ Tnew * u.d / gm1 := by positivity
  have b : 0 ≤ Tceil * u.d / gm1 := by positivity
  change 0 ≤ (addSource crat vmax gm1 pb Tnew Tceil flag2 src u).e -
    ekin (addSource crat vmax gm1 pb Tnew Tceil flag2 src u).m
      (addSource crat vmax gm1 pb Tnew Tceil flag2 src u).d - pb
  unfold addSource
  simp only
  split_ifs with h1 h2 h3
  · linarith
  · linarith
  · linarith
  · exact not_lt.1 h2

/-- Gas at rest: the temperature from the conserved energy is the one of the implicit equation. -/
theorem temperature_consistent (o : Opac) (crat redc : ℝ) (hc : 0 < crat) (hr : 0 < redc)
    (hred : o.red = redc / crat) (wmu I I' : Fin N → ℝ) (mu : Fin 3 → Fin N → ℝ) (T T' : ℝ)
    (h : Spec.Ok o wmu (fun _ => 1) (fun _ => 1))
    (hs : Spec.Solves o wmu (fun _ => 1) (fun _ => 1) I T T' I') :
    o.rho * T / o.gm1 + (radSource o.prat crat redc wmu mu (fun _ : Fin 1 => I) (fun _ => I')).1 =
      o.rho * T' / o.gm1 := by
  have e := energy_conserved o wmu I I' T T' h hs
  unfold radSource
  simp only [Finset.univ_unique, Finset.sum_singleton, mul_comm (I' _), mul_comm (I _)]
  generalize (∑ n, wmu n * I' n) = J at *
  generalize (∑ n, wmu n * I n) = J0 at *
  rw [hred] at e
  have h1 := hc.ne'
  have h2 := hr.ne'
  have q : o.prat / (redc / crat) = o.prat * (1 / redc / (1 / crat)) := by field_simp
  rw [q] at e
  linear_combination -e

/-! ### Concrete cases -/

/-- Two directions, unit opacities. -/
def unitOpac : Opac := ⟨1, 1, 1, 1, 1, 1, 1, 1⟩

theorem unit_ok : Spec.Ok unitOpac (fun _ : Fin 2 => 1 / 2) (fun _ => 1) (fun _ => 1) := by
  constructor <;> norm_num [unitOpac]

/-- The hypotheses of `absorb_solves_partial`, with intensities 0 and 6 and temperature 1. -/
example : unitOpac.dp = 0 ∨ (1 / 100 : ℝ) <
    coef1 unitOpac (fun _ : Fin 2 => 1 / 2) (fun _ => 1) (fun _ => 1) := by
  right
  unfold coef1 suma1 suma3 sumw vn unitOpac
  norm_num

/-- `equilibrium_kept` and `energy_conserved`: the equilibrium is a solution. -/
example : Spec.Solves unitOpac (fun _ : Fin 2 => 1 / 2) (fun _ => 1) (fun _ => 1)
    (fun _ => 2 ^ 4) 2 2 (fun _ => 2 ^ 4) := by
  unfold Spec.Solves unitOpac
  norm_num

end Verif.RadSrc
