import Verif.Spec.ChemSolver
import Mathlib.Tactic.Ring
import Mathlib.Tactic.Linarith
import Mathlib.Tactic.LinearCombination
import Mathlib.Tactic.FieldSimp
import Mathlib.Tactic.NormNum
import Mathlib.Tactic.FinCases
import Mathlib.Algebra.BigOperators.Ring.Finset
import Mathlib.Algebra.BigOperators.Fin

/-!
# C87: the subcycled forward Euler solver of the chemistry module
-/

namespace Verif.Chem

open Verif.Chem.Spec Finset

variable {N : ℕ}

/-- The slope of the equations solved. -/
noncomputable def slope (P : Par N) (s : St N) : St N :=
  ⟨P.rhs s.y s.e, if P.adiab then P.edot s.y s.e else 0⟩

/-- `t` is at most the time `o`. -/
def Below (t : ℝ) : Option ℝ → Prop
  | none => True
  | some a => t ≤ a

theorem below_minO {t : ℝ} {a b : Option ℝ} : Below t (minO a b) ↔ Below t a ∧ Below t b := by
  cases a <;> cases b <;> simp [minO, Below]

theorem below_fold {t : ℝ} (g : Fin N → Option ℝ) (l : List (Fin N)) (o : Option ℝ)
    (h : Below t (l.foldl (fun t i => minO t (g i)) o)) : Below t o ∧ ∀ i ∈ l, Below t (g i) := by
  induction l generalizing o with
  | nil => exact ⟨h, fun i hi => absurd hi (by simp)⟩
  | cons a l ih =>
    obtain ⟨h1, h2⟩ := ih (minO o (g a)) h
    rw [below_minO] at h1
    refine ⟨h1.1, fun i hi => ?_⟩
    rcases List.mem_cons.mp hi with rfl | hi
    · exact h1.2
    · exact h2 i hi

theorem fold_nonneg (g : Fin N → Option ℝ) (hg : ∀ i a, g i = some a → 0 ≤ a) (l : List (Fin N))
    (o : Option ℝ) (ho : ∀ a, o = some a → 0 ≤ a) :
    ∀ a, l.foldl (fun t i => minO t (g i)) o = some a → 0 ≤ a := by
  induction l generalizing o with
  | nil => exact ho
  | cons b l ih =>
    refine ih _ fun a ha => ?_
    change minO o (g b) = some a at ha
    cases ho' : o with
    | none => rw [ho'] at ha; exact hg b a (by simpa [minO] using ha)
    | some x =>
      cases hb : g b with
      | none => rw [ho', hb] at ha; exact ho a (by rw [ho']; simpa [minO] using ha)
      | some z =>
        rw [ho', hb] at ha
        have : min x z = a := by simpa [minO] using ha
        rw [← this]
        exact le_min (ho x ho') (hg b z hb)

theorem timeOf_nonneg {x d sm a : ℝ} (h : timeOf x d sm = some a) : 0 ≤ a := by
  unfold timeOf at h
  split_ifs at h
  rw [← Option.some.inj h]; exact abs_nonneg _

theorem chemTime_nonneg (P : Par N) (s : St N) : ∀ a, chemTime P s = some a → 0 ≤ a := by
  have hf := fold_nonneg
    (fun i => timeOf (max (s.y i) P.yfloor) (P.rhs s.y s.e i) P.small)
    (fun i a h => timeOf_nonneg h) (List.finRange N) none (by simp)
  intro a ha
  unfold chemTime at ha
  dsimp only at ha
  split_ifs at ha
  · cases hx : (List.finRange N).foldl
        (fun t i => minO t (timeOf (max (s.y i) P.yfloor) (P.rhs s.y s.e i) P.small)) none with
    | none => rw [hx] at ha; exact timeOf_nonneg (by simpa [minO] using ha)
    | some x =>
      cases hb : timeOf s.e (edotOf P s) P.small with
      | none => rw [hx, hb] at ha; exact hf a (by rw [hx]; simpa [minO] using ha)
      | some z =>
        rw [hx, hb] at ha
        have : min x z = a := by simpa [minO] using ha
        rw [← this]
        exact le_min (hf x hx) (timeOf_nonneg hb)
  · exact hf a ha

theorem subStep_nonneg (P : Par N) (hc : 0 ≤ P.cfl) (s : St N) {tl : ℝ} (h : 0 ≤ tl) :
    0 ≤ subStep P s tl := by
  unfold subStep
  cases hx : chemTime P s with
  | none => exact h
  | some a => exact le_min (mul_nonneg hc (chemTime_nonneg P s a hx)) h

theorem subStep_le (P : Par N) (s : St N) (tl : ℝ) : subStep P s tl ≤ tl := by
  unfold subStep
  cases chemTime P s with
  | none => exact le_rfl
  | some a => exact min_le_right _ _

/-- A step below the time of one quantity. -/
theorem limited_one {t cfl sm x d : ℝ} (hsm : 0 < sm) (ht : 0 ≤ t) (hc : 0 ≤ cfl)
    (h : ∀ a, timeOf x d sm = some a → t ≤ cfl * a) : t * |d| ≤ cfl * |x| + sm * t := by
  by_cases h0 : d + sm = 0
  · have : d = -sm := by linarith
    rw [this, abs_neg, abs_of_pos hsm]
    have := mul_nonneg hc (abs_nonneg x)
    linarith
  · have h1 := h _ (if_neg h0)
    rw [abs_div] at h1
    have hp : 0 < |d + sm| := abs_pos.mpr h0
    have h2 : t * |d + sm| ≤ cfl * |x| := by
      have := mul_le_mul_of_nonneg_right h1 hp.le
      rwa [mul_assoc, div_mul_cancel₀ _ hp.ne'] at this
    have h3 : |d| ≤ |d + sm| + sm := by
      have := abs_sub_abs_le_abs_sub d (d + sm)
      have e : |d - (d + sm)| = sm := by
        rw [show d - (d + sm) = -sm by ring, abs_neg, abs_of_pos hsm]
      linarith
    nlinarith [mul_le_mul_of_nonneg_left h3 ht]

theorem subStep_limited (P : Par N) (hc : 0 ≤ P.cfl) (hsm : 0 < P.small) (hy : 0 ≤ P.yfloor)
    (s : St N) {tl : ℝ} (htl : 0 ≤ tl) :
    Limited (slope P) P.cfl P.yfloor P.small P.adiab s (subStep P s tl) := by
  have ht := subStep_nonneg P hc s htl
  set t := subStep P s tl with htd
  -- `t` is below `cfl` times every chemical time
  have hall : (∀ i, ∀ a, timeOf (max (s.y i) P.yfloor) (P.rhs s.y s.e i) P.small = some a →
      t ≤ P.cfl * a) ∧ (P.adiab = true → ∀ a, timeOf s.e (P.edot s.y s.e) P.small = some a →
      t ≤ P.cfl * a) := by
    have key : ∀ o a, (∀ x, chemTime P s = some x → Below x o) → (chemTime P s = none → o = none) →
        o = some a → t ≤ P.cfl * a := by
      intro o a h1 h2 h3
      cases hx : chemTime P s with
      | none => rw [h2 hx] at h3; exact absurd h3 (by simp)
      | some x =>
        have h4 := h1 x hx
        rw [h3] at h4
        have h5 : t ≤ P.cfl * x := by
          rw [htd]; unfold subStep; rw [hx]; exact min_le_left _ _
        exact h5.trans (mul_le_mul_of_nonneg_left h4 hc)
    have hbel : ∀ x : ℝ, Below x (chemTime P s) →
        (∀ i, Below x (timeOf (max (s.y i) P.yfloor) (P.rhs s.y s.e i) P.small)) ∧
        (P.adiab = true → Below x (timeOf s.e (P.edot s.y s.e) P.small)) := by
      intro x hx
      unfold chemTime at hx
      dsimp only at hx
      by_cases had : P.adiab = true
      · rw [if_pos had, below_minO] at hx
        refine ⟨fun i => (below_fold _ _ _ hx.1).2 i (List.mem_finRange i), fun _ => ?_⟩
        have := hx.2
        unfold edotOf at this
        rwa [if_pos had] at this
      · rw [if_neg had] at hx
        exact ⟨fun i => (below_fold _ _ _ hx).2 i (List.mem_finRange i), fun h => absurd h had⟩
    have hnone : ∀ o : Option ℝ, (∀ x, Below x o) → o = none := by
      intro o ho
      cases o with
      | none => rfl
      | some a => exact absurd (ho (a + 1)) (by simp [Below])
    refine ⟨fun i a => key _ a (fun x hx => (hbel x (by rw [hx]; exact le_rfl)).1 i)
      fun hx => hnone _ fun x => (hbel x (by rw [hx]; trivial)).1 i, fun had a => key _ a
      (fun x hx => (hbel x (by rw [hx]; exact le_rfl)).2 had)
      fun hx => hnone _ fun x => (hbel x (by rw [hx]; trivial)).2 had⟩
  constructor
  · intro i
    have := limited_one hsm ht hc (hall.1 i)
    rwa [abs_of_nonneg (le_max_of_le_right hy)] at this
  · intro had
    have := limited_one hsm ht hc (hall.2 had)
    have e : (slope P s).e = P.edot s.y s.e := by unfold slope; dsimp only; rw [if_pos had]
    rw [e]; exact this

/-- If the solver returns, it has followed Euler's polygon for exactly the time step, and every
piece respects the limit. -/
theorem euler_polygon (P : Par N) (hc : 0 ≤ P.cfl) (hsm : 0 < P.small) (hy : 0 ≤ P.yfloor)
    (time dt : ℝ) (hdt : 0 ≤ dt) (s s' : St N)
    (h : cycle P (time + dt) P.nmax time dt s = some s') :
    Polygon (slope P) (Limited (slope P) P.cfl P.yfloor P.small P.adiab) s dt s' := by
  have gen : ∀ m tnow tl (s : St N), 0 ≤ tl → tnow + tl = time + dt →
      cycle P (time + dt) m tnow tl s = some s' →
      Polygon (slope P) (Limited (slope P) P.cfl P.yfloor P.small P.adiab) s tl s' := by
    intro m
    induction m with
    | zero =>
      intro tnow tl s htl hs h
      rw [cycle] at h
      split_ifs at h with h1
      have : tl = 0 := by linarith
      rw [this, ← Option.some.inj h]
      exact Polygon.done s
    | succ m ih =>
      intro tnow tl s htl hs h
      rw [cycle] at h
      split_ifs at h with h1
      · dsimp only at h
        set t := subStep P s tl with ht
        have hle : t ≤ tl := subStep_le P s tl
        have e : time + dt - (tnow + t) = tl - t := by linarith
        rw [e] at h
        have hp := ih (tnow + t) (tl - t) (oneStep P s t) (by linarith) (by linarith) h
        have hstep := Polygon.step (f := slope P)
          (ok := Limited (slope P) P.cfl P.yfloor P.small P.adiab) s t (tl - t) (oneStep P s t) s'
          (subStep_nonneg P hc s htl) (subStep_limited P hc hsm hy s htl)
          (fun i => by simp only [oneStep, slope]; ring)
          (by
            simp only [oneStep, slope, edotOf]
            split_ifs
            · ring
            · ring) hp
        have e2 : t + (tl - t) = tl := by ring
        rw [e2] at hstep
        exact hstep
      · have : tl = 0 := by linarith
        rw [this, ← Option.some.inj h]
        exact Polygon.done s
  exact gen P.nmax time dt s hdt rfl h

/-- Sums of abundances that the network keeps are kept by the solver. -/
theorem invariants_kept (P : Par N) (hc : 0 ≤ P.cfl) (hsm : 0 < P.small) (hy : 0 ≤ P.yfloor)
    (w : Fin N → ℝ) (hw : ∀ y e, ∑ i, w i * P.rhs y e i = 0) (time dt : ℝ) (hdt : 0 ≤ dt)
    (s s' : St N) (h : cycle P (time + dt) P.nmax time dt s = some s') :
    ∑ i, w i * s'.y i = ∑ i, w i * s.y i := by
  have hp := euler_polygon P hc hsm hy time dt hdt s s' h
  clear h
  induction hp with
  | done s => rfl
  | step s t T s1 s2 ht hok hy' he hp ih =>
    rw [ih (by
      by_contra hT
      push Not at hT
      have gen : ∀ {T : ℝ} {a b : St N}, Polygon (slope P)
          (Limited (slope P) P.cfl P.yfloor P.small P.adiab) a T b → 0 ≤ T := by
        intro T a b hpp
        induction hpp with
        | done => exact le_rfl
        | step _ _ _ _ _ h1 _ _ _ _ h2 => linarith
      have := gen hp
      linarith)]
    have e : ∀ i, w i * s1.y i = w i * s.y i + t * (w i * P.rhs s.y s.e i) := by
      intro i
      rw [hy' i]; simp only [slope]; ring
    rw [Finset.sum_congr rfl fun i _ => e i, Finset.sum_add_distrib, ← Finset.mul_sum,
      hw, mul_zero, add_zero]

/-- Per piece, an abundance above `yfloor` loses at most the fraction `cfl`, and so does the
energy of gas that cools (and what `small` allows). -/
theorem substep_positive (P : Par N) (hc : 0 ≤ P.cfl) (hsm : 0 < P.small) (hy : 0 ≤ P.yfloor)
    (s : St N) (tl : ℝ) (htl : 0 ≤ tl) :
    (∀ i, P.yfloor ≤ s.y i → (1 - P.cfl) * s.y i - P.small * tl
      ≤ (oneStep P s (subStep P s tl)).y i) ∧
    (∀ i, s.y i ≤ P.yfloor → s.y i - P.cfl * P.yfloor - P.small * tl
      ≤ (oneStep P s (subStep P s tl)).y i) ∧
    (0 ≤ s.e → (1 - P.cfl) * s.e - P.small * tl ≤ (oneStep P s (subStep P s tl)).e) := by
  obtain ⟨h1, h2⟩ := subStep_limited P hc hsm hy s htl
  have ht := subStep_nonneg P hc s htl
  have hle := subStep_le P s tl
  set t := subStep P s tl
  have hst : P.small * t ≤ P.small * tl := mul_le_mul_of_nonneg_left hle hsm.le
  have hneg : ∀ d : ℝ, -(t * |d|) ≤ d * t := by
    intro d
    have := mul_le_mul_of_nonneg_left (neg_abs_le d) ht
    linarith
  refine ⟨fun i hi => ?_, fun i hi => ?_, fun he => ?_⟩
  · have := h1 i
    rw [max_eq_left hi] at this
    have h3 := hneg (P.rhs s.y s.e i)
    simp only [oneStep]
    simp only [slope] at this
    linarith
  · have := h1 i
    rw [max_eq_right hi] at this
    have h3 := hneg (P.rhs s.y s.e i)
    simp only [oneStep]
    simp only [slope] at this
    linarith
  · simp only [oneStep]
    by_cases had : P.adiab = true
    · rw [if_pos had]
      have := h2 had
      rw [abs_of_nonneg he] at this
      have h3 := hneg (edotOf P s)
      have e : (slope P s).e = edotOf P s := by unfold slope edotOf; rfl
      rw [e] at this
      linarith
    · rw [if_neg had]
      have h4 := mul_nonneg hc he
      have h5 := mul_nonneg hsm.le htl
      linarith

/-- The solver leaves density, momentum and magnetic energy alone, keeps the total energy of
barotropic gas and, with an energy equation, changes the internal energy only; the abundances
are those of the polygon unless they are below the floor. -/
theorem integrate_cell (P : Par N) (hc : 0 ≤ P.cfl) (hsm : 0 < P.small) (hy : 0 ≤ P.yfloor)
    (sfloor time dt : ℝ) (hdt : 0 ≤ dt) (u u' : Cell N) (hd : 0 < u.d)
    (h : integrate P sfloor time dt u = some u') :
    u'.d = u.d ∧ u'.m = u.m ∧ u'.pb = u.pb ∧ (P.adiab = false → u'.e = u.e) ∧
    ∃ s' : St N, Polygon (slope P) (Limited (slope P) P.cfl P.yfloor P.small P.adiab)
      ⟨fun i => u.s i / u.d, if P.adiab then u.e - ((u.m 0 ^ 2 + u.m 1 ^ 2 + u.m 2 ^ 2) / (2 * u.d)
        + u.pb) else 0⟩ dt s' ∧
      (∀ i, u'.s i / u.d = max (s'.y i) sfloor) ∧
      (P.adiab = true →
        u'.e - ((u.m 0 ^ 2 + u.m 1 ^ 2 + u.m 2 ^ 2) / (2 * u.d) + u.pb) = s'.e) := by
  have hm : mech u = (u.m 0 ^ 2 + u.m 1 ^ 2 + u.m 2 ^ 2) / (2 * u.d) + u.pb := by
    unfold mech; field_simp; norm_num; ring
  rw [← hm]
  unfold integrate at h
  dsimp only at h
  rw [Option.map_eq_some_iff] at h
  obtain ⟨s', h1, h2⟩ := h
  rw [← h2]
  refine ⟨rfl, rfl, rfl, fun hf => by simp [hf], s',
    euler_polygon P hc hsm hy time dt hdt _ _ h1, fun i => ?_, fun ht => by simp [ht]⟩
  dsimp only
  rw [mul_div_assoc, div_self hd.ne', mul_one]
  split_ifs with h3
  · exact (max_eq_right h3.le).symm
  · push Not at h3
    exact (max_eq_left h3).symm

/-! ### the H2 network -/

/-- The H2 network keeps hydrogen, and no abundance is driven below zero. -/
theorem h2_network (kcr kgr nH tu : ℝ) (y : Fin 2 → ℝ) (e : ℝ) :
    h2rhs kcr kgr nH tu y e 0 + 2 * h2rhs kcr kgr nH tu y e 1 = 0 ∧
    (0 ≤ kcr → 0 ≤ kgr → 0 ≤ nH → 0 ≤ tu → (∀ i, 0 ≤ y i) → ∀ i, y i = 0 →
      0 ≤ h2rhs kcr kgr nH tu y e i) := by
  constructor
  · simp only [h2rhs]; ring
  · intro h1 h2 h3 h4 h5 i hi
    have a0 := h5 0
    have a1 := h5 1
    fin_cases i
    · change y 0 = 0 at hi
      simp only [h2rhs, hi]
      have := mul_nonneg (mul_nonneg h1 a1) h4
      change 0 ≤ (-2 * (kgr * nH * 0) + 2 * (kcr * y 1)) * tu
      nlinarith
    · change y 1 = 0 at hi
      have := mul_nonneg (mul_nonneg (mul_nonneg h2 h3) a0) h4
      change 0 ≤ (kgr * nH * y 0 - kcr * y 1) * tu
      rw [hi]; nlinarith

/-- Hydrogen is conserved by the solver with the H2 network, before the floor. -/
theorem h2_hydrogen (P : Par 2) (kcr kgr nH tu : ℝ) (hP : P.rhs = h2rhs kcr kgr nH tu)
    (hc : 0 ≤ P.cfl) (hsm : 0 < P.small) (hy : 0 ≤ P.yfloor) (time dt : ℝ) (hdt : 0 ≤ dt)
    (s s' : St 2) (h : cycle P (time + dt) P.nmax time dt s = some s') :
    s'.y 0 + 2 * s'.y 1 = s.y 0 + 2 * s.y 1 := by
  have hw : ∀ y e, ∑ i, (fun i : Fin 2 => if i = 0 then (1:ℝ) else 2) i * P.rhs y e i = 0 := by
    intro y e
    rw [hP, Fin.sum_univ_two]
    have := (h2_network kcr kgr nH tu y e).1
    change (1:ℝ) * _ + 2 * _ = 0
    linarith
  have := invariants_kept P hc hsm hy _ hw time dt hdt s s' h
  rw [Fin.sum_univ_two, Fin.sum_univ_two] at this
  simpa using this

/-- The default parameters with the H2 network of isothermal gas, for the example below: molecules
are destroyed in a unit of time, grains form hardly any. -/
noncomputable def thin : Par 2 where
  cfl := 1 / 10
  yfloor := 1 / 1000
  nmax := 100000
  small := 1 / 10 ^ 35
  adiab := false
  rhs := h2rhs 1 (1 / 10 ^ 9) 1 1
  edot := fun _ _ => 0

/-- Few molecules. -/
noncomputable def few : St 2 := ⟨fun i => if i = 0 then 99998 / 100000 else 1 / 100000, 0⟩

/-- An abundance below `yfloor` can become negative: the chemical time is computed with `yfloor`
in its place. -/
theorem trace_negative : (∀ i, 0 ≤ few.y i) ∧
    ∃ s', cycle thin (0 + 5) thin.nmax 0 5 few = some s' ∧ s'.y 1 < 0 := by
  constructor
  · intro i; fin_cases i <;> simp [few]; norm_num
  · have r0 : thin.rhs few.y few.e 0 = 2 / 100000 - 199996 / 10 ^ 14 := by
      simp only [thin, few, h2rhs]; norm_num
    have r1 : thin.rhs few.y few.e 1 = 99998 / 10 ^ 14 - 1 / 100000 := by
      simp only [thin, few, h2rhs]; norm_num
    have t0 : timeOf (max (few.y 0) thin.yfloor) (thin.rhs few.y few.e 0) thin.small
        = some |99998 / 100000 / ((2 / 100000 - 199996 / 10 ^ 14) + 1 / 10 ^ 35)| := by
      rw [r0]
      have : max (few.y 0) thin.yfloor = 99998 / 100000 := by
        simp only [few, thin, if_true]; norm_num
      rw [this]
      unfold timeOf
      rw [if_neg (by simp only [thin]; norm_num)]
      rfl
    have t1 : timeOf (max (few.y 1) thin.yfloor) (thin.rhs few.y few.e 1) thin.small
        = some |1 / 1000 / ((99998 / 10 ^ 14 - 1 / 100000) + 1 / 10 ^ 35)| := by
      rw [r1]
      have : max (few.y 1) thin.yfloor = 1 / 1000 := by
        simp only [few, thin]; norm_num
      rw [this]
      unfold timeOf
      rw [if_neg (by simp only [thin]; norm_num)]
      rfl
    have hs : subStep thin few 5 = 5 := by
      have hcf : chemTime thin few = minO (minO none
          (timeOf (max (few.y 0) thin.yfloor) (thin.rhs few.y few.e 0) thin.small))
          (timeOf (max (few.y 1) thin.yfloor) (thin.rhs few.y few.e 1) thin.small) := by
        unfold chemTime
        rw [if_neg (by simp [thin])]
        rfl
      rw [t0, t1] at hcf
      unfold subStep
      rw [hcf]
      dsimp only [minO]
      refine min_eq_right ?_
      have hcfl : thin.cfl = 1 / 10 := rfl
      rw [hcfl]
      have a0 : (100 : ℝ) ≤ |99998 / 100000 / ((2 / 100000 - 199996 / 10 ^ 14) + 1 / 10 ^ 35)| := by
        rw [le_abs]; left; norm_num
      have a1 : (100 : ℝ) ≤ |1 / 1000 / ((99998 / 10 ^ 14 - 1 / 100000) + 1 / 10 ^ 35)| := by
        rw [le_abs]; right; norm_num
      have := le_min a0 a1
      linarith
    refine ⟨oneStep thin few 5, ?_, ?_⟩
    · have hn : thin.nmax = 99999 + 1 := rfl
      rw [hn, cycle, if_pos (by norm_num)]
      dsimp only
      rw [hs]
      rw [cycle, if_neg (by norm_num)]
    · simp only [oneStep]
      rw [r1]
      have : few.y 1 = 1 / 100000 := by simp [few]
      rw [this]; norm_num

/-- The hypotheses of the theorems hold for it. -/
example : 0 ≤ thin.cfl ∧ 0 < thin.small ∧ 0 ≤ thin.yfloor := by
  refine ⟨?_, ?_, ?_⟩ <;> simp [thin]

end Verif.Chem
