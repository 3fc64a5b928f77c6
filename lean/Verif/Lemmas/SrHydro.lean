import Verif.Spec.SrHydro
import Mathlib.Tactic.LinearCombination
import Mathlib.Tactic.FieldSimp
import Mathlib.Tactic.Positivity
import Mathlib.Tactic.Linarith
import Mathlib.Tactic.Ring

/-!
# Lemmas for the inversion of special relativistic hydrodynamics

The map from one pressure to the next is a contraction whose fixed point is the pressure.
-/
namespace Verif.Sr

theorem eps_pos : 0 < eps := by unfold eps; positivity
theorem eps_lt : eps < 1 / 4 := by unfold eps; norm_num

theorem lorentz_sq (a b c : ℝ) : lorentz a b c ^ 2 = 1 + a ^ 2 + b ^ 2 + c ^ 2 :=
  Real.sq_sqrt (by positivity)

theorem lorentz_pos (a b c : ℝ) : 0 < lorentz a b c := Real.sqrt_pos.mpr (by positivity)

theorem lorentz_ge (a b c : ℝ) : 1 ≤ lorentz a b c := by
  unfold lorentz
  rw [show (1 : ℝ) = Real.sqrt 1 by simp]
  apply Real.sqrt_le_sqrt
  rw [Real.sqrt_one]
  linarith [sq_nonneg a, sq_nonneg b, sq_nonneg c]

theorem reCons_eq (gamma : ℝ) (w : Prim) : reCons gamma w = toCons gamma w := by
  ext <;> simp only [reCons, toCons] <;> ring

/-- `std::sqrt(1.0-v_sq)` as a function of the pressure. -/
noncomputable def rt (ee mm p : ℝ) : ℝ := Real.sqrt (1 - mm / (ee + p) ^ 2)

/-- The next pressure, without the limits. -/
noncomputable def nx (gamma dd ee mm p : ℝ) : ℝ :=
  (gamma - 1) / gamma * ((ee + p) * rt ee mm p ^ 2 - dd * rt ee mm p)

/-- The energy exceeds the momentum. -/
structure Lim (ee mm : ℝ) : Prop where
  e : 0 < ee
  m : 0 ≤ mm
  lt : mm < ee ^ 2

section
variable {gamma dd ee mm p q : ℝ} (L : Lim ee mm)
include L

theorem Lim.v (hp : 0 ≤ p) : mm / (ee + p) ^ 2 < 1 := by
  have := L.e
  rw [div_lt_one (by positivity)]
  have h : ee ^ 2 ≤ (ee + p) ^ 2 := by nlinarith
  linarith [L.lt]

theorem Lim.vs (hs : mm ≤ (1 - eps) * ee ^ 2) (hp : 0 ≤ p) : mm / (ee + p) ^ 2 ≤ 1 - eps := by
  have := L.e
  rw [div_le_iff₀ (by positivity)]
  have h : ee ^ 2 ≤ (ee + p) ^ 2 := by nlinarith
  have := eps_lt
  nlinarith

theorem Lim.rtsq (hp : 0 ≤ p) : rt ee mm p ^ 2 = 1 - mm / (ee + p) ^ 2 :=
  Real.sq_sqrt (by linarith [L.v hp])

theorem Lim.rt_pos (hp : 0 ≤ p) : 0 < rt ee mm p :=
  Real.sqrt_pos.mpr (by linarith [L.v hp])

theorem nhA_eq (hp : eps ≤ p) : nhA ee p = ee + p := max_eq_left (by linarith [L.e])

theorem nhV_eq (hs : mm ≤ (1 - eps) * ee ^ 2) (hp : eps ≤ p) : nhV ee mm p = mm / (ee + p) ^ 2 := by
  have := eps_pos
  have := L.e
  have := L.m
  unfold nhV
  rw [nhA_eq L hp, max_eq_left (by positivity), min_eq_left (L.vs hs (by linarith))]

theorem nhGamma_eq (hs : mm ≤ (1 - eps) * ee ^ 2) (hp : eps ≤ p) : nhGamma ee mm p = 1 / rt ee mm p := by
  unfold nhGamma rt
  rw [nhV_eq L hs hp, Real.sqrt_div zero_le_one, Real.sqrt_one]

theorem nhMin_eq : nhMin ee = eps := max_eq_right (by linarith [L.e, eps_pos])

theorem nhNext_eq (hs : mm ≤ (1 - eps) * ee ^ 2) (hp : eps ≤ p) :
    nhNext gamma dd ee mm p = max (nx gamma dd ee mm p) eps := by
  have h := L.rt_pos (p := p) (by linarith [eps_pos])
  unfold nhNext
  simp only
  rw [nhMin_eq L, nhGamma_eq L hs hp, nhA_eq L hp, nhV_eq L hs hp, ← L.rtsq (by linarith [eps_pos])]
  unfold nx
  congr 2
  field_simp

/-- `v` of two pressures: the product is at most 1. -/
theorem Lim.vv (hp : 0 ≤ p) (hq : 0 ≤ q) : mm / ((ee + p) * (ee + q)) ≤ 1 := by
  have := L.e
  rw [div_le_one (by positivity)]
  nlinarith [L.lt, mul_nonneg hp hq]

theorem Lim.rt_mono (hp : 0 ≤ p) (hpq : p ≤ q) : rt ee mm p ≤ rt ee mm q := by
  have := L.e
  have := L.m
  apply Real.sqrt_le_sqrt
  have : mm / (ee + q) ^ 2 ≤ mm / (ee + p) ^ 2 := by
    apply div_le_div_of_nonneg_left L.m (by positivity)
    nlinarith
  linarith

/-- `a (1 - v²)` grows by `(1 + v v')` times the change of the pressure. -/
theorem Lim.enth_diff (hp : 0 ≤ p) (hq : 0 ≤ q) :
    (ee + q) * rt ee mm q ^ 2 - (ee + p) * rt ee mm p ^ 2 = (1 + mm / ((ee + p) * (ee + q))) * (q - p) := by
  have := L.e
  rw [L.rtsq hp, L.rtsq hq]
  have h1 : ee + p ≠ 0 := by positivity
  have h2 : ee + q ≠ 0 := by positivity
  field_simp
  ring

theorem nx_upper (hg : 1 < gamma) (hd : 0 ≤ dd) (hp : 0 ≤ p) (hpq : p ≤ q) :
    nx gamma dd ee mm q - nx gamma dd ee mm p
      ≤ (gamma - 1) / gamma * (1 + mm / ((ee + p) * (ee + q))) * (q - p) := by
  have hc : 0 < (gamma - 1) / gamma := by apply div_pos <;> linarith
  have h1 := L.enth_diff hp (hp.trans hpq)
  have h2 := mul_le_mul_of_nonneg_left (L.rt_mono hp hpq) hd
  unfold nx
  rw [← mul_sub, mul_assoc, ← h1]
  apply mul_le_mul_of_nonneg_left _ hc.le
  linarith

theorem nx_upper2 (hg : 1 < gamma) (hd : 0 ≤ dd) (hp : 0 ≤ p) (hpq : p ≤ q) :
    nx gamma dd ee mm q - nx gamma dd ee mm p ≤ 2 * (gamma - 1) / gamma * (q - p) := by
  have hc : 0 < (gamma - 1) / gamma := by apply div_pos <;> linarith
  refine (nx_upper L hg hd hp hpq).trans ?_
  have := L.vv hp (hp.trans hpq)
  apply mul_le_mul_of_nonneg_right _ (by linarith)
  rw [mul_div_assoc, mul_comm (2 : ℝ)]
  apply mul_le_mul_of_nonneg_left _ hc.le
  linarith

theorem nx_pos_iff (hg : 1 < gamma) (hp : 0 ≤ p) : 0 ≤ nx gamma dd ee mm p ↔ dd ≤ (ee + p) * rt ee mm p := by
  have hc : 0 < (gamma - 1) / gamma := by apply div_pos <;> linarith
  have hr := L.rt_pos hp
  unfold nx
  rw [mul_nonneg_iff_of_pos_left hc]
  constructor
  · intro h
    by_contra hh
    push Not at hh
    nlinarith
  · intro h
    nlinarith

theorem nx_lower (hg : 1 < gamma) (hp : 0 ≤ p) (hpq : p ≤ q) (h0 : 0 ≤ nx gamma dd ee mm p) :
    (gamma - 1) / gamma * (q - p) ≤ nx gamma dd ee mm q - nx gamma dd ee mm p := by
  have hc : 0 < (gamma - 1) / gamma := by apply div_pos <;> linarith
  have hq := hp.trans hpq
  have he := L.e
  have hm := L.m
  rw [nx_pos_iff L hg hp] at h0
  have hrp := L.rt_pos hp
  have hrq := L.rt_pos hq
  have hmono := L.rt_mono hp hpq
  have h1 : dd ≤ (ee + q) * rt ee mm q := by
    refine h0.trans (mul_le_mul (by linarith) hmono hrp.le (by linarith))
  unfold nx
  rw [← mul_sub]
  apply mul_le_mul_of_nonneg_left _ hc.le
  have e1 := L.enth_diff hp hq
  -- the change of the density
  have e2 : (rt ee mm q - rt ee mm p) * (rt ee mm q + rt ee mm p) = mm * (q - p) * ((ee + p) + (ee + q))
      / ((ee + p) ^ 2 * (ee + q) ^ 2) := by
    have := L.rtsq hp
    have := L.rtsq hq
    have h1 : ee + p ≠ 0 := by positivity
    have h2 : ee + q ≠ 0 := by positivity
    have : (rt ee mm q - rt ee mm p) * (rt ee mm q + rt ee mm p) = rt ee mm q ^ 2 - rt ee mm p ^ 2 := by ring
    rw [this, L.rtsq hp, L.rtsq hq]
    field_simp
    ring
  have e3 : dd * (rt ee mm q - rt ee mm p) ≤ mm / ((ee + p) * (ee + q)) * (q - p) := by
    have hs : 0 < rt ee mm q + rt ee mm p := by linarith
    have hap : 0 < ee + p := by linarith
    have haq : 0 < ee + q := by linarith
    have h5 : dd * (1 / (ee + p) + 1 / (ee + q)) ≤ rt ee mm q + rt ee mm p := by
      have a1 : dd * (1 / (ee + p)) ≤ rt ee mm p := by
        rw [mul_one_div, div_le_iff₀ hap]; linarith
      have a2 : dd * (1 / (ee + q)) ≤ rt ee mm q := by
        rw [mul_one_div, div_le_iff₀ haq]; linarith
      linarith
    have h6 : dd * (rt ee mm q - rt ee mm p) * (rt ee mm q + rt ee mm p)
        ≤ mm / ((ee + p) * (ee + q)) * (q - p) * (rt ee mm q + rt ee mm p) := by
      have h7 : 0 ≤ mm / ((ee + p) * (ee + q)) * (q - p) :=
        mul_nonneg (by positivity) (by linarith)
      refine le_trans (le_of_eq ?_) (mul_le_mul_of_nonneg_left h5 h7)
      rw [mul_assoc, e2]
      field_simp
      ring
    exact le_of_mul_le_mul_right h6 hs
  nlinarith [e1, e3]

end

/-! ## The fixed point -/

/-- The conserved variables of `w`, with `p` the pressure: what the theorems use. -/
structure At (gamma dd ee mm p : ℝ) : Prop where
  L : Lim ee mm
  slow : mm ≤ (1 - eps) * ee ^ 2
  gt : 1 < gamma
  le : gamma ≤ 2
  hd : 0 ≤ dd
  pos : 0 < p
  fix : nx gamma dd ee mm p = p

theorem toCons_weak (gamma : ℝ) (w : Prim) (h : Phys gamma w) :
    Lim (toCons gamma w).e (msq (toCons gamma w)) ∧ 0 ≤ (toCons gamma w).d
      ∧ nx gamma (toCons gamma w).d (toCons gamma w).e (msq (toCons gamma w)) w.p = w.p
      ∧ rt (toCons gamma w).e (msq (toCons gamma w)) w.p = 1 / lorentz w.u1 w.u2 w.u3
      ∧ (toCons gamma w).e + w.p = (w.rho + gamma / (gamma - 1) * w.p) * lorentz w.u1 w.u2 w.u3 ^ 2 := by
  have hg := lorentz_pos w.u1 w.u2 w.u3
  have hge := lorentz_ge w.u1 w.u2 w.u3
  have hsq := lorentz_sq w.u1 w.u2 w.u3
  have hg1 : 0 < gamma - 1 := by linarith [h.gt]
  have hgam : 0 < gamma := by linarith [h.gt]
  have hrho := h.rho
  have hp := h.p
  have hw : 2 * w.p ≤ gamma / (gamma - 1) * w.p := by
    rw [div_mul_eq_mul_div, le_div_iff₀ hg1]; nlinarith [h.le]
  have hW : 2 * w.p < w.rho + gamma / (gamma - 1) * w.p := by linarith
  set G := lorentz w.u1 w.u2 w.u3 with hG
  set W := w.rho + gamma / (gamma - 1) * w.p with hWd
  have hW0 : 0 < W := by linarith
  have he : (toCons gamma w).e + w.p = W * G ^ 2 := by simp only [toCons]; rw [← hG, ← hWd]; ring
  have hm : msq (toCons gamma w) = (W * G) ^ 2 * (G ^ 2 - 1) := by
    rw [hsq]; simp only [msq, toCons]; rw [← hG, ← hWd]; ring
  have hd : (toCons gamma w).d = w.rho * G := rfl
  have hrt : rt (toCons gamma w).e (msq (toCons gamma w)) w.p = 1 / G := by
    unfold rt
    rw [he, hm, show 1 - (W * G) ^ 2 * (G ^ 2 - 1) / (W * G ^ 2) ^ 2 = (1 / G) ^ 2 by field_simp; ring]
    exact Real.sqrt_sq (by positivity)
  have hG2 : 1 ≤ G ^ 2 := by nlinarith
  refine ⟨⟨?_, ?_, ?_⟩, ?_, ?_, hrt, he⟩
  · have : W ≤ W * G ^ 2 := by nlinarith
    linarith
  · unfold msq; positivity
  · rw [hm, show (toCons gamma w).e = W * G ^ 2 - w.p by linarith]
    have : 0 < G ^ 2 * W * (W - 2 * w.p) := by
      apply mul_pos (by positivity); linarith
    nlinarith [sq_nonneg w.p]
  · rw [hd]; positivity
  · unfold nx
    rw [he, hrt, hd, hWd]
    field_simp
    ring

theorem toCons_fix (gamma : ℝ) (w : Prim) (h : Phys gamma w) (hs : Slow (toCons gamma w)) :
    At gamma (toCons gamma w).d (toCons gamma w).e (msq (toCons gamma w)) w.p := by
  obtain ⟨h1, h2, h3, -, -⟩ := toCons_weak gamma w h
  refine ⟨h1, ?_, h.gt, h.le, h2, h.p, h3⟩
  have := hs; unfold Slow at this; unfold eps; exact this

section
variable {gamma dd ee mm p q : ℝ}

/-- One step from any pressure `q`: the limit does not act, and the distance to the fixed point shrinks by a factor
between `(gamma-1)/gamma` and `2 (gamma-1)/gamma`. -/
theorem At.step (A : At gamma dd ee mm p) (hp : eps ≤ p) (hq : eps ≤ q) :
    nhNext gamma dd ee mm q = nx gamma dd ee mm q ∧ min p q ≤ nx gamma dd ee mm q ∧
    ∃ t, (gamma - 1) / gamma ≤ t ∧ t ≤ 2 * (gamma - 1) / gamma ∧ nx gamma dd ee mm q - p = t * (q - p) := by
  have he := eps_pos
  have hgam : 0 < gamma := by linarith [A.gt]
  have hc0 : 0 < (gamma - 1) / gamma := div_pos (by linarith [A.gt]) hgam
  have hk : 2 * (gamma - 1) / gamma ≤ 1 := by rw [div_le_one hgam]; linarith [A.le]
  have hck : (gamma - 1) / gamma ≤ 2 * (gamma - 1) / gamma := by
    rw [mul_div_assoc]; linarith
  rw [nhNext_eq A.L A.slow hq]
  rcases le_total p q with h | h
  · have h1 := nx_upper2 A.L A.gt A.hd A.pos.le h
    have h2 := nx_lower A.L A.gt A.pos.le h (by rw [A.fix]; exact A.pos.le)
    rw [A.fix] at h1 h2
    have h3 : p ≤ nx gamma dd ee mm q := by nlinarith
    refine ⟨max_eq_left (by linarith), (min_le_left _ _).trans h3, ?_⟩
    rcases h.eq_or_lt with rfl | h
    · exact ⟨_, le_rfl, hck, by rw [A.fix]; ring⟩
    · have h4 : 0 < q - p := by linarith
      refine ⟨(nx gamma dd ee mm q - p) / (q - p), ?_, ?_, ?_⟩
      · rw [le_div_iff₀ h4]; exact h2
      · rw [div_le_iff₀ h4]; exact h1
      · field_simp
  · have h1 := nx_upper2 A.L A.gt A.hd (by linarith) h
    rw [A.fix] at h1
    have h3 : q ≤ nx gamma dd ee mm q := by nlinarith
    have h2 := nx_lower A.L A.gt (by linarith) h (by linarith : 0 ≤ nx gamma dd ee mm q)
    rw [A.fix] at h2
    refine ⟨max_eq_left (by linarith), (min_le_right _ _).trans h3, ?_⟩
    rcases h.eq_or_lt with rfl | h
    · exact ⟨_, le_rfl, hck, by rw [A.fix]; ring⟩
    · have h4 : 0 < p - q := by linarith
      refine ⟨(p - nx gamma dd ee mm q) / (p - q), ?_, ?_, ?_⟩
      · rw [le_div_iff₀ h4]; exact h2
      · rw [div_le_iff₀ h4]; exact h1
      · rw [show q - p = -(p - q) by ring]; field_simp; ring

/-- Two steps: the ratio of the changes lies between the same bounds. -/
theorem At.two (A : At gamma dd ee mm p) (hp : eps ≤ p) (hq : eps ≤ q) :
    ∃ t, (gamma - 1) / gamma ≤ t ∧ t ≤ 2 * (gamma - 1) / gamma ∧
      nx gamma dd ee mm (nx gamma dd ee mm q) - nx gamma dd ee mm q = t * (nx gamma dd ee mm q - q) := by
  have he := eps_pos
  have hgam : 0 < gamma := by linarith [A.gt]
  have hck : (gamma - 1) / gamma ≤ 2 * (gamma - 1) / gamma := by
    have : 0 < (gamma - 1) / gamma := div_pos (by linarith [A.gt]) hgam
    rw [mul_div_assoc]; linarith
  obtain ⟨-, h0, -⟩ := A.step hp hq
  have hq1 : eps ≤ nx gamma dd ee mm q := (le_min hp hq).trans h0
  obtain ⟨-, h1, -⟩ := A.step hp hq1
  have hq2 : eps ≤ nx gamma dd ee mm (nx gamma dd ee mm q) := (le_min hp hq1).trans h1
  set r := nx gamma dd ee mm q with hr
  rcases lt_trichotomy q r with h | h | h
  · have h4 : 0 < r - q := by linarith
    refine ⟨(nx gamma dd ee mm r - r) / (r - q), ?_, ?_, by field_simp⟩
    · rw [le_div_iff₀ h4]
      have := nx_lower (dd := dd) A.L A.gt (by linarith) h.le (by linarith : 0 ≤ nx gamma dd ee mm q)
      rwa [← hr] at this
    · rw [div_le_iff₀ h4]
      have := nx_upper2 A.L A.gt A.hd (by linarith) h.le
      rwa [← hr] at this
  · refine ⟨_, le_rfl, hck, ?_⟩
    rw [← h, ← hr, ← h]; ring
  · have h4 : 0 < q - r := by linarith
    refine ⟨(r - nx gamma dd ee mm r) / (q - r), ?_, ?_, ?_⟩
    · rw [le_div_iff₀ h4]
      have := nx_lower (dd := dd) A.L A.gt (by linarith) h.le (by linarith : 0 ≤ nx gamma dd ee mm r)
      rwa [← hr] at this
    · rw [div_le_iff₀ h4]
      have := nx_upper2 A.L A.gt A.hd (by linarith) h.le
      rwa [← hr] at this
    · rw [show r - q = -(q - r) by ring]; field_simp; ring

end

/-! ## The loop -/

section
variable {gamma dd ee mm : ℝ}

theorem nhLoop_ind (I Q : Nat → (Nat → ℝ) → Prop)
    (h : ∀ n s, I n s → (nhBody gamma dd ee mm n s).2 = false → I (n + 1) (nhBody gamma dd ee mm n s).1)
    (hb : ∀ n s, I n s → (nhBody gamma dd ee mm n s).2 = true → Q n (nhBody gamma dd ee mm n s).1) :
    ∀ fuel n s, I n s → (nhLoop gamma dd ee mm fuel n s).2 = n + fuel ∨
      Q (nhLoop gamma dd ee mm fuel n s).2 (nhLoop gamma dd ee mm fuel n s).1 := by
  intro fuel
  induction fuel with
  | zero => intro n s _; left; rfl
  | succ f ih =>
    intro n s hI
    unfold nhLoop
    simp only
    by_cases hc : (nhBody gamma dd ee mm n s).2 = true
    · rw [if_pos hc]; right; exact hb n s hI hc
    · rw [if_neg hc]
      rcases ih (n + 1) _ (h n s hI (by simpa using hc)) with h' | h'
      · left; omega
      · right; exact h'

/-- If no pass leaves the loop, the iteration fails. -/
theorem nhLoop_stay (I : Nat → (Nat → ℝ) → Prop)
    (h : ∀ n s, I n s → (nhBody gamma dd ee mm n s).2 = false ∧ I (n + 1) (nhBody gamma dd ee mm n s).1) :
    ∀ fuel n s, I n s → (nhLoop gamma dd ee mm fuel n s).2 = n + fuel := by
  intro fuel n s hI
  rcases nhLoop_ind (gamma := gamma) (dd := dd) (ee := ee) (mm := mm) I (fun _ _ => False)
    (fun n s a _ => (h n s a).2) (fun n s a b => by rw [(h n s a).1] at b; cases b) fuel n s hI with h | h
  · exact h
  · exact h.elim

theorem nhBody_break (n : Nat) (s : Nat → ℝ) (h : (nhBody gamma dd ee mm n s).2 = true) :
    nhMin ee < (nhBody gamma dd ee mm n s).1 ((n + 1) % 3) := by
  unfold nhBody at h ⊢
  split at h
  · rename_i hn
    rw [if_pos hn]
    simp only [decide_eq_true_eq] at h
    exact h.1
  · rename_i hn
    rw [if_neg hn]
    simp only at h ⊢
    split at h
    · cases h
    · rename_i hr
      rw [if_neg hr]
      simp only [decide_eq_true_eq] at h
      have : (n + 1) % 3 = 0 := by omega
      rw [this]
      exact h.1

/-- What a successful inversion returns. -/
theorem invert_some {q : Cons} {old : ℝ} {w : Prim} {g : ℝ} (h : invert gamma q mm old = some (w, g)) :
    nhMin q.e < w.p ∧ g = nhGamma q.e mm w.p ∧ w.rho = q.d / g ∧ w.u1 = g * (q.m1 / nhA q.e w.p)
      ∧ w.u2 = g * (q.m2 / nhA q.e w.p) ∧ w.u3 = g * (q.m3 / nhA q.e w.p) := by
  unfold invert at h
  simp only at h
  split at h
  · cases h
  · rename_i hn
    simp only [Option.some.injEq, Prod.mk.injEq] at h
    obtain ⟨rfl, rfl⟩ := h
    refine ⟨?_, rfl, rfl, rfl, rfl, rfl⟩
    rcases nhLoop_ind (gamma := gamma) (dd := q.d) (ee := q.e) (mm := mm) (fun _ _ => True)
      (fun n s => nhMin q.e < s ((n + 1) % 3)) (fun _ _ _ _ => trivial) (fun n s _ hb => nhBody_break n s hb) maxIter 0
      (fun _ => max old (nhMin q.e)) trivial with h | h
    · exact absurd (by rw [h]; omega) hn
    · exact h

end

/-! ## Accuracy -/

section
variable {gamma dd ee mm p : ℝ}

/-- What the array holds at the start of pass `n`. -/
def Inv (gamma dd ee mm : ℝ) (n : Nat) (s : Nat → ℝ) : Prop :=
  eps ≤ s 0 ∧ (n % 3 ≠ 0 → s 1 = nx gamma dd ee mm (s 0)) ∧ (n % 3 = 2 → s 2 = nx gamma dd ee mm (s 1))

theorem At.ge (A : At gamma dd ee mm p) (hp : eps ≤ p) {q : ℝ} (hq : eps ≤ q) : eps ≤ nx gamma dd ee mm q := by
  obtain ⟨-, h, -⟩ := A.step hp hq
  exact (le_min hp hq).trans h

theorem body0 {n : Nat} (hn : n % 3 = 0) (s : Nat → ℝ) : nhBody gamma dd ee mm n s =
    (Function.update s 1 (nhNext gamma dd ee mm (s 0)),
      decide (nhNext gamma dd ee mm (s 0) > nhMin ee ∧ |nhNext gamma dd ee mm (s 0) - s 0| < eps)) := by
  have h1 : (n + 1) % 3 = 1 := by omega
  unfold nhBody
  rw [if_pos (by omega)]
  simp only [hn, h1, Function.update_self, ne_eq, zero_ne_one, not_false_eq_true, Function.update_of_ne]

theorem body1 {n : Nat} (hn : n % 3 = 1) (s : Nat → ℝ) : nhBody gamma dd ee mm n s =
    (Function.update s 2 (nhNext gamma dd ee mm (s 1)),
      decide (nhNext gamma dd ee mm (s 1) > nhMin ee ∧ |nhNext gamma dd ee mm (s 1) - s 1| < eps)) := by
  have h1 : (n + 1) % 3 = 2 := by omega
  unfold nhBody
  rw [if_pos (by omega)]
  simp only [hn, h1, Function.update_self, ne_eq, OfNat.one_ne_ofNat, not_false_eq_true, Function.update_of_ne]

theorem body2 {n : Nat} (hn : n % 3 = 2) (s : Nat → ℝ) : nhBody gamma dd ee mm n s =
    (let rr := (s 2 - s 1) / (s 1 - s 0)
     let a := max (s 1 + (s 2 - s 1) / (1 - rr)) (nhMin ee)
     if s 1 - s 0 = 0 ∨ |rr| > 1 - eps then (s, false)
     else (Function.update s 0 a, decide (a > nhMin ee ∧ |a - s 2| < eps))) := by
  unfold nhBody
  rw [if_neg (by omega)]
  simp only [Function.update_self, ne_eq, OfNat.ofNat_ne_zero, not_false_eq_true, Function.update_of_ne]

theorem At.inv (A : At gamma dd ee mm p) (hp : eps ≤ p) (n : Nat) (s : Nat → ℝ) (h : Inv gamma dd ee mm n s) :
    Inv gamma dd ee mm (n + 1) (nhBody gamma dd ee mm n s).1 := by
  obtain ⟨h0, h1, h2⟩ := h
  have hn : n % 3 = 0 ∨ n % 3 = 1 ∨ n % 3 = 2 := by omega
  rcases hn with hn | hn | hn
  · rw [body0 hn]
    refine ⟨by simpa using h0, fun _ => ?_, fun h => by omega⟩
    simp [(A.step hp h0).1]
  · rw [body1 hn]
    have h1' := h1 (by omega)
    refine ⟨by simpa using h0, fun _ => by simpa using h1', fun _ => ?_⟩
    have hs1 : eps ≤ s 1 := by rw [h1']; exact A.ge hp h0
    simp [(A.step hp hs1).1]
  · rw [body2 hn]
    simp only
    split
    · exact ⟨h0, fun h => absurd (by omega : (n + 1) % 3 = 0) h, fun h => by omega⟩
    · refine ⟨?_, fun h => absurd (by omega : (n + 1) % 3 = 0) h, fun h => by omega⟩
      simp [nhMin_eq A.L]

theorem tol_bound {t p q r : ℝ} (hg : 1 < gamma) (hg2 : gamma < 2) (ht : t ≤ 2 * (gamma - 1) / gamma) (ht0 : 0 ≤ t)
    (h : r - p = t * (q - p)) : |r - p| ≤ 2 * (gamma - 1) / (2 - gamma) * |r - q| := by
  have hgam : 0 < gamma := by linarith
  have ht1 : t * gamma ≤ 2 * (gamma - 1) := by rwa [le_div_iff₀ hgam] at ht
  have htl : t < 1 := by nlinarith
  have h2 : r - q = -((1 - t) * (q - p)) := by linarith
  rw [h, h2, abs_neg, abs_mul, abs_mul, abs_of_nonneg ht0, abs_of_pos (by linarith : 0 < 1 - t), ← mul_assoc]
  apply mul_le_mul_of_nonneg_right _ (abs_nonneg _)
  rw [div_mul_eq_mul_div, le_div_iff₀ (by linarith)]
  nlinarith

theorem At.acc (A : At gamma dd ee mm p) (hg2 : gamma < 2) (hp : eps ≤ p) (n : Nat) (s : Nat → ℝ)
    (h : Inv gamma dd ee mm n s) (hb : (nhBody gamma dd ee mm n s).2 = true) :
    |(nhBody gamma dd ee mm n s).1 ((n + 1) % 3) - p| ≤ (4 - gamma) / (2 - gamma) * eps := by
  obtain ⟨h0, h1, h2⟩ := h
  have he := eps_pos
  have hgam : 0 < gamma := by linarith [A.gt]
  have hc0 : 0 < (gamma - 1) / gamma := div_pos (by linarith [A.gt]) hgam
  have h2g : 0 < 2 - gamma := by linarith
  have key : ∀ q r, eps ≤ q → r = nx gamma dd ee mm q → |r - p| ≤ 2 * (gamma - 1) / (2 - gamma) * |r - q| := by
    intro q r hq hr
    obtain ⟨-, -, t, t1, t2, t3⟩ := A.step hp hq
    exact tol_bound A.gt hg2 t2 (by linarith) (by rw [hr]; exact t3)
  have small : ∀ x, x ≤ eps → 2 * (gamma - 1) / (2 - gamma) * x ≤ (4 - gamma) / (2 - gamma) * eps := by
    intro x hx
    have : 2 * (gamma - 1) / (2 - gamma) * x ≤ 2 * (gamma - 1) / (2 - gamma) * eps :=
      mul_le_mul_of_nonneg_left hx (div_nonneg (by linarith [A.gt]) h2g.le)
    refine this.trans (mul_le_mul_of_nonneg_right ?_ he.le)
    apply div_le_div_of_nonneg_right _ h2g.le
    linarith
  have hn : n % 3 = 0 ∨ n % 3 = 1 ∨ n % 3 = 2 := by omega
  rcases hn with hn | hn | hn
  · have hn1 : (n + 1) % 3 = 1 := by omega
    rw [body0 hn] at hb ⊢
    rw [(A.step hp h0).1] at hb ⊢
    simp only [decide_eq_true_eq] at hb
    rw [hn1]
    simp only [Function.update_self]
    exact (key _ _ h0 rfl).trans (small _ hb.2.le)
  · have hn1 : (n + 1) % 3 = 2 := by omega
    have hs1 : eps ≤ s 1 := by rw [h1 (by omega)]; exact A.ge hp h0
    rw [body1 hn] at hb ⊢
    rw [(A.step hp hs1).1] at hb ⊢
    simp only [decide_eq_true_eq] at hb
    rw [hn1]
    simp only [Function.update_self]
    exact (key _ _ hs1 rfl).trans (small _ hb.2.le)
  · have hn1 : (n + 1) % 3 = 0 := by omega
    have e1 := h1 (by omega)
    have e2 := h2 hn
    have hs1 : eps ≤ s 1 := by rw [e1]; exact A.ge hp h0
    rw [body2 hn] at hb ⊢
    simp only at hb ⊢
    split at hb
    · cases hb
    rename_i hr
    rw [if_neg hr]
    push Not at hr
    rw [hn1]
    simp only [Function.update_self, decide_eq_true_eq, nhMin_eq A.L] at hb ⊢
    obtain ⟨t, t1, t2, t3⟩ := A.two hp h0
    rw [← e1, ← e2] at t3
    have hrr : (s 2 - s 1) / (s 1 - s 0) = t := by rw [t3]; field_simp [hr.1]
    rw [hrr] at hb ⊢
    have htg : t * gamma ≤ 2 * (gamma - 1) := by rwa [le_div_iff₀ hgam] at t2
    have htl : t < 1 := by nlinarith
    have htc : gamma - 1 ≤ t * gamma := by rwa [div_le_iff₀ hgam] at t1
    have ht0 : 0 < t := lt_of_lt_of_le hc0 t1
    have hA : eps < s 1 + (s 2 - s 1) / (1 - t) := by
      by_contra hh
      push Not at hh
      rw [max_eq_right hh] at hb
      exact lt_irrefl _ hb.1
    rw [max_eq_left hA.le] at hb ⊢
    have hd : s 1 + (s 2 - s 1) / (1 - t) - s 2 = (s 2 - s 1) * (t / (1 - t)) := by
      have : 1 - t ≠ 0 := by linarith
      field_simp; ring
    have hpos : 0 < t / (1 - t) := div_pos ht0 (by linarith)
    have b1 : |s 2 - s 1| * (t / (1 - t)) < eps := by
      have := hb.2
      rwa [hd, abs_mul, abs_of_pos hpos] at this
    have b2 : |s 2 - s 1| ≤ eps / (gamma - 1) := by
      have hl : gamma - 1 ≤ t / (1 - t) := by
        rw [le_div_iff₀ (by linarith)]; nlinarith
      rw [le_div_iff₀ (by linarith [A.gt])]
      exact (mul_le_mul_of_nonneg_left hl (abs_nonneg _)).trans b1.le
    have b3 := key _ _ hs1 e2
    have b4 : |s 2 - p| ≤ 2 / (2 - gamma) * eps := by
      refine b3.trans ((mul_le_mul_of_nonneg_left b2 (div_nonneg (by linarith [A.gt]) h2g.le)).trans (le_of_eq ?_))
      have : gamma - 1 ≠ 0 := by linarith [A.gt]
      field_simp
    have b5 : |s 1 + (s 2 - s 1) / (1 - t) - p| ≤ |s 1 + (s 2 - s 1) / (1 - t) - s 2| + |s 2 - p| := abs_sub_le _ _ _
    have b6 : (4 - gamma) / (2 - gamma) * eps = eps + 2 / (2 - gamma) * eps := by
      field_simp; ring
    rw [b6]
    linarith [hb.2]

/-- The pressure returned by a successful inversion is close to the fixed point. -/
theorem At.found (A : At gamma dd ee mm p) (hg2 : gamma < 2) (hp : eps ≤ p) {q : Cons} (hqd : q.d = dd) (hqe : q.e = ee)
    {old : ℝ} {w : Prim} {g : ℝ} (h : invert gamma q mm old = some (w, g)) :
    |w.p - p| ≤ (4 - gamma) / (2 - gamma) * eps := by
  subst hqd hqe
  unfold invert at h
  simp only at h
  split at h
  · cases h
  rename_i hn
  simp only [Option.some.injEq, Prod.mk.injEq] at h
  obtain ⟨rfl, -⟩ := h
  rcases nhLoop_ind (gamma := gamma) (dd := q.d) (ee := q.e) (mm := mm) (Inv gamma q.d q.e mm)
    (fun n s => |s ((n + 1) % 3) - p| ≤ (4 - gamma) / (2 - gamma) * eps)
    (fun n s hI _ => A.inv hp n s hI) (fun n s hI hb => A.acc hg2 hp n s hI hb) maxIter 0
    (fun _ => max old (nhMin q.e)) ⟨by rw [nhMin_eq A.L]; exact le_max_right _ _, fun h => absurd rfl h, fun h => by omega⟩
    with h | h
  · exact absurd (by rw [h]; omega) hn
  · exact h

end

end Verif.Sr
