import Verif.Spec.SrRiemann
import Verif.Lemmas.SrHydro

/-!
# Lemmas for the relativistic Riemann solvers
-/
namespace Verif.Sr

@[simp] theorem cons_add_d (a b : Cons) : (a + b).d = a.d + b.d := rfl
@[simp] theorem cons_add_e (a b : Cons) : (a + b).e = a.e + b.e := rfl
@[simp] theorem cons_add_m1 (a b : Cons) : (a + b).m1 = a.m1 + b.m1 := rfl
@[simp] theorem cons_add_m2 (a b : Cons) : (a + b).m2 = a.m2 + b.m2 := rfl
@[simp] theorem cons_add_m3 (a b : Cons) : (a + b).m3 = a.m3 + b.m3 := rfl
@[simp] theorem cons_sub_d (a b : Cons) : (a - b).d = a.d - b.d := rfl
@[simp] theorem cons_sub_e (a b : Cons) : (a - b).e = a.e - b.e := rfl
@[simp] theorem cons_sub_m1 (a b : Cons) : (a - b).m1 = a.m1 - b.m1 := rfl
@[simp] theorem cons_sub_m2 (a b : Cons) : (a - b).m2 = a.m2 - b.m2 := rfl
@[simp] theorem cons_sub_m3 (a b : Cons) : (a - b).m3 = a.m3 - b.m3 := rfl
@[simp] theorem cons_smul_d (c : ℝ) (a : Cons) : (c • a).d = c * a.d := rfl
@[simp] theorem cons_smul_e (c : ℝ) (a : Cons) : (c • a).e = c * a.e := rfl
@[simp] theorem cons_smul_m1 (c : ℝ) (a : Cons) : (c • a).m1 = c * a.m1 := rfl
@[simp] theorem cons_smul_m2 (c : ℝ) (a : Cons) : (c • a).m2 = c * a.m2 := rfl
@[simp] theorem cons_smul_m3 (c : ℝ) (a : Cons) : (c • a).m3 = c * a.m3 := rfl

/-! ## Sound speeds -/

/-- Facts about the two speeds of a sound wave. -/
structure Wave (a v p lm lp : ℝ) : Prop where
  l1 : -1 < lm
  lmv : lm < v
  vlp : v < lp
  r1 : lp < 1
  /-- between the two speeds -/
  g : p * (1 - lm * lp) ≤ a * (lp - v) * (v - lm)

theorem wave_core {sg v r : ℝ} (hs : 0 < sg) (hv : -1 < v ∧ v < 1) (hr : r = Real.sqrt (sg * (1 + sg - v ^ 2))) :
    -1 < 1 / (1 + sg) * (v - r) ∧ 1 / (1 + sg) * (v - r) < v ∧ v < 1 / (1 + sg) * (v + r) ∧
    1 / (1 + sg) * (v + r) < 1 ∧ r ^ 2 = sg * (1 + sg - v ^ 2) ∧ 0 < r := by
  have h1 : 0 < 1 + sg := by linarith
  have hv2 : v ^ 2 < 1 := by nlinarith [hv.1, hv.2]
  have hD : 0 < sg * (1 + sg - v ^ 2) := mul_pos hs (by linarith)
  have hr2 : r ^ 2 = sg * (1 + sg - v ^ 2) := by rw [hr]; exact Real.sq_sqrt hD.le
  have hr0 : 0 < r := by rw [hr]; exact Real.sqrt_pos.mpr hD
  have hA : r < 1 + sg - v := by
    apply lt_of_pow_lt_pow_left₀ 2 (by linarith [hv.2])
    rw [hr2]
    have : 0 < (1 + sg) * (1 - v) ^ 2 := mul_pos h1 (pow_pos (by linarith [hv.2]) 2)
    nlinarith
  have hB : r < 1 + sg + v := by
    apply lt_of_pow_lt_pow_left₀ 2 (by linarith [hv.1])
    rw [hr2]
    have : 0 < (1 + sg) * (1 + v) ^ 2 := mul_pos h1 (pow_pos (by linarith [hv.1]) 2)
    nlinarith
  have hC : |sg * v| < r := by
    apply abs_lt_of_sq_lt_sq _ hr0.le
    rw [hr2]
    have : 0 < sg * (1 + sg) * (1 - v ^ 2) := by apply mul_pos (mul_pos hs h1); linarith
    nlinarith
  rw [abs_lt] at hC
  refine ⟨?_, ?_, ?_, ?_, hr2, hr0⟩ <;> rw [one_div_mul_eq_div]
  · rw [lt_div_iff₀ h1]; linarith
  · rw [div_lt_iff₀ h1]; linarith
  · rw [lt_div_iff₀ h1]; linarith
  · rw [div_lt_iff₀ h1]; linarith

/-- The parameter `sigma_s` and what is known about it. -/
structure Gasp (gamma : ℝ) (w : Prim) : Prop where
  u0 : 0 < u0 w
  v : -1 < w.u1 / Sr.u0 w ∧ w.u1 / Sr.u0 w < 1
  W : 0 < wgas gamma w
  c0 : 0 < gamma * w.p / wgas gamma w
  c1 : gamma * w.p / wgas gamma w < gamma - 1
  gv : 1 / Sr.u0 w ^ 2 ≤ 1 - (w.u1 / Sr.u0 w) ^ 2

theorem gasp (gamma : ℝ) (w : Prim) (h : Phys gamma w) : Gasp gamma w := by
  have hg1 : 0 < gamma - 1 := by linarith [h.gt]
  have hgam : 0 < gamma := by linarith [h.gt]
  have hu : 0 < u0 w := lorentz_pos _ _ _
  have husq : u0 w ^ 2 = 1 + w.u1 ^ 2 + w.u2 ^ 2 + w.u3 ^ 2 := lorentz_sq _ _ _
  have hr := h.rho
  have hp := h.p
  have hW : 0 < wgas gamma w := by unfold wgas; positivity
  have hab : |w.u1| < u0 w := by
    apply abs_lt_of_sq_lt_sq _ hu.le
    rw [husq]; nlinarith [sq_nonneg w.u2, sq_nonneg w.u3]
  rw [abs_lt] at hab
  refine ⟨hu, ⟨?_, ?_⟩, hW, by positivity, ?_, ?_⟩
  · rw [lt_div_iff₀ hu]; linarith
  · rw [div_lt_iff₀ hu]; linarith
  · rw [div_lt_iff₀ hW]
    have : (gamma - 1) * wgas gamma w = (gamma - 1) * w.rho + gamma * w.p := by
      unfold wgas; field_simp
    rw [this]
    have := mul_pos hg1 hr
    linarith
  · rw [div_pow, le_sub_iff_add_le, ← add_div, div_le_one (by positivity), husq]
    nlinarith [sq_nonneg w.u2, sq_nonneg w.u3]

theorem wave (gamma : ℝ) (w : Prim) (h : Phys gamma w) :
    Wave (wgas gamma w * u0 w ^ 2) (w.u1 / u0 w) w.p (speeds gamma w).2 (speeds gamma w).1 := by
  have G := gasp gamma w h
  have hgam : 0 < gamma := by linarith [h.gt]
  set cs := gamma * w.p / wgas gamma w with hcs
  set g2 := u0 w ^ 2 with hg2
  have hg2p : 0 < g2 := by have := G.u0; positivity
  have h1c : 0 < 1 - cs := by linarith [G.c1, h.le]
  set sg := cs / (g2 * (1 - cs)) with hsg
  have hs : 0 < sg := div_pos G.c0 (by positivity)
  have hp : w.p = cs * wgas gamma w / gamma := by
    have := G.W
    rw [hcs]; field_simp
  set v := w.u1 / u0 w with hv
  obtain ⟨a1, a2, a3, a4, a5, a6⟩ := wave_core hs G.v (r := Real.sqrt (sg * (1 + sg - v ^ 2))) rfl
  have e1 : (speeds gamma w).1 = 1 / (1 + sg) * (v + Real.sqrt (sg * (1 + sg - v ^ 2))) := rfl
  have e2 : (speeds gamma w).2 = 1 / (1 + sg) * (v - Real.sqrt (sg * (1 + sg - v ^ 2))) := rfl
  rw [e1, e2]
  refine ⟨a1, a2, a3, a4, ?_⟩
  set r := Real.sqrt (sg * (1 + sg - v ^ 2)) with hr
  have h1 : 0 < 1 + sg := by linarith
  have q1 : 1 - 1 / (1 + sg) * (v - r) * (1 / (1 + sg) * (v + r)) = (1 - v ^ 2 + 2 * sg) / (1 + sg) := by
    rw [show 1 / (1 + sg) * (v - r) * (1 / (1 + sg) * (v + r)) = (v ^ 2 - r ^ 2) / (1 + sg) ^ 2 by field_simp; ring, a5]
    field_simp
    ring
  have q2 : (1 / (1 + sg) * (v + r) - v) * (v - 1 / (1 + sg) * (v - r)) = sg * (1 - v ^ 2) / (1 + sg) := by
    rw [show (1 / (1 + sg) * (v + r) - v) * (v - 1 / (1 + sg) * (v - r)) = (r ^ 2 - (sg * v) ^ 2) / (1 + sg) ^ 2 by
      field_simp; ring, a5]
    field_simp
    ring
  rw [q1, mul_assoc, q2, hp]
  rw [← mul_div_assoc (cs * wgas gamma w / gamma), ← mul_div_assoc (wgas gamma w * g2)]
  apply div_le_div_of_nonneg_right _ h1.le
  have q3 : g2 * sg = cs / (1 - cs) := by rw [hsg]; field_simp
  rw [show wgas gamma w * g2 * (sg * (1 - v ^ 2)) = wgas gamma w * (g2 * sg) * (1 - v ^ 2) by ring, q3]
  have hvv : sg ≤ cs / (1 - cs) * (1 - v ^ 2) := by
    rw [show sg = cs / (1 - cs) * (1 / g2) by rw [hsg]; field_simp]
    exact mul_le_mul_of_nonneg_left G.gv (div_nonneg G.c0.le h1c.le)
  have hW := G.W
  have hc0 := G.c0
  have hv2 : 0 < 1 - v ^ 2 := by nlinarith [G.v.1, G.v.2]
  calc cs * wgas gamma w / gamma * (1 - v ^ 2 + 2 * sg)
      ≤ cs * wgas gamma w / gamma * (1 - v ^ 2 + 2 * (cs / (1 - cs) * (1 - v ^ 2))) :=
        mul_le_mul_of_nonneg_left (by linarith) (by positivity)
    _ = wgas gamma w * (cs / (1 - cs)) * (1 - v ^ 2) * ((1 + cs) / gamma) := by field_simp; ring
    _ ≤ wgas gamma w * (cs / (1 - cs)) * (1 - v ^ 2) := by
        refine mul_le_of_le_one_right (by positivity) ?_
        rw [div_le_one hgam]; linarith [G.c1]

theorem Wave.k1 {a v p lm lp : ℝ} (h : Wave a v p lm lp) (hp : 0 < p) : 0 < a * (v - lm) + p * lm := by
  have g0 := h.g
  have a1 := h.l1
  have a2 := h.lmv
  have a3 := h.vlp
  have a4 := h.r1
  have e : a * (lp - v) * (v - lm) - p * (1 - lm * lp)
      = (lp - v) * (a * (v - lm) + p * lm) - p * (1 - lm * v) := by ring
  have hq : 0 < p * (1 - lm * v) := mul_pos hp (by nlinarith)
  have : 0 < (lp - v) * (a * (v - lm) + p * lm) := by linarith
  exact (pos_iff_pos_of_mul_pos this).mp (by linarith)

theorem Wave.k2 {a v p lm lp : ℝ} (h : Wave a v p lm lp) (hp : 0 < p) : 0 < a * (lp - v) - p * lp := by
  have g0 := h.g
  have a1 := h.l1
  have a2 := h.lmv
  have a3 := h.vlp
  have a4 := h.r1
  have e : a * (lp - v) * (v - lm) - p * (1 - lm * lp)
      = (v - lm) * (a * (lp - v) - p * lp) - p * (1 - lp * v) := by ring
  have hq : 0 < p * (1 - lp * v) := mul_pos hp (by nlinarith)
  have : 0 < (v - lm) * (a * (lp - v) - p * lp) := by linarith
  exact (pos_iff_pos_of_mul_pos this).mp (by linarith)

/-- The inequality holds for speeds further out. -/
theorem Wave.wide {a v p lm lp ll lr : ℝ} (h : Wave a v p lm lp) (hp : 0 < p) (h1 : -1 < ll) (h2 : ll ≤ lm)
    (h3 : lp ≤ lr) (h4 : lr < 1) : Wave a v p ll lr := by
  refine ⟨h1, by linarith [h.lmv], by linarith [h.vlp], h4, ?_⟩
  have g0 := h.g
  have a1 := h.l1
  have a2 := h.lmv
  have a3 := h.vlp
  have a4 := h.r1
  -- first the right speed
  have k1 : 0 < a * (v - lm) + p * lm := by
    have e : a * (lp - v) * (v - lm) - p * (1 - lm * lp)
        = (lp - v) * (a * (v - lm) + p * lm) - p * (1 - lm * v) := by ring
    have hq : 0 < p * (1 - lm * v) := mul_pos hp (by nlinarith)
    have : 0 < (lp - v) * (a * (v - lm) + p * lm) := by linarith
    exact (pos_iff_pos_of_mul_pos this).mp (by linarith)
  have g1 : p * (1 - lm * lr) ≤ a * (lr - v) * (v - lm) := by nlinarith [mul_nonneg (sub_nonneg.mpr h3) k1.le]
  have k2 : 0 < a * (lr - v) - p * lr := by
    have e : a * (lr - v) * (v - lm) - p * (1 - lm * lr)
        = (v - lm) * (a * (lr - v) - p * lr) - p * (1 - lr * v) := by ring
    have hq : 0 < p * (1 - lr * v) := mul_pos hp (by nlinarith)
    have : 0 < (v - lm) * (a * (lr - v) - p * lr) := by linarith
    exact (pos_iff_pos_of_mul_pos this).mp (by linarith)
  nlinarith [mul_nonneg (sub_nonneg.mpr h2) k2.le]

/-- The facts for both sides of a face. -/
structure Sides (gamma : ℝ) (wl wr : Prim) (ll lr : ℝ) : Prop where
  l : Wave (wgas gamma wl * u0 wl ^ 2) (wl.u1 / u0 wl) wl.p ll lr
  r : Wave (wgas gamma wr * u0 wr ^ 2) (wr.u1 / u0 wr) wr.p ll lr

theorem sides (gamma : ℝ) (wl wr : Prim) (hl : Phys gamma wl) (hr : Phys gamma wr) :
    Sides gamma wl wr (lamL gamma wl wr) (lamR gamma wl wr) := by
  have Wl := wave gamma wl hl
  have Wr := wave gamma wr hr
  have Gl := gasp gamma wl hl
  have Gr := gasp gamma wr hr
  have u1 := Gl.u0
  have u2 := Gr.u0
  have w1 := Gl.W
  have w2 := Gr.W
  have b1 : -1 < lamL gamma wl wr := lt_min Wl.l1 Wr.l1
  have b2 : lamR gamma wl wr < 1 := max_lt Wl.r1 Wr.r1
  exact ⟨Wl.wide hl.p b1 (min_le_left _ _) (le_max_left _ _) b2,
    Wr.wide hr.p b1 (min_le_right _ _) (le_max_right _ _) b2⟩

theorem side_eq (gamma : ℝ) (w : Prim) : side gamma w = ⟨w.rho * u0 w, wgas gamma w * u0 w ^ 2 - w.p,
    wgas gamma w * u0 w ^ 2 * (w.u1 / u0 w), wgas gamma w * u0 w ^ 2 * (w.u2 / u0 w),
    wgas gamma w * u0 w ^ 2 * (w.u3 / u0 w)⟩ := by
  have h : u0 w ≠ 0 := (lorentz_pos _ _ _).ne'
  ext <;> simp only [side] <;> field_simp

theorem sideFlux_eq (gamma : ℝ) (w : Prim) : sideFlux gamma w = carried (w.u1 / u0 w) w.p (side gamma w) := by
  have h : u0 w ≠ 0 := (lorentz_pos _ _ _).ne'
  ext <;> simp only [sideFlux, carried, side] <;> field_simp
  ring

/-! ## The quadratic equation for the contact wave -/

/-- The middle root of a quadratic that is positive at `ll` and negative at `lr`, as `lamStar` computes it. -/
theorem root_core {A b m ll lr tiny : ℝ} (hlr : ll < lr) (hL : 0 < A * ll ^ 2 + b * ll + m)
    (hR : A * lr ^ 2 + b * lr + m < 0) (ht : tiny < |A|) (htp : 0 ≤ tiny)
    (hden : ∀ x, ll < x → x < lr → A * x ^ 2 + b * x + m = 0 → -b - A * x ≠ 0) :
    ∃ x, x = -2 * m / (b - Real.sqrt (b ^ 2 - 4 * A * m)) ∧ ll < x ∧ x < lr ∧ A * x ^ 2 + b * x + m = 0 := by
  have hA : A ≠ 0 := by intro h; rw [h, abs_zero] at ht; linarith
  have sqL : 4 * A * (A * ll ^ 2 + b * ll + m) = (2 * A * ll + b) ^ 2 - (b ^ 2 - 4 * A * m) := by ring
  have sqR : 4 * A * (A * lr ^ 2 + b * lr + m) = (2 * A * lr + b) ^ 2 - (b ^ 2 - 4 * A * m) := by ring
  have hD : 0 < b ^ 2 - 4 * A * m := by
    rcases lt_or_gt_of_ne hA with h | h
    · nlinarith [sq_nonneg (2 * A * ll + b), mul_pos (neg_pos.mpr h) hL]
    · nlinarith [sq_nonneg (2 * A * lr + b), mul_pos h (neg_pos.mpr hR)]
  set s := Real.sqrt (b ^ 2 - 4 * A * m) with hs
  have hs0 : 0 < s := Real.sqrt_pos.mpr hD
  have hs2 : s ^ 2 = b ^ 2 - 4 * A * m := Real.sq_sqrt hD.le
  rw [← hs2] at sqL sqR
  set x := (-b - s) / (2 * A) with hx
  have hx1 : 2 * A * x = -b - s := by rw [hx]; field_simp
  have hroot : A * x ^ 2 + b * x + m = 0 := by
    have : 4 * A * (A * x ^ 2 + b * x + m) = (2 * A * x + b) ^ 2 - s ^ 2 := by rw [hs2]; ring
    rw [hx1] at this
    have h0 : 4 * A * (A * x ^ 2 + b * x + m) = 0 := by rw [this]; ring
    rcases mul_eq_zero.mp h0 with h | h
    · exact absurd h (by simpa using hA)
    · exact h
  have hin : ll < x ∧ x < lr := by
    rcases lt_or_gt_of_ne hA with h | h
    · -- A < 0
      have k1 : (2 * A * ll + b) ^ 2 < s ^ 2 := by nlinarith [mul_pos (neg_pos.mpr h) hL]
      have k2 : s ^ 2 < (2 * A * lr + b) ^ 2 := by nlinarith [mul_pos (neg_pos.mpr h) (neg_pos.mpr hR)]
      have k3 := abs_lt_of_sq_lt_sq k1 hs0.le
      rw [abs_lt] at k3
      have k4 : 2 * A * lr + b < 2 * A * ll + b := by nlinarith
      have k5 : 2 * A * lr + b < -s := by
        by_contra hh
        push Not at hh
        have : |2 * A * lr + b| ≤ s := abs_le.mpr ⟨hh, by linarith⟩
        have := sq_le_sq' (abs_le.mp this).1 (abs_le.mp this).2
        linarith
      constructor <;> nlinarith
    · have k1 : s ^ 2 < (2 * A * ll + b) ^ 2 := by nlinarith [mul_pos h hL]
      have k2 : (2 * A * lr + b) ^ 2 < s ^ 2 := by nlinarith [mul_pos h (neg_pos.mpr hR)]
      have k3 := abs_lt_of_sq_lt_sq k2 hs0.le
      rw [abs_lt] at k3
      have k4 : 2 * A * ll + b < 2 * A * lr + b := by nlinarith
      have k5 : 2 * A * ll + b < -s := by
        by_contra hh
        push Not at hh
        have : |2 * A * ll + b| ≤ s := abs_le.mpr ⟨hh, by linarith⟩
        have := sq_le_sq' (abs_le.mp this).1 (abs_le.mp this).2
        linarith
      constructor <;> nlinarith
  refine ⟨x, ?_, hin.1, hin.2, hroot⟩
  have hd := hden x hin.1 hin.2 hroot
  have hbs : b - s = -2 * (-b - A * x) := by linarith
  rw [hbs, eq_div_iff (by simpa using hd)]
  linear_combination 2 * hroot

/-- The values of the quadratic at the outer speeds have opposite signs, and `E + P` is positive at a root. All
quantities of the two sides: `a = w u⁰²`, velocity and pressure. -/
theorem quad_core {al vl pl ar vr pr ll lr : ℝ} (hal : 0 < al) (har : 0 < ar) (hpl : 0 < pl) (hpr : 0 < pr)
    (L : Wave al vl pl ll lr) (R : Wave ar vr pr ll lr)
    {E m Fe Fm : ℝ}
    (hE : E = ((lr * (ar - pr) - ar * vr) - (ll * (al - pl) - al * vl)) / (lr - ll))
    (hm : m = ((lr * (ar * vr) - (ar * vr ^ 2 + pr)) - (ll * (al * vl) - (al * vl ^ 2 + pl))) / (lr - ll))
    (hFe : Fe = (ll * (lr * (ar - pr) - ar * vr) - lr * (ll * (al - pl) - al * vl)) / (lr - ll))
    (hFm : Fm = (ll * (lr * (ar * vr) - (ar * vr ^ 2 + pr)) - lr * (ll * (al * vl) - (al * vl ^ 2 + pl))) / (lr - ll)) :
    0 < Fe * ll ^ 2 + -(E + Fm) * ll + m ∧ Fe * lr ^ 2 + -(E + Fm) * lr + m < 0 ∧
    ∀ x, ll < x → x < lr → Fe * x ^ 2 + -(E + Fm) * x + m = 0 → 0 < E + Fm - Fe * x := by
  have d : 0 < lr - ll := by linarith [L.lmv, L.vlp]
  have l1 := L.l1
  have l2 := L.r1
  have q : 0 < 1 - ll * lr := by nlinarith [L.lmv, L.vlp]
  have q1 : 0 < 1 - ll ^ 2 := by nlinarith [L.lmv, L.vlp]
  have q2 : 0 < 1 - lr ^ 2 := by nlinarith [L.lmv, L.vlp]
  refine ⟨?_, ?_, ?_⟩
  · have e : Fe * ll ^ 2 + -(E + Fm) * ll + m = ((1 - ll ^ 2) * (ar * (lr - vr) * (vr - ll) - pr * (1 - ll * lr))
        + (1 - ll * lr) * (al * (vl - ll) ^ 2 + pl * (1 - ll ^ 2))) / (lr - ll) := by
      rw [hE, hm, hFe, hFm]; field_simp; ring
    rw [e]
    apply div_pos _ d
    have := mul_nonneg q1.le (sub_nonneg.mpr R.g)
    have h2 : 0 < al * (vl - ll) ^ 2 := mul_pos hal (pow_pos (by linarith [L.lmv]) 2)
    have := mul_pos q (add_pos h2 (mul_pos hpl q1))
    linarith
  · have e : Fe * lr ^ 2 + -(E + Fm) * lr + m = -((1 - lr ^ 2) * (al * (lr - vl) * (vl - ll) - pl * (1 - ll * lr))
        + (1 - ll * lr) * (ar * (lr - vr) ^ 2 + pr * (1 - lr ^ 2))) / (lr - ll) := by
      rw [hE, hm, hFe, hFm]; field_simp; ring
    rw [e]
    apply div_neg_of_neg_of_pos _ d
    have := mul_nonneg q2.le (sub_nonneg.mpr L.g)
    have h2 : 0 < ar * (lr - vr) ^ 2 := mul_pos har (pow_pos (by linarith [R.vlp]) 2)
    have := mul_pos q (add_pos h2 (mul_pos hpr q2))
    linarith
  · intro x hx1 hx2 hroot
    have p1 : 0 < 1 - x * ll := by nlinarith
    have p2 : 0 < 1 - x * lr := by nlinarith
    -- the pressure from the left and from the right
    have eL : (Fm - Fe * x) * (1 - x * ll) = al * (ll - vl) * (x - vl) + pl * (1 - x * ll) := by
      have : (Fm - Fe * x) * (1 - x * ll) - (al * (ll - vl) * (x - vl) + pl * (1 - x * ll))
          = ll * (Fe * x ^ 2 + -(E + Fm) * x + m) := by
        rw [hE, hm, hFe, hFm]; field_simp; ring
      rw [hroot] at this; linarith
    have eR : (Fm - Fe * x) * (1 - x * lr) = ar * (lr - vr) * (x - vr) + pr * (1 - x * lr) := by
      have : (Fm - Fe * x) * (1 - x * lr) - (ar * (lr - vr) * (x - vr) + pr * (1 - x * lr))
          = lr * (Fe * x ^ 2 + -(E + Fm) * x + m) := by
        rw [hE, hm, hFe, hFm]; field_simp; ring
      rw [hroot] at this; linarith
    have e : (E + (Fm - Fe * x)) * (lr - ll) = al * (vl - ll) * (1 - ll * vl) / (1 - x * ll)
        + ar * (lr - vr) * (1 - lr * vr) / (1 - x * lr) := by
      have e1 : Fm - Fe * x = (al * (ll - vl) * (x - vl) + pl * (1 - x * ll)) / (1 - x * ll) := by
        rw [eq_div_iff p1.ne']; exact eL
      have e2 : Fm - Fe * x = (ar * (lr - vr) * (x - vr) + pr * (1 - x * lr)) / (1 - x * lr) := by
        rw [eq_div_iff p2.ne']; exact eR
      have e3 : E * (lr - ll) = (lr * (ar - pr) - ar * vr) - (ll * (al - pl) - al * vl) := by rw [hE]; field_simp
      rw [add_mul, e3, mul_sub (Fm - Fe * x)]
      rw [show (Fm - Fe * x) * lr - (Fm - Fe * x) * ll
        = (ar * (lr - vr) * (x - vr) + pr * (1 - x * lr)) / (1 - x * lr) * lr
          - (al * (ll - vl) * (x - vl) + pl * (1 - x * ll)) / (1 - x * ll) * ll by rw [← e1, ← e2]]
      generalize h1 : 1 - x * ll = D1 at p1
      generalize h2 : 1 - x * lr = D2 at p2
      field_simp
      rw [← h1, ← h2]
      ring
    have h1 : 0 < al * (vl - ll) * (1 - ll * vl) / (1 - x * ll) := by
      apply div_pos _ p1
      apply mul_pos (mul_pos hal (by linarith [L.lmv]))
      nlinarith [L.lmv, L.vlp]
    have h2 : 0 < ar * (lr - vr) * (1 - lr * vr) / (1 - x * lr) := by
      apply div_pos _ p2
      apply mul_pos (mul_pos har (by linarith [R.vlp]))
      nlinarith [R.lmv, R.vlp]
    have h3 : 0 < (E + (Fm - Fe * x)) * (lr - ll) := by rw [e]; linarith
    have := (pos_iff_pos_of_mul_pos h3).mpr d
    linarith

end Verif.Sr
