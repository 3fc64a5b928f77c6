import Verif.Lemmas.SrRiemann
import Verif.Props.SrHydro

/-!
# Relativistic Riemann solvers
-/
namespace Verif.Sr

theorem u0_of {w : Prim} {U : Fin 4 → ℝ} (hU : FourVel w U) : u0 w = U 0 := by
  have hu := hU.unit
  simp only [Fin.sum_univ_four, eta] at hu
  simp [Fin.ext_iff] at hu
  unfold u0 lorentz
  rw [← hU.x, ← hU.y, ← hU.z, show 1 + U 1 ^ 2 + U 2 ^ 2 + U 3 ^ 2 = U 0 ^ 2 by linarith]
  exact Real.sqrt_sq hU.future.le

theorem wgas_eq (gamma : ℝ) (w : Prim) (hg : 1 < gamma) : wgas gamma w = enth gamma w := by
  have h : gamma - 1 ≠ 0 := by linarith
  unfold wgas enth
  field_simp
  ring

theorem side_density (gamma : ℝ) (w : Prim) (U : Fin 4 → ℝ) (hg : 1 < gamma) (hU : FourVel w U) :
    side gamma w = density gamma w U := by
  simp only [side, density, stress, u0_of hU, wgas_eq gamma w hg, ← hU.x, ← hU.y, ← hU.z, eta]
  ext <;> simp [Fin.ext_iff] <;> ring

theorem sideFlux_flux (gamma : ℝ) (w : Prim) (U : Fin 4 → ℝ) (hg : 1 < gamma) (hU : FourVel w U) :
    sideFlux gamma w = flux gamma w U := by
  simp only [sideFlux, flux, stress, u0_of hU, wgas_eq gamma w hg, ← hU.x, ← hU.y, ← hU.z, eta]
  ext <;> simp [Fin.ext_iff]

/-! ## Sound waves -/

/-- The two speeds are those of the sound waves, and there is no other. -/
theorem sound_speeds (gamma : ℝ) (w : Prim) (U : Fin 4 → ℝ) (h : Phys gamma w) (hU : FourVel w U) (lam : ℝ) :
    Acoustic (soundSq gamma w) U lam ↔ lam = (speeds gamma w).1 ∨ lam = (speeds gamma w).2 := by
  have G := gasp gamma w h
  have hu := u0_of hU
  have hc1 : gamma * w.p / wgas gamma w < 1 := by linarith [G.c1, h.le]
  have hc0 := G.c0
  have hgv := G.gv
  have hv := G.v
  have hu0 := hU.future
  have e1 : (speeds gamma w).1 = (soundSpeeds gamma (wgas gamma w) w.p (w.u1 / u0 w) (u0 w ^ 2)).1 := rfl
  have e2 : (speeds gamma w).2 = (soundSpeeds gamma (wgas gamma w) w.p (w.u1 / u0 w) (u0 w ^ 2)).2 := rfl
  rw [e1, e2]
  unfold soundSq Acoustic
  rw [← wgas_eq gamma w h.gt, hU.x]
  simp only [soundSpeeds]
  rw [hu] at *
  set cs := gamma * w.p / wgas gamma w
  have h1c : 0 < 1 - cs := by linarith
  set sg := cs / (U 0 ^ 2 * (1 - cs)) with hsg
  have hs : 0 < sg := by positivity
  have hu1 : w.u1 = w.u1 / U 0 * U 0 := by field_simp
  set v := w.u1 / U 0
  obtain ⟨-, -, -, -, a5, a6⟩ := wave_core hs hv (r := Real.sqrt (sg * (1 + sg - v ^ 2))) rfl
  set r := Real.sqrt (sg * (1 + sg - v ^ 2))
  have h1 : 0 < 1 + sg := by linarith
  have hcs : cs = sg * (U 0 ^ 2 * (1 - cs)) := by rw [hsg]; field_simp
  have key : (lam * U 0 - w.u1) ^ 2 - cs * (1 - lam ^ 2 + (lam * U 0 - w.u1) ^ 2)
      = U 0 ^ 2 * (1 - cs) / (1 + sg) * (((1 + sg) * lam - v) ^ 2 - r ^ 2) := by
    rw [a5, hu1]
    have : (lam * U 0 - v * U 0) ^ 2 - cs * (1 - lam ^ 2 + (lam * U 0 - v * U 0) ^ 2)
        = (1 - cs) * U 0 ^ 2 * (lam - v) ^ 2 - cs * (1 - lam ^ 2) := by ring
    rw [this]
    nth_rewrite 2 [hcs]
    field_simp
    ring
  have hk : U 0 ^ 2 * (1 - cs) / (1 + sg) ≠ 0 := by positivity
  rw [← sub_eq_zero, key, mul_eq_zero, or_iff_right hk, sub_eq_zero, sq_eq_sq_iff_eq_or_eq_neg]
  rw [one_div_mul_eq_div, one_div_mul_eq_div, eq_div_iff h1.ne', eq_div_iff h1.ne']
  constructor <;> rintro (q | q)
  · left; linarith
  · right; linarith
  · left; linarith
  · right; linarith

/-- One speed is smaller, the other larger than the velocity of the gas, and both are smaller than that of light. -/
theorem sound_speeds_causal (gamma : ℝ) (w : Prim) (U : Fin 4 → ℝ) (h : Phys gamma w) (hU : FourVel w U) :
    -1 < (speeds gamma w).2 ∧ (speeds gamma w).2 < U 1 / U 0 ∧ U 1 / U 0 < (speeds gamma w).1 ∧
    (speeds gamma w).1 < 1 := by
  have W := wave gamma w h
  rw [u0_of hU, ← hU.x] at W
  exact ⟨W.l1, W.lmv, W.vlp, W.r1⟩

theorem outer (gamma : ℝ) (wl wr : Prim) (Ul Ur : Fin 4 → ℝ) (hl : Phys gamma wl) (hr : Phys gamma wr)
    (hUl : FourVel wl Ul) (hUr : FourVel wr Ur) :
    Outer gamma wl wr Ul Ur (lamL gamma wl wr) (lamR gamma wl wr) := by
  have al := sound_speeds gamma wl Ul hl hUl
  have ar := sound_speeds gamma wr Ur hr hUr
  have cl := sound_speeds_causal gamma wl Ul hl hUl
  have cr := sound_speeds_causal gamma wr Ur hr hUr
  refine ⟨?_, ?_, ?_⟩
  · rw [al, ar]
    rcases min_choice (speeds gamma wl).2 (speeds gamma wr).2 with q | q
    · left; right; exact q
    · right; right; exact q
  · rw [al, ar]
    rcases max_choice (speeds gamma wl).1 (speeds gamma wr).1 with q | q
    · left; left; exact q
    · right; left; exact q
  · intro lam h
    rw [al, ar] at h
    unfold lamL lamR
    rcases h with (q | q) | (q | q) <;> subst q
    · exact ⟨(min_le_left _ _).trans (by linarith [cl.1, cl.2.1, cl.2.2.1]), le_max_left _ _⟩
    · exact ⟨min_le_left _ _, le_trans (by linarith [cl.1, cl.2.1, cl.2.2.1]) (le_max_left _ _)⟩
    · exact ⟨(min_le_right _ _).trans (by linarith [cr.1, cr.2.1, cr.2.2.1]), le_max_right _ _⟩
    · exact ⟨min_le_right _ _, le_trans (by linarith [cr.1, cr.2.1, cr.2.2.1]) (le_max_right _ _)⟩

theorem outer_unique {gamma : ℝ} {wl wr : Prim} {Ul Ur : Fin 4 → ℝ} {sl sr sl' sr' : ℝ}
    (h : Outer gamma wl wr Ul Ur sl sr) (h' : Outer gamma wl wr Ul Ur sl' sr') : sl = sl' ∧ sr = sr' :=
  ⟨le_antisymm (h.le _ h'.inl).1 (h'.le _ h.inl).1, le_antisymm (h'.le _ h.inr).2 (h.le _ h'.inr).2⟩

/-! ## Admissible states -/

theorem Adm.add {a b : Cons} (ha : Adm a) (hb : Adm b) : Adm (a + b) := by
  obtain ⟨a1, a2, a3⟩ := ha
  obtain ⟨b1, b2, b3⟩ := hb
  refine ⟨by simp only [cons_add_d]; linarith, by simp only [cons_add_e]; linarith, ?_⟩
  simp only [cons_add_d, cons_add_e, cons_add_m1, cons_add_m2, cons_add_m3]
  have hcs : (a.d * b.d + a.m1 * b.m1 + a.m2 * b.m2 + a.m3 * b.m3) ^ 2
      ≤ (a.d ^ 2 + a.m1 ^ 2 + a.m2 ^ 2 + a.m3 ^ 2) * (b.d ^ 2 + b.m1 ^ 2 + b.m2 ^ 2 + b.m3 ^ 2) := by
    nlinarith [sq_nonneg (a.d * b.m1 - a.m1 * b.d), sq_nonneg (a.d * b.m2 - a.m2 * b.d),
      sq_nonneg (a.d * b.m3 - a.m3 * b.d), sq_nonneg (a.m1 * b.m2 - a.m2 * b.m1),
      sq_nonneg (a.m1 * b.m3 - a.m3 * b.m1), sq_nonneg (a.m2 * b.m3 - a.m3 * b.m2)]
  have hlt : (a.d * b.d + a.m1 * b.m1 + a.m2 * b.m2 + a.m3 * b.m3) ^ 2 < (a.e * b.e) ^ 2 := by
    refine lt_of_le_of_lt hcs ?_
    rw [mul_pow]
    exact mul_lt_mul'' a3 b3 (by positivity) (by positivity)
  have := abs_lt_of_sq_lt_sq hlt (by positivity)
  rw [abs_lt] at this
  nlinarith

theorem Adm.smul {a : Cons} (ha : Adm a) {c : ℝ} (hc : 0 < c) : Adm (c • a) := by
  obtain ⟨a1, a2, a3⟩ := ha
  refine ⟨mul_pos hc a1, mul_pos hc a2, ?_⟩
  simp only [cons_smul_d, cons_smul_e, cons_smul_m1, cons_smul_m2, cons_smul_m3]
  have := mul_lt_mul_of_pos_left a3 (pow_pos hc 2)
  nlinarith

theorem main_lt (gamma : ℝ) (w : Prim) (h : Phys gamma w) :
    w.p * (wgas gamma w - gamma * w.p) < gamma * (wgas gamma w ^ 2 - w.rho ^ 2 - 2 * wgas gamma w * w.p) := by
  have hg1 : 0 < gamma - 1 := by linarith [h.gt]
  have hp := h.p
  have hr := h.rho
  have hk2 : wgas gamma w = w.rho + (w.p + w.p / (gamma - 1)) := by unfold wgas; field_simp; ring
  set t := w.p / (gamma - 1) with ht
  have ht0 : 0 < t := by positivity
  have hpt : w.p = t * (gamma - 1) := by rw [ht]; field_simp
  rw [hk2, hpt]
  generalize w.rho = rho at *
  have e : gamma * ((rho + (t * (gamma - 1) + t)) ^ 2 - rho ^ 2
      - 2 * (rho + (t * (gamma - 1) + t)) * (t * (gamma - 1)))
      - t * (gamma - 1) * (rho + (t * (gamma - 1) + t) - gamma * (t * (gamma - 1)))
      = t * rho * (gamma + 1) + t ^ 2 * gamma * (2 - gamma) := by ring
  have p1 : 0 < t * rho * (gamma + 1) := by
    apply mul_pos (mul_pos ht0 hr); linarith [h.gt]
  have p2 : 0 ≤ t ^ 2 * gamma * (2 - gamma) := by
    apply mul_nonneg (mul_nonneg (sq_nonneg _) (by linarith [h.gt])); linarith [h.le]
  linarith

theorem side_adm (gamma : ℝ) (w : Prim) (h : Phys gamma w) : Adm (side gamma w) := by
  have G := gasp gamma w h
  have hsq : u0 w ^ 2 = 1 + w.u1 ^ 2 + w.u2 ^ 2 + w.u3 ^ 2 := lorentz_sq _ _ _
  have hu := G.u0
  have hW := G.W
  have hm := main_lt gamma w h
  have hr := h.rho
  have hp := h.p
  have hgam : 0 < gamma := by linarith [h.gt]
  have hc := G.c1
  rw [div_lt_iff₀ hW] at hc
  have hWp : w.p < wgas gamma w := by nlinarith [h.le, h.gt]
  have hWg : 0 < wgas gamma w - gamma * w.p := by nlinarith [h.le]
  have h0 : 0 < wgas gamma w ^ 2 - w.rho ^ 2 - 2 * wgas gamma w * w.p := by
    have : 0 < gamma * (wgas gamma w ^ 2 - w.rho ^ 2 - 2 * wgas gamma w * w.p) :=
      lt_trans (mul_pos hp hWg) hm
    exact (pos_iff_pos_of_mul_pos this).mp hgam
  refine ⟨mul_pos hr hu, ?_, ?_⟩ <;> simp only [side]
  · nlinarith [sq_nonneg w.u1, sq_nonneg w.u2, sq_nonneg w.u3]
  · have e : (wgas gamma w * u0 w * u0 w - w.p) ^ 2 - ((w.rho * u0 w) ^ 2 + (wgas gamma w * w.u1 * u0 w) ^ 2
        + (wgas gamma w * w.u2 * u0 w) ^ 2 + (wgas gamma w * w.u3 * u0 w) ^ 2)
        = u0 w ^ 2 * (wgas gamma w ^ 2 - w.rho ^ 2 - 2 * wgas gamma w * w.p) + w.p ^ 2 := by
      linear_combination wgas gamma w ^ 2 * u0 w ^ 2 * hsq
    have : 0 < u0 w ^ 2 * (wgas gamma w ^ 2 - w.rho ^ 2 - 2 * wgas gamma w * w.p) := by positivity
    nlinarith [sq_nonneg w.p]

theorem edge_lt (gamma : ℝ) (w : Prim) (h : Phys gamma w) (lam : ℝ) (hl : lam ^ 2 < 1)
    (hac : u0 w ^ 2 * (lam - w.u1 / u0 w) ^ 2 * (1 - gamma * w.p / wgas gamma w)
      = gamma * w.p / wgas gamma w * (1 - lam ^ 2)) :
    (lam • side gamma w - sideFlux gamma w).d ^ 2 + (lam • side gamma w - sideFlux gamma w).m1 ^ 2
      + (lam • side gamma w - sideFlux gamma w).m2 ^ 2 + (lam • side gamma w - sideFlux gamma w).m3 ^ 2
      < (lam • side gamma w - sideFlux gamma w).e ^ 2 := by
  have G := gasp gamma w h
  have hsq : u0 w ^ 2 = 1 + w.u1 ^ 2 + w.u2 ^ 2 + w.u3 ^ 2 := lorentz_sq _ _ _
  have hu := G.u0
  have hW := G.W
  have hc1 := G.c1
  have hg1 : 0 < gamma - 1 := by linarith [h.gt]
  have hp := h.p
  have hr := h.rho
  have hmain := main_lt gamma w h
  rw [sideFlux_eq]
  simp only [cons_sub_d, cons_sub_e, cons_sub_m1, cons_sub_m2, cons_sub_m3, cons_smul_d, cons_smul_e, cons_smul_m1,
    cons_smul_m2, cons_smul_m3, carried, side]
  have hv1 : w.u1 = w.u1 / u0 w * u0 w := by field_simp
  have hv2 : w.u2 = w.u2 / u0 w * u0 w := by field_simp
  have hv3 : w.u3 = w.u3 / u0 w * u0 w := by field_simp
  generalize w.u1 / u0 w = v at *
  generalize w.u2 / u0 w = vy at *
  generalize w.u3 / u0 w = vz at *
  rw [hv1, hv2, hv3] at hsq
  rw [hv1, hv2, hv3]
  generalize u0 w = g at *
  generalize wgas gamma w = W at *
  generalize w.rho = rho at *
  generalize w.p = p at *
  have hac2 : (g ^ 2 * (lam - v) ^ 2) * (W - gamma * p) = gamma * p * (1 - lam ^ 2) := by
    have := hac
    field_simp at this
    linarith
  have hWp : 0 < W - gamma * p := by
    rw [div_lt_iff₀ hW] at hc1
    nlinarith [h.le]
  have hX : 0 < g ^ 2 * (lam - v) ^ 2 := by
    have : 0 < gamma * p * (1 - lam ^ 2) := by
      apply mul_pos (mul_pos (by linarith [h.gt]) hp); linarith
    rw [← hac2] at this
    exact (pos_iff_pos_of_mul_pos this).mpr hWp
  have hgam : 0 < gamma := by linarith [h.gt]
  have hfin : p ^ 2 * (1 - lam ^ 2) < g ^ 2 * (lam - v) ^ 2 * (W ^ 2 - rho ^ 2 - 2 * W * p) := by
    have a1 := mul_lt_mul_of_pos_left hmain hX
    have a2 : gamma * (p ^ 2 * (1 - lam ^ 2)) = g ^ 2 * (lam - v) ^ 2 * (p * (W - gamma * p)) := by
      linear_combination -p * hac2
    have a3 : gamma * (p ^ 2 * (1 - lam ^ 2)) < gamma * (g ^ 2 * (lam - v) ^ 2 * (W ^ 2 - rho ^ 2 - 2 * W * p)) := by
      rw [a2]; linarith
    exact lt_of_mul_lt_mul_left a3 hgam.le
  have e : (lam * (W * g * g - p) - (v * (W * g * g - p) + p * v)) ^ 2
      - ((lam * (rho * g) - v * (rho * g)) ^ 2 + (lam * (W * (v * g) * g) - (v * (W * (v * g) * g) + p)) ^ 2
        + (lam * (W * (vy * g) * g) - v * (W * (vy * g) * g)) ^ 2
        + (lam * (W * (vz * g) * g) - v * (W * (vz * g) * g)) ^ 2)
      = g ^ 2 * (lam - v) ^ 2 * (W ^ 2 - rho ^ 2 - 2 * W * p) - p ^ 2 * (1 - lam ^ 2) := by
    linear_combination (lam - v) ^ 2 * W ^ 2 * g ^ 2 * hsq
  linarith

theorem fourvel (w : Prim) : FourVel w ![u0 w, w.u1, w.u2, w.u3] := by
  have hsq : u0 w ^ 2 = 1 + w.u1 ^ 2 + w.u2 ^ 2 + w.u3 ^ 2 := lorentz_sq _ _ _
  refine ⟨rfl, rfl, rfl, lorentz_pos _ _ _, ?_⟩
  rw [Fin.sum_univ_four]
  simp only [Fin.sum_univ_four, eta]
  simp [Fin.ext_iff]
  linarith

theorem speeds_ac (gamma : ℝ) (w : Prim) (h : Phys gamma w) (lam : ℝ)
    (hl : lam = (speeds gamma w).1 ∨ lam = (speeds gamma w).2) :
    u0 w ^ 2 * (lam - w.u1 / u0 w) ^ 2 * (1 - gamma * w.p / wgas gamma w)
      = gamma * w.p / wgas gamma w * (1 - lam ^ 2) := by
  have hu : u0 w ≠ 0 := (lorentz_pos _ _ _).ne'
  have := (sound_speeds gamma w _ h (fourvel w) lam).mpr hl
  unfold Acoustic soundSq at this
  rw [← wgas_eq gamma w h.gt, show (![u0 w, w.u1, w.u2, w.u3] : Fin 4 → ℝ) 0 = u0 w from rfl,
    show (![u0 w, w.u1, w.u2, w.u3] : Fin 4 → ℝ) 1 = w.u1 from rfl] at this
  have e : lam * u0 w - w.u1 = u0 w * (lam - w.u1 / u0 w) := by field_simp
  rw [e] at this
  linear_combination this

theorem cons_ext {a b : Cons} (h1 : a.d = b.d) (h2 : a.e = b.e) (h3 : a.m1 = b.m1) (h4 : a.m2 = b.m2)
    (h5 : a.m3 = b.m3) : a = b := by
  cases a; cases b; simp only at *; subst h1 h2 h3 h4 h5; rfl

/-- The difference of flux and density across a sound wave or a faster front is admissible. -/
theorem edge_right (gamma : ℝ) (w : Prim) (h : Phys gamma w) (lam : ℝ) (hl : (speeds gamma w).1 ≤ lam) :
    Adm (lam • side gamma w - sideFlux gamma w) := by
  have W := wave gamma w h
  have hp := h.p
  have A0 : Adm ((speeds gamma w).1 • side gamma w - sideFlux gamma w) := by
    have k2 := W.k2 hp
    have lt := edge_lt gamma w h (speeds gamma w).1 (by nlinarith [W.l1, W.lmv, W.vlp, W.r1])
      (speeds_ac gamma w h _ (Or.inl rfl))
    refine ⟨?_, ?_, lt⟩
    · rw [sideFlux_eq]
      simp only [cons_sub_d, cons_smul_d, carried]
      rw [← sub_mul]
      exact mul_pos (by linarith [W.vlp]) (side_adm gamma w h).d
    · rw [sideFlux_eq, side_eq]
      simp only [cons_sub_e, cons_smul_e, carried]
      linarith
  rcases eq_or_lt_of_le hl with q | q
  · rw [← q]; exact A0
  · have e : lam • side gamma w - sideFlux gamma w = ((speeds gamma w).1 • side gamma w - sideFlux gamma w)
        + (lam - (speeds gamma w).1) • side gamma w := by
      apply cons_ext <;> simp <;> ring
    rw [e]
    exact A0.add ((side_adm gamma w h).smul (by linarith))

theorem edge_left (gamma : ℝ) (w : Prim) (h : Phys gamma w) (lam : ℝ) (hl : lam ≤ (speeds gamma w).2) :
    Adm (sideFlux gamma w - lam • side gamma w) := by
  have W := wave gamma w h
  have hp := h.p
  have A0 : Adm (sideFlux gamma w - (speeds gamma w).2 • side gamma w) := by
    have k1 := W.k1 hp
    have lt := edge_lt gamma w h (speeds gamma w).2 (by nlinarith [W.l1, W.lmv, W.vlp, W.r1])
      (speeds_ac gamma w h _ (Or.inr rfl))
    refine ⟨?_, ?_, ?_⟩
    · rw [sideFlux_eq]
      simp only [cons_sub_d, cons_smul_d, carried]
      rw [← sub_mul]
      exact mul_pos (by linarith [W.lmv]) (side_adm gamma w h).d
    · rw [sideFlux_eq, side_eq]
      simp only [cons_sub_e, cons_smul_e, carried]
      linarith
    · simp only [cons_sub_d, cons_sub_e, cons_sub_m1, cons_sub_m2, cons_sub_m3] at lt ⊢
      nlinarith
  rcases eq_or_lt_of_le hl with q | q
  · rw [q]; exact A0
  · have e : sideFlux gamma w - lam • side gamma w = (sideFlux gamma w - (speeds gamma w).2 • side gamma w)
        + ((speeds gamma w).2 - lam) • side gamma w := by
      apply cons_ext <;> simp <;> ring
    rw [e]
    exact A0.add ((side_adm gamma w h).smul (by linarith))

theorem hll_adm (gamma : ℝ) (wl wr : Prim) (hl : Phys gamma wl) (hr : Phys gamma wr) (ll lr : ℝ)
    (h1 : ll ≤ (speeds gamma wl).2) (h2 : (speeds gamma wr).1 ≤ lr) (h : ll < lr) :
    Adm (consHll ll lr (side gamma wl) (side gamma wr) (sideFlux gamma wl) (sideFlux gamma wr)) := by
  have e : consHll ll lr (side gamma wl) (side gamma wr) (sideFlux gamma wl) (sideFlux gamma wr)
      = (1 / (lr - ll)) • ((lr • side gamma wr - sideFlux gamma wr) + (sideFlux gamma wl - ll • side gamma wl)) := by
    apply cons_ext <;> simp [consHll] <;> left <;> ring
  rw [e]
  exact ((edge_right gamma wr hr lr h2).add (edge_left gamma wl hl ll h1)).smul (by rw [one_div]; exact inv_pos.mpr (by linarith))

/-- The mean state between the outermost waves is admissible. -/
theorem mean_state_admissible (gamma : ℝ) (wl wr : Prim) (Ul Ur : Fin 4 → ℝ) (hl : Phys gamma wl) (hr : Phys gamma wr)
    (hUl : FourVel wl Ul) (hUr : FourVel wr Ur) (sl sr : ℝ) (ho : Outer gamma wl wr Ul Ur sl sr) :
    Adm ((1 / (sr - sl)) • (sr • density gamma wr Ur - sl • density gamma wl Ul + flux gamma wl Ul
      - flux gamma wr Ur)) := by
  rw [← side_density gamma wr Ur hr.gt hUr, ← side_density gamma wl Ul hl.gt hUl,
    ← sideFlux_flux gamma wr Ur hr.gt hUr, ← sideFlux_flux gamma wl Ul hl.gt hUl]
  have al := sound_speeds gamma wl Ul hl hUl
  have ar := sound_speeds gamma wr Ur hr hUr
  have a1 := (ho.le _ (Or.inl ((al _).mpr (Or.inr rfl)))).1
  have a2 := (ho.le _ (Or.inr ((ar _).mpr (Or.inl rfl)))).2
  have a3 := (ho.le _ (Or.inr ((ar _).mpr (Or.inr rfl)))).1
  have c := sound_speeds_causal gamma wr Ur hr hUr
  exact hll_adm gamma wl wr hl hr sl sr a1 a2 (by linarith [c.2.1, c.2.2.1])

/-! ## First-order steps -/

theorem hll_left (ll lr : ℝ) (h : ll < lr) (ul ur fl fr : Cons) :
    fluxHll ll lr ul ur fl fr = fl + (-ll) • (ul - consHll ll lr ul ur fl fr) := by
  have : lr - ll ≠ 0 := by linarith
  apply cons_ext <;> simp [fluxHll, consHll] <;> field_simp <;> ring

theorem hll_right (ll lr : ℝ) (h : ll < lr) (ul ur fl fr : Cons) :
    fluxHll ll lr ul ur fl fr = fr + lr • (consHll ll lr ul ur fl fr - ur) := by
  have : lr - ll ≠ 0 := by linarith
  apply cons_ext <;> simp [fluxHll, consHll] <;> field_simp <;> ring

/-- What the first-order step needs to know of a solver. -/
def Monotone (gamma : ℝ) (solver : Prim → Prim → Cons) : Prop :=
  ∀ wl wr, Phys gamma wl → Phys gamma wr →
    (∃ (s : ℝ) (u : Cons), 0 ≤ s ∧ s < 1 ∧ Adm u ∧ solver wl wr = sideFlux gamma wl + s • (side gamma wl - u)) ∧
    (∃ (s : ℝ) (u : Cons), 0 ≤ s ∧ s < 1 ∧ Adm u ∧ solver wl wr = sideFlux gamma wr + s • (u - side gamma wr))

theorem smul_zero_add (f g : Cons) : f + (0 : ℝ) • g = f := by apply cons_ext <;> simp

theorem hlle_eq (gamma : ℝ) (wl wr : Prim) :
    hlle gamma wl wr = if 0 ≤ lamL gamma wl wr then sideFlux gamma wl else
      fluxHll (lamL gamma wl wr) (max (lamR gamma wl wr) 0) (side gamma wl) (side gamma wr) (sideFlux gamma wl)
        (sideFlux gamma wr) := by
  unfold hlle
  by_cases h1 : 0 ≤ lamL gamma wl wr
  · simp only [ge_iff_le, h1, if_true]
  · simp only [ge_iff_le, h1, if_false]
    by_cases h2 : lamR gamma wl wr ≤ 0
    · rw [if_pos h2, max_eq_right h2]
      have : lamL gamma wl wr ≠ 0 := by intro h; exact h1 h.ge
      apply cons_ext <;> simp [fluxHll] <;> field_simp
    · rw [if_neg h2, max_eq_left (by linarith)]

theorem hlle_eq' (gamma : ℝ) (wl wr : Prim) (hl : Phys gamma wl) (hr : Phys gamma wr) :
    hlle gamma wl wr = if lamR gamma wl wr ≤ 0 then sideFlux gamma wr else
      fluxHll (min (lamL gamma wl wr) 0) (lamR gamma wl wr) (side gamma wl) (side gamma wr) (sideFlux gamma wl)
        (sideFlux gamma wr) := by
  have S := sides gamma wl wr hl hr
  have hlt : lamL gamma wl wr < lamR gamma wl wr := by linarith [S.l.lmv, S.l.vlp]
  unfold hlle
  by_cases h1 : lamR gamma wl wr ≤ 0
  · have h2 : ¬ 0 ≤ lamL gamma wl wr := by intro h; linarith
    simp only [ge_iff_le, h1, h2, if_true, if_false]
  · simp only [ge_iff_le, h1, if_false]
    by_cases h2 : 0 ≤ lamL gamma wl wr
    · rw [if_pos h2, min_eq_right h2]
      have : lamR gamma wl wr ≠ 0 := by intro h; exact h1 h.le
      apply cons_ext <;> simp [fluxHll] <;> field_simp
    · rw [if_neg h2, min_eq_left (by linarith)]

theorem hlle_monotone (gamma : ℝ) : Monotone gamma (hlle gamma) := by
  intro wl wr hl hr
  have S := sides gamma wl wr hl hr
  have hlt : lamL gamma wl wr < lamR gamma wl wr := by linarith [S.l.lmv, S.l.vlp]
  constructor
  · rw [hlle_eq gamma wl wr]
    by_cases h1 : 0 ≤ lamL gamma wl wr
    · rw [if_pos h1]
      exact ⟨0, side gamma wl, le_rfl, one_pos, side_adm gamma wl hl, (smul_zero_add _ _).symm⟩
    · rw [if_neg h1]
      have h3 : lamL gamma wl wr < max (lamR gamma wl wr) 0 := lt_max_of_lt_left hlt
      rw [hll_left _ _ h3]
      refine ⟨_, _, by linarith, by linarith [S.l.l1], ?_, rfl⟩
      exact hll_adm gamma wl wr hl hr _ _ (min_le_left _ _) ((le_max_right _ _).trans (le_max_left _ _)) h3
  · rw [hlle_eq' gamma wl wr hl hr]
    by_cases h1 : lamR gamma wl wr ≤ 0
    · rw [if_pos h1]
      exact ⟨0, side gamma wl, le_rfl, one_pos, side_adm gamma wl hl, (smul_zero_add _ _).symm⟩
    · rw [if_neg h1]
      have h3 : min (lamL gamma wl wr) 0 < lamR gamma wl wr := min_lt_of_left_lt hlt
      rw [hll_right _ _ h3]
      refine ⟨_, _, by linarith, S.l.r1, ?_, rfl⟩
      exact hll_adm gamma wl wr hl hr _ _ ((min_le_left _ _).trans (min_le_left _ _)) (le_max_right _ _) h3

theorem llf_eq (gamma : ℝ) (wl wr : Prim) (hl : Phys gamma wl) (hr : Phys gamma wr) :
    0 < max (lamR gamma wl wr) (-lamL gamma wl wr) ∧ max (lamR gamma wl wr) (-lamL gamma wl wr) < 1 ∧
    llf gamma wl wr = fluxHll (-max (lamR gamma wl wr) (-lamL gamma wl wr)) (max (lamR gamma wl wr) (-lamL gamma wl wr))
      (side gamma wl) (side gamma wr) (sideFlux gamma wl) (sideFlux gamma wr) := by
  have S := sides gamma wl wr hl hr
  have hlt : lamL gamma wl wr < lamR gamma wl wr := by linarith [S.l.lmv, S.l.vlp]
  have h0 : 0 < max (lamR gamma wl wr) (-lamL gamma wl wr) := by
    by_contra hh
    push Not at hh
    linarith [le_max_left (lamR gamma wl wr) (-lamL gamma wl wr), le_max_right (lamR gamma wl wr) (-lamL gamma wl wr)]
  refine ⟨h0, max_lt S.l.r1 (by linarith [S.l.l1]), ?_⟩
  unfold llf
  simp only
  generalize max (lamR gamma wl wr) (-lamL gamma wl wr) = lam at *
  apply cons_ext <;> simp [fluxHll] <;> field_simp <;> ring

theorem llf_monotone (gamma : ℝ) : Monotone gamma (llf gamma) := by
  intro wl wr hl hr
  obtain ⟨h0, h1, h2⟩ := llf_eq gamma wl wr hl hr
  have A := hll_adm gamma wl wr hl hr (-max (lamR gamma wl wr) (-lamL gamma wl wr))
    (max (lamR gamma wl wr) (-lamL gamma wl wr))
    (by linarith [le_max_right (lamR gamma wl wr) (-lamL gamma wl wr), min_le_left (speeds gamma wl).2 (speeds gamma wr).2,
      show lamL gamma wl wr = min (speeds gamma wl).2 (speeds gamma wr).2 from rfl])
    ((le_max_right (speeds gamma wl).1 (speeds gamma wr).1).trans (le_max_left _ _)) (by linarith)
  constructor
  · rw [h2, hll_left _ _ (by linarith)]
    exact ⟨_, _, by linarith, by linarith, A, rfl⟩
  · rw [h2, hll_right _ _ (by linarith)]
    exact ⟨_, _, by linarith, by linarith, A, rfl⟩

theorem Adm.addw {a b : Cons} (ha : Adm a) (hb : Adm b) {t : ℝ} (ht : 0 ≤ t) : Adm (a + t • b) := by
  rcases eq_or_lt_of_le ht with q | q
  · rw [← q, smul_zero_add]; exact ha
  · exact ha.add (hb.smul q)

theorem step_adm (gamma : ℝ) (solver : Prim → Prim → Cons) (hm : Monotone gamma solver) (w wl wr : Prim) (h : Phys gamma w)
    (hl : Phys gamma wl) (hr : Phys gamma wr) (r : ℝ) (r0 : 0 ≤ r) (r1 : r ≤ 1 / 2) :
    Adm (side gamma w - r • (solver w wr - solver wl w)) := by
  obtain ⟨⟨s, u, s0, s1, hu, e1⟩, -⟩ := hm w wr h hr
  obtain ⟨-, ⟨t, v, t0, t1, hv, e2⟩⟩ := hm wl w hl h
  rw [e1, e2]
  have e : side gamma w - r • (sideFlux gamma w + s • (side gamma w - u) - (sideFlux gamma w + t • (v - side gamma w)))
      = (1 - r * s - r * t) • side gamma w + (r * s) • u + (r * t) • v := by
    apply cons_ext <;> simp <;> ring
  rw [e]
  refine (((side_adm gamma w h).smul ?_).addw hu (by positivity)).addw hv (by positivity)
  nlinarith

/-- A first-order step in one dimension with HLLE or LLF keeps the state admissible, if the time step is at most half
the light crossing time of the cell: `r` is time step over cell size. -/
theorem first_order_step_admissible (gamma : ℝ) (w wl wr : Prim) (U : Fin 4 → ℝ) (h : Phys gamma w) (hU : FourVel w U)
    (hl : Phys gamma wl) (hr : Phys gamma wr) (r : ℝ) (r0 : 0 ≤ r) (r1 : r ≤ 1 / 2) :
    Adm (density gamma w U - r • (hlle gamma w wr - hlle gamma wl w)) ∧
    Adm (density gamma w U - r • (llf gamma w wr - llf gamma wl w)) := by
  rw [← side_density gamma w U h.gt hU]
  exact ⟨step_adm gamma _ (hlle_monotone gamma) w wl wr h hl hr r r0 r1,
    step_adm gamma _ (llf_monotone gamma) w wl wr h hl hr r r0 r1⟩

/-- The state of a physical gas is admissible. -/
theorem density_admissible (gamma : ℝ) (w : Prim) (U : Fin 4 → ℝ) (h : Phys gamma w) (hU : FourVel w U) :
    Adm (density gamma w U) := by
  rw [← side_density gamma w U h.gt hU]; exact side_adm gamma w h

/-! ## Upwind flux -/

/-- When no sound wave moves to the left, the flux is that of the left state; and the mirror image. -/
theorem supersonic_upwind (gamma tiny : ℝ) (wl wr : Prim) (Ul Ur : Fin 4 → ℝ) (hl : Phys gamma wl) (hr : Phys gamma wr)
    (hUl : FourVel wl Ul) (hUr : FourVel wr Ur) (sl sr : ℝ) (ho : Outer gamma wl wr Ul Ur sl sr) :
    (0 ≤ sl → hlle gamma wl wr = flux gamma wl Ul ∧ hllc gamma tiny wl wr = flux gamma wl Ul) ∧
    (sr ≤ 0 → hlle gamma wl wr = flux gamma wr Ur ∧ hllc gamma tiny wl wr = flux gamma wr Ur) := by
  rw [← sideFlux_flux gamma wr Ur hr.gt hUr, ← sideFlux_flux gamma wl Ul hl.gt hUl]
  obtain ⟨e1, e2⟩ := outer_unique ho (outer gamma wl wr Ul Ur hl hr hUl hUr)
  have S := sides gamma wl wr hl hr
  have hlt : lamL gamma wl wr < lamR gamma wl wr := by linarith [S.l.lmv, S.l.vlp]
  rw [e1, e2]
  constructor
  · intro h
    unfold hlle hllc
    simp only [ge_iff_le, h, if_true, and_self]
  · intro h
    have h2 : ¬ 0 ≤ lamL gamma wl wr := by intro h; linarith
    unfold hlle hllc
    simp only [ge_iff_le, h, h2, if_true, if_false, and_self]

end Verif.Sr
