import Verif.Props.SrRiemann
import Mathlib.Tactic.FinCases
import Mathlib.Tactic.IntervalCases

/-!
# Relativistic HLLC solver: the three waves, contact waves, consistency, mirror symmetry
-/
namespace Verif.Sr

/-- `cons_hll` of a face. -/
noncomputable def uh (gamma : ℝ) (wl wr : Prim) : Cons :=
  consHll (lamL gamma wl wr) (lamR gamma wl wr) (side gamma wl) (side gamma wr) (sideFlux gamma wl) (sideFlux gamma wr)

/-- `flux_hll` of a face. -/
noncomputable def fh (gamma : ℝ) (wl wr : Prim) : Cons :=
  fluxHll (lamL gamma wl wr) (lamR gamma wl wr) (side gamma wl) (side gamma wr) (sideFlux gamma wl) (sideFlux gamma wr)

theorem quad (gamma : ℝ) (wl wr : Prim) (hl : Phys gamma wl) (hr : Phys gamma wr) :
    0 < (fh gamma wl wr).e * lamL gamma wl wr ^ 2 + -((uh gamma wl wr).e + (fh gamma wl wr).m1) * lamL gamma wl wr
      + (uh gamma wl wr).m1 ∧
    (fh gamma wl wr).e * lamR gamma wl wr ^ 2 + -((uh gamma wl wr).e + (fh gamma wl wr).m1) * lamR gamma wl wr
      + (uh gamma wl wr).m1 < 0 ∧
    ∀ x, lamL gamma wl wr < x → x < lamR gamma wl wr →
      (fh gamma wl wr).e * x ^ 2 + -((uh gamma wl wr).e + (fh gamma wl wr).m1) * x + (uh gamma wl wr).m1 = 0 →
      0 < (uh gamma wl wr).e + (fh gamma wl wr).m1 - (fh gamma wl wr).e * x := by
  have S := sides gamma wl wr hl hr
  have Gl := gasp gamma wl hl
  have Gr := gasp gamma wr hr
  have u1 := Gl.u0
  have u2 := Gr.u0
  have w1 := Gl.W
  have w2 := Gr.W
  have d : lamR gamma wl wr - lamL gamma wl wr ≠ 0 := by have := S.l.lmv; have := S.l.vlp; linarith
  refine quad_core (by positivity) (by positivity) hl.p hr.p S.l S.r ?_ ?_ ?_ ?_ <;>
    simp only [uh, fh, consHll, fluxHll, sideFlux_eq, side_eq, carried, cons_add_e, cons_sub_e, cons_smul_e, cons_add_m1,
      cons_sub_m1, cons_smul_m1] <;>
    generalize wl.u1 / u0 wl = vl <;> generalize wr.u1 / u0 wr = vr <;>
    generalize lamL gamma wl wr = ll at * <;> generalize lamR gamma wl wr = lr at * <;> field_simp <;> ring

theorem star (gamma tiny : ℝ) (ht : 0 ≤ tiny) (wl wr : Prim) (hl : Phys gamma wl) (hr : Phys gamma wr)
    (hc : Clear tiny (fh gamma wl wr).e) :
    lamL gamma wl wr < lamStar tiny (uh gamma wl wr) (fh gamma wl wr) ∧
    lamStar tiny (uh gamma wl wr) (fh gamma wl wr) < lamR gamma wl wr ∧
    (fh gamma wl wr).e * lamStar tiny (uh gamma wl wr) (fh gamma wl wr) ^ 2
      + -((uh gamma wl wr).e + (fh gamma wl wr).m1) * lamStar tiny (uh gamma wl wr) (fh gamma wl wr)
      + (uh gamma wl wr).m1 = 0 := by
  obtain ⟨q1, q2, q3⟩ := quad gamma wl wr hl hr
  have S := sides gamma wl wr hl hr
  have hlt : lamL gamma wl wr < lamR gamma wl wr := by linarith [S.l.lmv, S.l.vlp]
  unfold lamStar
  rcases hc with hc | hc
  · have hn : ¬ |(fh gamma wl wr).e| > tiny := by rw [hc, abs_zero]; linarith
    simp only [hn, if_false]
    rw [hc] at q1 q2 ⊢
    generalize -((uh gamma wl wr).e + (fh gamma wl wr).m1) = b at *
    generalize (uh gamma wl wr).m1 = m at *
    have hb : b < 0 := by nlinarith
    refine ⟨?_, ?_, ?_⟩
    · rw [lt_div_iff_of_neg hb]; linarith
    · rw [div_lt_iff_of_neg hb]; linarith
    · have := hb.ne; field_simp; ring
  · simp only [gt_iff_lt, hc, if_true]
    obtain ⟨x, hx, x1, x2, x3⟩ := root_core (A := (fh gamma wl wr).e) (b := -((uh gamma wl wr).e + (fh gamma wl wr).m1))
      (m := (uh gamma wl wr).m1) hlt q1 q2 hc ht (fun x a1 a2 a3 => by have := q3 x a1 a2 a3; intro hh; linarith)
    rw [← hx]
    exact ⟨x1, x2, x3⟩

/-- The flux of a star state carries that state. -/
theorem fluxStar_carried (gamma : ℝ) (w : Prim) (lam ls ps : ℝ) (h : lam ≠ ls) :
    fluxStar gamma w lam ls ps = carried ls ps (consStar gamma w lam ls ps) := by
  have : lam - ls ≠ 0 := sub_ne_zero.mpr h
  unfold fluxStar
  rw [sideFlux_eq]
  generalize hq : side gamma w = q
  simp only [consStar, carried, hq]
  apply cons_ext <;> simp <;> field_simp <;> ring

theorem star_momentum (gamma : ℝ) (w : Prim) (lam ls ps : ℝ) (h : lam ≠ ls)
    (hs : lam * (side gamma w).m1 - (sideFlux gamma w).m1 + ps
      = ls * (lam * (side gamma w).e - (sideFlux gamma w).e + lam * ps)) :
    (consStar gamma w lam ls ps).m1 = (carried ls ps (consStar gamma w lam ls ps)).e := by
  have : lam - ls ≠ 0 := sub_ne_zero.mpr h
  rw [sideFlux_eq] at hs
  simp only [carried] at hs
  generalize hq : side gamma w = q at *
  generalize hv : w.u1 / u0 w = v at *
  simp only [consStar, carried, hq, hv, cons_smul_m1, cons_smul_e]
  field_simp
  linear_combination hs

theorem fan_of (gamma tiny : ℝ) (ht : 0 ≤ tiny) (wl wr : Prim) (hl : Phys gamma wl) (hr : Phys gamma wr)
    (hc : Clear tiny (fh gamma wl wr).e) :
    Fan (side gamma wl) (sideFlux gamma wl) (side gamma wr) (sideFlux gamma wr) (lamL gamma wl wr)
      (lamStar tiny (uh gamma wl wr) (fh gamma wl wr)) (lamR gamma wl wr)
      (pStar (lamStar tiny (uh gamma wl wr) (fh gamma wl wr)) (fh gamma wl wr))
      (consStar gamma wl (lamL gamma wl wr) (lamStar tiny (uh gamma wl wr) (fh gamma wl wr))
        (pStar (lamStar tiny (uh gamma wl wr) (fh gamma wl wr)) (fh gamma wl wr)))
      (consStar gamma wr (lamR gamma wl wr) (lamStar tiny (uh gamma wl wr) (fh gamma wl wr))
        (pStar (lamStar tiny (uh gamma wl wr) (fh gamma wl wr)) (fh gamma wl wr))) := by
  obtain ⟨s1, s2, s3⟩ := star gamma tiny ht wl wr hl hr hc
  have S := sides gamma wl wr hl hr
  have hlt : lamL gamma wl wr < lamR gamma wl wr := by linarith [S.l.lmv, S.l.vlp]
  have jl := hll_left _ _ hlt (side gamma wl) (side gamma wr) (sideFlux gamma wl) (sideFlux gamma wr)
  have jr := hll_right _ _ hlt (side gamma wl) (side gamma wr) (sideFlux gamma wl) (sideFlux gamma wr)
  change fh gamma wl wr = _ + _ • (_ - uh gamma wl wr) at jl
  change fh gamma wl wr = _ + _ • (uh gamma wl wr - _) at jr
  generalize lamStar tiny (uh gamma wl wr) (fh gamma wl wr) = s at *
  have jle := congrArg Cons.e jl
  have jlm := congrArg Cons.m1 jl
  have jre := congrArg Cons.e jr
  have jrm := congrArg Cons.m1 jr
  simp only [cons_add_e, cons_sub_e, cons_smul_e, cons_add_m1, cons_sub_m1, cons_smul_m1] at jle jlm jre jrm
  have dpos : ∀ w lam, Phys gamma w → 0 < (lam - w.u1 / u0 w) / (lam - s) →
      0 < (consStar gamma w lam s (pStar s (fh gamma wl wr))).d := by
    intro w lam h hq
    have := mul_pos hq (side_adm gamma w h).d
    simp only [consStar, cons_smul_d]
    rw [one_div_mul_eq_div]
    rwa [div_mul_eq_mul_div] at this
  refine ⟨⟨s1, s2⟩, ⟨S.l.l1, S.l.r1⟩, ?_, ?_, ?_, ?_, ?_, ?_, ?_⟩
  · rw [← fluxStar_carried gamma wl _ _ _ s1.ne]
    unfold Jump fluxStar
    apply cons_ext <;> simp
  · rw [← fluxStar_carried gamma wr _ _ _ s2.ne']
    unfold Jump fluxStar
    apply cons_ext <;> simp
  · unfold Jump carried
    apply cons_ext <;> simp <;> ring
  · apply star_momentum _ _ _ _ _ s1.ne
    unfold pStar
    linear_combination jlm - s * jle + lamL gamma wl wr * s3
  · apply star_momentum _ _ _ _ _ s2.ne'
    unfold pStar
    linear_combination jrm - s * jre + lamR gamma wl wr * s3
  · apply dpos wl _ hl
    exact div_pos_of_neg_of_neg (by linarith [S.l.lmv]) (by linarith)
  · apply dpos wr _ hr
    exact div_pos (by linarith [S.r.vlp]) (by linarith)

theorem mean_clear' {gamma tiny : ℝ} {wl wr : Prim}
    (hc : Clear tiny (meanFlux (lamL gamma wl wr) (lamR gamma wl wr) (side gamma wl).e (side gamma wr).e
      (sideFlux gamma wl).e (sideFlux gamma wr).e)) : Clear tiny (fh gamma wl wr).e := by
  convert hc using 1
  simp only [fh, fluxHll, meanFlux, cons_add_e, cons_sub_e, cons_smul_e]
  ring

theorem mean_clear {gamma tiny : ℝ} {wl wr : Prim} {Ul Ur : Fin 4 → ℝ} (hl : Phys gamma wl) (hr : Phys gamma wr)
    (hUl : FourVel wl Ul) (hUr : FourVel wr Ur)
    (hc : Clear tiny (meanFlux (lamL gamma wl wr) (lamR gamma wl wr) (density gamma wl Ul).e (density gamma wr Ur).e
      (flux gamma wl Ul).e (flux gamma wr Ur).e)) : Clear tiny (fh gamma wl wr).e := by
  rw [← side_density gamma wr Ur hr.gt hUr, ← side_density gamma wl Ul hl.gt hUl,
    ← sideFlux_flux gamma wr Ur hr.gt hUr, ← sideFlux_flux gamma wl Ul hl.gt hUl] at hc
  exact mean_clear' hc

/-- HLLC gives the flux at the face of a fan of three waves between the outermost sound waves: a contact wave that
separates two states of equal velocity and pressure, with positive densities. Assumed is that the mean energy flux is zero
or larger than the number `TINY_NUMBER` that the code takes for zero. -/
theorem hllc_fan (gamma tiny : ℝ) (ht : 0 ≤ tiny) (wl wr : Prim) (Ul Ur : Fin 4 → ℝ) (hl : Phys gamma wl)
    (hr : Phys gamma wr) (hUl : FourVel wl Ul) (hUr : FourVel wr Ur) (sl sr : ℝ) (ho : Outer gamma wl wr Ul Ur sl sr)
    (hc : Clear tiny (meanFlux sl sr (density gamma wl Ul).e (density gamma wr Ur).e (flux gamma wl Ul).e
      (flux gamma wr Ur).e)) :
    ∃ (s P : ℝ) (ul ur : Cons), Fan (density gamma wl Ul) (flux gamma wl Ul) (density gamma wr Ur) (flux gamma wr Ur)
        sl s sr P ul ur ∧
      (0 ≤ sl → hllc gamma tiny wl wr = flux gamma wl Ul) ∧
      (sl < 0 → 0 ≤ s → hllc gamma tiny wl wr = carried s P ul) ∧
      (s < 0 → 0 < sr → hllc gamma tiny wl wr = carried s P ur) ∧
      (sr ≤ 0 → hllc gamma tiny wl wr = flux gamma wr Ur) := by
  have up := supersonic_upwind gamma tiny wl wr Ul Ur hl hr hUl hUr sl sr ho
  obtain ⟨e1, e2⟩ := outer_unique ho (outer gamma wl wr Ul Ur hl hr hUl hUr)
  rw [← side_density gamma wr Ur hr.gt hUr, ← side_density gamma wl Ul hl.gt hUl,
    ← sideFlux_flux gamma wr Ur hr.gt hUr, ← sideFlux_flux gamma wl Ul hl.gt hUl] at *
  subst e1 e2
  have hc' : Clear tiny (fh gamma wl wr).e := mean_clear' hc
  have F := fan_of gamma tiny ht wl wr hl hr hc'
  refine ⟨_, _, _, _, F, fun h => (up.1 h).2, ?_, ?_, fun h => (up.2 h).2⟩
  · intro h1 h2
    rw [← fluxStar_carried gamma wl _ _ _ F.order.1.ne]
    have h3 : ¬ lamL gamma wl wr ≥ 0 := by linarith
    have h4 : ¬ lamR gamma wl wr ≤ 0 := by have := F.order.2; linarith
    unfold hllc
    simp only [h3, h4, if_false]
    exact if_pos h2
  · intro h1 h2
    rw [← fluxStar_carried gamma wr _ _ _ F.order.2.ne']
    have h3 : ¬ lamL gamma wl wr ≥ 0 := by have := F.order.1; linarith
    have h4 : ¬ lamR gamma wl wr ≤ 0 := by linarith
    unfold hllc
    simp only [h3, h4, if_false]
    exact if_neg (not_le.mpr h1)

/-! ## Contact waves -/

/-- A quadratic positive at one end of an interval and negative at the other has one root between. -/
theorem one_root {A b m ll lr x y : ℝ} (hL : 0 < A * ll ^ 2 + b * ll + m) (hR : A * lr ^ 2 + b * lr + m < 0)
    (x1 : ll < x) (x2 : x < lr) (hx : A * x ^ 2 + b * x + m = 0) (y1 : ll < y) (y2 : y < lr)
    (hy : A * y ^ 2 + b * y + m = 0) : x = y := by
  by_contra hne
  have e1 : (x - y) * (A * (x + y) + b) = 0 := by linear_combination hx - hy
  have e2 : A * (x + y) + b = 0 := (mul_eq_zero.mp e1).resolve_left (sub_ne_zero.mpr hne)
  have e3 : ∀ z, A * z ^ 2 + b * z + m = A * (z - x) * (z - y) := by intro z; linear_combination hx + (z - x) * e2
  rw [e3] at hL hR
  have p1 : 0 < (ll - x) * (ll - y) := mul_pos_of_neg_of_neg (by linarith) (by linarith)
  have p2 : 0 < (lr - x) * (lr - y) := mul_pos (by linarith) (by linarith)
  rw [mul_assoc] at hL hR
  have h1 : 0 < A := (pos_iff_pos_of_mul_pos hL).mpr p1
  have := mul_pos h1 p2
  linarith

theorem contact_core (gamma : ℝ) (wl wr : Prim) (hl : Phys gamma wl) (hr : Phys gamma wr) (v : ℝ)
    (vl : wl.u1 / u0 wl = v) (vr : wr.u1 / u0 wr = v) (hp : wl.p = wr.p) :
    (fh gamma wl wr).e * v ^ 2 + -((uh gamma wl wr).e + (fh gamma wl wr).m1) * v + (uh gamma wl wr).m1 = 0 ∧
    -(fh gamma wl wr).e * v + (fh gamma wl wr).m1 = wl.p ∧ (v = 0 → (uh gamma wl wr).m1 = 0) := by
  have S := sides gamma wl wr hl hr
  have hlt : 0 < lamR gamma wl wr - lamL gamma wl wr := by linarith [S.l.lmv, S.l.vlp]
  have hml : (side gamma wl).m1 = v * (side gamma wl).e + wl.p * v := by rw [side_eq, ← vl]; simp only; ring
  have hmr : (side gamma wr).m1 = v * (side gamma wr).e + wl.p * v := by rw [side_eq, ← vr, hp]; simp only; ring
  unfold fh uh
  rw [sideFlux_eq, sideFlux_eq, vl, vr, ← hp]
  generalize lamL gamma wl wr = ll at *
  generalize lamR gamma wl wr = lr at *
  simp only [consHll, fluxHll, carried, cons_smul_m1, cons_smul_e, cons_add_m1, cons_sub_m1, cons_add_e, cons_sub_e,
      hml, hmr]
  generalize (side gamma wl).e = el
  generalize (side gamma wr).e = er
  refine ⟨?_, ?_, ?_⟩
  · field_simp
    ring
  · field_simp
    ring
  · intro h; rw [h]; ring

theorem contact_model (gamma tiny : ℝ) (ht : 0 ≤ tiny) (wl wr : Prim) (hl : Phys gamma wl) (hr : Phys gamma wr) (v : ℝ)
    (vl : wl.u1 / u0 wl = v) (vr : wr.u1 / u0 wr = v) (hp : wl.p = wr.p) (hc : v = 0 ∨ Clear tiny (fh gamma wl wr).e) :
    hllc gamma tiny wl wr = if 0 ≤ v then sideFlux gamma wl else sideFlux gamma wr := by
  obtain ⟨h1, hps, h3⟩ := contact_core gamma wl wr hl hr v vl vr hp
  have S := sides gamma wl wr hl hr
  have b1 := S.l.lmv
  have b2 := S.l.vlp
  rw [vl] at b1 b2
  have hs : lamStar tiny (uh gamma wl wr) (fh gamma wl wr) = v := by
    rcases hc with hc | hc
    · unfold lamStar
      rw [h3 hc, hc]
      simp
    · obtain ⟨s1, s2, s3⟩ := star gamma tiny ht wl wr hl hr hc
      obtain ⟨q1, q2, -⟩ := quad gamma wl wr hl hr
      exact one_root q1 q2 s1 s2 s3 b1 b2 h1
  change pStar v (fh gamma wl wr) = wl.p at hps
  have cs : ∀ w lam, w.u1 / u0 w = v → w.p = wl.p → lam ≠ v → fluxStar gamma w lam v wl.p = sideFlux gamma w := by
    intro w lam a1 a2 a3
    have : lam - v ≠ 0 := sub_ne_zero.mpr a3
    unfold fluxStar
    have : consStar gamma w lam v wl.p = side gamma w := by
      unfold consStar
      rw [a1, a2]
      apply cons_ext <;> simp <;> field_simp
    rw [this]
    apply cons_ext <;> simp
  have hdef : hllc gamma tiny wl wr = if lamL gamma wl wr ≥ 0 then sideFlux gamma wl
      else if lamR gamma wl wr ≤ 0 then sideFlux gamma wr
      else if lamStar tiny (uh gamma wl wr) (fh gamma wl wr) ≥ 0 then
        fluxStar gamma wl (lamL gamma wl wr) (lamStar tiny (uh gamma wl wr) (fh gamma wl wr))
          (pStar (lamStar tiny (uh gamma wl wr) (fh gamma wl wr)) (fh gamma wl wr))
      else fluxStar gamma wr (lamR gamma wl wr) (lamStar tiny (uh gamma wl wr) (fh gamma wl wr))
          (pStar (lamStar tiny (uh gamma wl wr) (fh gamma wl wr)) (fh gamma wl wr)) := by
    unfold hllc uh fh
    congr
  rw [hdef, hs, hps, cs wl _ vl rfl b1.ne, cs wr _ vr hp.symm b2.ne']
  by_cases c1 : lamL gamma wl wr ≥ 0
  · rw [if_pos c1, if_pos (by linarith)]
  · rw [if_neg c1]
    by_cases c2 : lamR gamma wl wr ≤ 0
    · rw [if_pos c2, if_neg (by linarith)]
    · rw [if_neg c2]

/-- A contact wave (equal velocity normal to the face and equal pressure; density and velocity along the face differ) is
carried without any diffusion: the flux is that of the upwind side. For contact waves that move, the mean energy flux must
not be below `TINY_NUMBER`. -/
theorem hllc_contact (gamma tiny : ℝ) (ht : 0 ≤ tiny) (wl wr : Prim) (Ul Ur : Fin 4 → ℝ) (hl : Phys gamma wl)
    (hr : Phys gamma wr) (hUl : FourVel wl Ul) (hUr : FourVel wr Ur) (hv : Ul 1 / Ul 0 = Ur 1 / Ur 0) (hp : wl.p = wr.p)
    (sl sr : ℝ) (ho : Outer gamma wl wr Ul Ur sl sr)
    (hc : Ul 1 = 0 ∨ Clear tiny (meanFlux sl sr (density gamma wl Ul).e (density gamma wr Ur).e (flux gamma wl Ul).e
      (flux gamma wr Ur).e)) :
    (0 ≤ Ul 1 → hllc gamma tiny wl wr = flux gamma wl Ul) ∧
    (Ul 1 < 0 → hllc gamma tiny wl wr = flux gamma wr Ur) := by
  obtain ⟨e1, e2⟩ := outer_unique ho (outer gamma wl wr Ul Ur hl hr hUl hUr)
  subst e1 e2
  have h := contact_model gamma tiny ht wl wr hl hr (Ul 1 / Ul 0) (by rw [u0_of hUl, hUl.x])
    (by rw [u0_of hUr, ← hUr.x, hv]) hp (by
      rcases hc with hc | hc
      · left; rw [hc, zero_div]
      · right; exact mean_clear hl hr hUl hUr hc)
  rw [sideFlux_flux gamma wr Ur hr.gt hUr, sideFlux_flux gamma wl Ul hl.gt hUl] at h
  have hu := hUl.future
  constructor
  · intro q; rw [h, if_pos (by positivity)]
  · intro q; rw [h, if_neg (by rw [not_le]; exact div_neg_of_neg_of_pos q hu)]

/-! ## Consistency -/

theorem same_hlle (gamma : ℝ) (w : Prim) (h : Phys gamma w) : hlle gamma w w = sideFlux gamma w := by
  have S := sides gamma w w h h
  have hlt : lamL gamma w w < lamR gamma w w := by linarith [S.l.lmv, S.l.vlp]
  have : lamR gamma w w - lamL gamma w w ≠ 0 := by linarith
  unfold hlle
  by_cases c1 : lamL gamma w w ≥ 0
  · simp only [c1, if_true]
  · by_cases c2 : lamR gamma w w ≤ 0
    · simp only [c1, c2, if_true, if_false]
    · simp only [c1, c2, if_false]
      generalize lamL gamma w w = ll at *
      generalize lamR gamma w w = lr at *
      apply cons_ext <;> simp [fluxHll] <;> field_simp

theorem same_llf (gamma : ℝ) (w : Prim) : llf gamma w w = sideFlux gamma w := by
  unfold llf
  apply cons_ext <;> simp <;> ring

theorem same_hllc (gamma tiny : ℝ) (ht : 0 ≤ tiny) (w : Prim) (h : Phys gamma w) (hc : Clear tiny (side gamma w).m1) :
    hllc gamma tiny w w = sideFlux gamma w := by
  have S := sides gamma w w h h
  have hlt : lamR gamma w w - lamL gamma w w ≠ 0 := by have := S.l.lmv; have := S.l.vlp; linarith
  have e : (fh gamma w w).e = (side gamma w).m1 := by
    rw [side_eq]
    unfold fh
    rw [sideFlux_eq, side_eq]
    generalize lamL gamma w w = ll at *
    generalize lamR gamma w w = lr at *
    simp only [fluxHll, carried, cons_add_e, cons_sub_e, cons_smul_e]
    generalize w.u1 / u0 w = v
    field_simp
    ring
  rw [contact_model gamma tiny ht w w h h _ rfl rfl rfl (Or.inr (by rw [e]; exact hc)), ite_self]

/-- Turned four-velocity: the axis of the sweep first. -/
def turn (m : Fin 4) (U : Fin 4 → ℝ) : Fin 4 → ℝ := ![U 0, U m, U (Fin.ofNat 4 (1 + m % 3)), U (Fin.ofNat 4 (1 + (m + 1) % 3))]

theorem fourvel_turn (w : Nat → ℝ) (U : Fin 4 → ℝ) (m : Fin 4) (hm : m ≠ 0) (hU : FourVel (primOf w) U) :
    FourVel (load m w) (turn m U) := by
  obtain ⟨x, y, z, fu, un⟩ := hU
  simp only [primOf] at x y z
  simp only [Fin.sum_univ_four, eta] at un
  simp [Fin.ext_iff] at un
  fin_cases m
  · exact absurd rfl hm
  · refine ⟨x, y, z, fu, ?_⟩
    rw [Fin.sum_univ_four]
    simp only [Fin.sum_univ_four, eta, turn]
    simp [Fin.ext_iff]
    convert un using 1
  · refine ⟨y, z, x, fu, ?_⟩
    rw [Fin.sum_univ_four]
    simp only [Fin.sum_univ_four, eta, turn]
    simp [Fin.ext_iff]
    change -(U 0 * U 0) + U 2 * U 2 + U 3 * U 3 + U 1 * U 1 = -1
    linarith
  · refine ⟨z, x, y, fu, ?_⟩
    rw [Fin.sum_univ_four]
    simp only [Fin.sum_univ_four, eta, turn]
    simp [Fin.ext_iff]
    change -(U 0 * U 0) + U 3 * U 3 + U 1 * U 1 + U 2 * U 2 = -1
    linarith

theorem phys_load {gamma : ℝ} {w : Nat → ℝ} (m : Nat) (h : Phys gamma (primOf w)) : Phys gamma (load m w) :=
  ⟨h.gt, h.le, h.rho, h.p⟩

theorem stored (gamma : ℝ) (w old : Nat → ℝ) (U : Fin 4 → ℝ) (m : Fin 4) (hm : m ≠ 0) (n : Nat) :
    store m (flux gamma (load m w) (turn m U)) old n = if n < 5 then axisFlux gamma w U m n else old n := by
  by_cases hn : n < 5
  · rw [if_pos hn]
    fin_cases m
    · exact absurd rfl hm
    all_goals
      interval_cases n <;>
      simp [store, Function.update, axisFlux, flux, stress, turn, load, primOf, enth, eta, Fin.ext_iff] <;>
      first | rfl | (left; left; rfl)
  · rw [if_neg hn]
    fin_cases m
    · exact absurd rfl hm
    all_goals
      unfold store
      rw [Function.update_of_ne (by simp; omega), Function.update_of_ne (by simp; omega),
        Function.update_of_ne (by simp; omega), Function.update_of_ne (by simp; omega),
        Function.update_of_ne (by simp; omega)]

/-- HLLE and LLF give the flux of the gas when both sides are equal; HLLC does if the energy flux is zero or larger than
`TINY_NUMBER`. -/
theorem relativistic_solvers_consistent (gamma tiny : ℝ) (ht : 0 ≤ tiny) :
    Consistent gamma (hlle gamma) (fun _ => True) ∧ Consistent gamma (llf gamma) (fun _ => True) ∧
    Consistent gamma (hllc gamma tiny) (Clear tiny) := by
  refine ⟨?_, ?_, ?_⟩ <;> intro w old U m hm h hU hc n <;> have h' := phys_load m h <;>
    have hU' := fourvel_turn w U m hm hU <;> unfold face
  · rw [same_hlle gamma _ h', sideFlux_flux gamma _ _ h.gt hU', stored gamma w old U m hm n]
  · rw [same_llf gamma, sideFlux_flux gamma _ _ h.gt hU', stored gamma w old U m hm n]
  · rw [same_hllc gamma tiny ht _ h' ?_, sideFlux_flux gamma _ _ h.gt hU', stored gamma w old U m hm n]
    rw [side_density gamma _ _ h.gt hU']
    convert hc using 1
    fin_cases m
    · exact absurd rfl hm
    all_goals simp [density, stress, turn, load, primOf, enth, eta, Fin.ext_iff]

/-! ## Mirror symmetry -/

theorem u0_mirror (w : Prim) : u0 w.mirror = u0 w := by simp [u0, Prim.mirror, lorentz]

theorem side_mirror (gamma : ℝ) (w : Prim) : side gamma w.mirror = { side gamma w with m1 := -(side gamma w).m1 } := by
  unfold side
  rw [u0_mirror]
  apply cons_ext <;> simp [Prim.mirror, wgas]

theorem sideFlux_mirror (gamma : ℝ) (w : Prim) : sideFlux gamma w.mirror = (sideFlux gamma w).mirror := by
  unfold sideFlux
  rw [u0_mirror]
  apply cons_ext <;> simp [Prim.mirror, wgas, Cons.mirror]

theorem speeds_mirror (gamma : ℝ) (w : Prim) :
    (speeds gamma w.mirror).1 = -(speeds gamma w).2 ∧ (speeds gamma w.mirror).2 = -(speeds gamma w).1 := by
  unfold speeds
  rw [u0_mirror, show wgas gamma w.mirror = wgas gamma w from rfl, show w.mirror.p = w.p from rfl,
    show w.mirror.u1 = -w.u1 from rfl, neg_div]
  simp only [soundSpeeds, neg_sq]
  constructor <;> ring

theorem lam_mirror (gamma : ℝ) (wl wr : Prim) :
    lamL gamma wr.mirror wl.mirror = -lamR gamma wl wr ∧ lamR gamma wr.mirror wl.mirror = -lamL gamma wl wr := by
  unfold lamL lamR
  rw [(speeds_mirror gamma wr).1, (speeds_mirror gamma wl).1, (speeds_mirror gamma wr).2, (speeds_mirror gamma wl).2]
  exact ⟨by rw [min_neg_neg, max_comm], by rw [max_neg_neg, min_comm]⟩

theorem hll_mirror (ll lr : ℝ) (ul ur fl fr : Cons) :
    fluxHll (-lr) (-ll) { ur with m1 := -ur.m1 } { ul with m1 := -ul.m1 } fr.mirror fl.mirror
      = (fluxHll ll lr ul ur fl fr).mirror ∧
    consHll (-lr) (-ll) { ur with m1 := -ur.m1 } { ul with m1 := -ul.m1 } fr.mirror fl.mirror
      = { consHll ll lr ul ur fl fr with m1 := -(consHll ll lr ul ur fl fr).m1 } := by
  constructor <;> apply cons_ext <;> simp [fluxHll, consHll, Cons.mirror, show -ll + lr = lr - ll by ring] <;>
    first | ring1 | (left; ring1)

theorem lamStar_mirror (tiny : ℝ) (u f : Cons) : lamStar tiny { u with m1 := -u.m1 } f.mirror = -lamStar tiny u f := by
  unfold lamStar
  simp only [Cons.mirror, abs_neg]
  by_cases h : |f.e| > tiny
  · simp only [h, if_true]
    rw [show 4 * -f.e * -u.m1 = 4 * f.e * u.m1 by ring]
    ring
  · simp only [h, if_false]
    ring

theorem fluxStar_mirror (gamma : ℝ) (w : Prim) (lam ls ps : ℝ) :
    fluxStar gamma w.mirror (-lam) (-ls) ps = (fluxStar gamma w lam ls ps).mirror := by
  unfold fluxStar consStar
  rw [u0_mirror, side_mirror, sideFlux_mirror, show w.mirror.u1 = -w.u1 from rfl, show w.mirror.p = w.p from rfl, neg_div,
    show -lam - -ls = -(lam - ls) by ring, one_div, one_div, inv_neg]
  generalize side gamma w = q
  generalize sideFlux gamma w = f
  apply cons_ext <;> simp [Cons.mirror] <;> ring

/-- Reflection of both states at the face reflects the flux. -/
theorem relativistic_mirror (gamma tiny : ℝ) (wl wr : Prim) (hl : Phys gamma wl) (hr : Phys gamma wr) :
    hlle gamma wr.mirror wl.mirror = (hlle gamma wl wr).mirror ∧
    llf gamma wr.mirror wl.mirror = (llf gamma wl wr).mirror ∧
    hllc gamma tiny wr.mirror wl.mirror = (hllc gamma tiny wl wr).mirror := by
  have S := sides gamma wl wr hl hr
  have hlt : lamL gamma wl wr < lamR gamma wl wr := by linarith [S.l.lmv, S.l.vlp]
  obtain ⟨m1, m2⟩ := lam_mirror gamma wl wr
  obtain ⟨k1, k2⟩ := hll_mirror (lamL gamma wl wr) (lamR gamma wl wr) (side gamma wl) (side gamma wr) (sideFlux gamma wl)
    (sideFlux gamma wr)
  refine ⟨?_, ?_, ?_⟩
  · unfold hlle
    simp only [m1, m2, side_mirror, sideFlux_mirror, k1]
    by_cases c1 : lamL gamma wl wr ≥ 0
    · have : ¬ -lamR gamma wl wr ≥ 0 := by linarith
      have h2 : -lamL gamma wl wr ≤ 0 := by linarith
      simp only [this, h2, c1, if_true, if_false]
    · by_cases c2 : lamR gamma wl wr ≤ 0
      · have : -lamR gamma wl wr ≥ 0 := by linarith
        simp only [this, c1, c2, if_true, if_false]
      · have : ¬ -lamR gamma wl wr ≥ 0 := by linarith
        have h2 : ¬ -lamL gamma wl wr ≤ 0 := by linarith
        simp only [this, h2, c1, c2, if_false]
  · unfold llf
    simp only [m1, m2, side_mirror, sideFlux_mirror, neg_neg]
    rw [max_comm]
    apply cons_ext <;> simp [Cons.mirror] <;> ring
  · unfold hllc
    simp only [m1, m2, side_mirror, sideFlux_mirror, k1, k2, lamStar_mirror]
    generalize lamStar tiny _ _ = ls
    have hp : pStar (-ls) (fluxHll (lamL gamma wl wr) (lamR gamma wl wr) (side gamma wl) (side gamma wr)
        (sideFlux gamma wl) (sideFlux gamma wr)).mirror = pStar ls (fluxHll (lamL gamma wl wr) (lamR gamma wl wr)
        (side gamma wl) (side gamma wr) (sideFlux gamma wl) (sideFlux gamma wr)) := by
      simp [pStar, Cons.mirror]
    rw [hp]
    generalize pStar ls _ = ps
    simp only [fluxStar_mirror]
    by_cases c1 : lamL gamma wl wr ≥ 0
    · have : ¬ -lamR gamma wl wr ≥ 0 := by linarith
      have h2 : -lamL gamma wl wr ≤ 0 := by linarith
      simp only [this, h2, c1, if_true, if_false]
    · by_cases c2 : lamR gamma wl wr ≤ 0
      · have : -lamR gamma wl wr ≥ 0 := by linarith
        simp only [this, c1, c2, if_true, if_false]
      · have : ¬ -lamR gamma wl wr ≥ 0 := by linarith
        have h2 : ¬ -lamL gamma wl wr ≤ 0 := by linarith
        simp only [this, h2, c1, c2, if_false]
        rcases lt_trichotomy ls 0 with q | q | q
        · have a1 : -ls ≥ 0 := by linarith
          have a2 : ¬ ls ≥ 0 := by linarith
          simp only [a1, a2, if_true, if_false]
        · have n1 : lamL gamma wl wr ≠ 0 := by intro h; exact c1 h.ge
          have n2 : lamR gamma wl wr ≠ 0 := by intro h; exact c2 h.le
          rw [q]
          simp only [neg_zero, ge_iff_le, le_refl, if_true]
          rw [fluxStar_carried _ _ _ _ _ n1, fluxStar_carried _ _ _ _ _ n2]
          simp [carried, Cons.mirror]
        · have a1 : ¬ -ls ≥ 0 := by linarith
          have a2 : ls ≥ 0 := by linarith
          simp only [a1, a2, if_true, if_false]

/-! ## The hypotheses can be met -/

theorem fourvel_x (rho p a b : ℝ) (ha : 0 < a) (h : a ^ 2 = 1 + b ^ 2) : FourVel ⟨rho, p, b, 0, 0⟩ ![a, b, 0, 0] := by
  have e : u0 ⟨rho, p, b, 0, 0⟩ = a := by
    unfold u0 lorentz
    rw [show 1 + b ^ 2 + 0 ^ 2 + 0 ^ 2 = a ^ 2 by linarith]
    exact Real.sqrt_sq ha.le
  have := fourvel ⟨rho, p, b, 0, 0⟩
  rwa [e] at this

/-- Two gases with different densities and pressures, one at rest, one at 3/5 of the speed of light. -/
example : Phys (5/3) ⟨1, 1, 0, 0, 0⟩ ∧ Phys (5/3) ⟨1/8, 1/10, 3/4, 0, 0⟩ ∧ FourVel ⟨1, 1, 0, 0, 0⟩ ![1, 0, 0, 0] ∧
    FourVel ⟨1/8, 1/10, 3/4, 0, 0⟩ ![5/4, 3/4, 0, 0] ∧
    ∃ sl sr, Outer (5/3) ⟨1, 1, 0, 0, 0⟩ ⟨1/8, 1/10, 3/4, 0, 0⟩ ![1, 0, 0, 0] ![5/4, 3/4, 0, 0] sl sr := by
  have h1 : Phys (5/3) ⟨1, 1, 0, 0, 0⟩ := by constructor <;> norm_num
  have h2 : Phys (5/3) ⟨1/8, 1/10, 3/4, 0, 0⟩ := by constructor <;> norm_num
  have h3 := fourvel_x 1 1 1 0 (by norm_num) (by norm_num)
  have h4 := fourvel_x (1/8) (1/10) (5/4) (3/4) (by norm_num) (by norm_num)
  exact ⟨h1, h2, h3, h4, _, _, outer (5/3) _ _ _ _ h1 h2 h3 h4⟩

/-- For given states all but a bounded set of thresholds `tiny` qualify. -/
example (Fe : ℝ) : ∃ tiny, 0 ≤ tiny ∧ Clear tiny Fe := by
  by_cases h : Fe = 0
  · exact ⟨0, le_rfl, Or.inl h⟩
  · exact ⟨0, le_rfl, Or.inr (abs_pos.mpr h)⟩

/-- A contact wave that moves: equal velocity and pressure, ten times the density on one side. -/
example : FourVel ⟨1, 1, 3/4, 0, 0⟩ ![5/4, 3/4, 0, 0] ∧ FourVel ⟨10, 1, 3/4, 0, 0⟩ ![5/4, 3/4, 0, 0] := by
  exact ⟨fourvel_x 1 1 (5/4) (3/4) (by norm_num) (by norm_num), fourvel_x 10 1 (5/4) (3/4) (by norm_num) (by norm_num)⟩

end Verif.Sr
