import Verif.Lemmas.Riemann

/-!
# C46: HLLC and LHLLC
-/
namespace Verif.Riemann
open Verif.TimeStep

theorem hllcQ_ge_one (gamma pmid p : ℝ) (hg : 1 < gamma) (hp : 0 < p) : 1 ≤ hllcQ gamma pmid p := by
  unfold hllcQ
  split
  · exact le_rfl
  · rename_i h
    push Not at h
    rw [← Real.sqrt_one]
    apply Real.sqrt_le_sqrt
    have h1 : 1 ≤ pmid / p := (one_le_div hp).2 h.le
    have h2 : 0 ≤ (gamma + 1) / (2 * gamma) := by
      have : 0 < gamma := by linarith
      positivity
    have h3 : 0 ≤ pmid / p - 1 := by linarith
    have h4 := mul_nonneg h2 h3
    rw [Real.sqrt_one]
    linarith

/-- The outer speeds are at least the sound speed away from the velocity of their side, so that the divisor
`ml + mr = dl (vl - al) + dr (ar - vr)` is positive. -/
theorem hllc_speeds (gamma : ℝ) (wl wr : W) (hl : Ok (.adiabatic gamma) wl) (hr : Ok (.adiabatic gamma) wr) :
    hllcAl gamma wl wr ≤ wl.vx - Gas.sound (.adiabatic gamma) wl ∧
      wr.vx + Gas.sound (.adiabatic gamma) wr ≤ hllcAr gamma wl wr ∧
      0 < wl.d * (wl.vx - hllcAl gamma wl wr) + wr.d * (hllcAr gamma wl wr - wr.vx) := by
  have cl := hl.sound_pos
  have cr := hr.sound_pos
  obtain ⟨hdl, hpl, hg⟩ := hl
  obtain ⟨hdr, hpr, _⟩ := hr
  have q1 := hllcQ_ge_one gamma (hllcPmid gamma wl wr) wl.p hg hpl
  have q2 := hllcQ_ge_one gamma (hllcPmid gamma wl wr) wr.p hg hpr
  have e1 : hllcAl gamma wl wr ≤ wl.vx - Gas.sound (.adiabatic gamma) wl := by
    simp only [hllcAl, Gas.sound] at *
    nlinarith
  have e2 : wr.vx + Gas.sound (.adiabatic gamma) wr ≤ hllcAr gamma wl wr := by
    simp only [hllcAr, Gas.sound] at *
    nlinarith
  refine ⟨e1, e2, ?_⟩
  have h1 : 0 < wl.d * (wl.vx - hllcAl gamma wl wr) := mul_pos hdl (by linarith)
  have h2 : 0 < wr.d * (hllcAr gamma wl wr - wr.vx) := mul_pos hdr (by linarith)
  linarith

/-- Steps 6 to 9 for a contact: equal normal velocity and pressure on both sides. -/
theorem hllcFlux_contact (gamma tiny v p : ℝ) (ht : 0 < tiny) (wl wr : W) (hl : Ok (.adiabatic gamma) wl)
    (hr : Ok (.adiabatic gamma) wr) (h1 : wl.vx = v) (h2 : wr.vx = v) (h3 : wl.p = p) (h4 : wr.p = p) (al ar : ℝ) :
    hllcFlux gamma tiny wl wr al ar v p = if 0 ≤ v then flux (.adiabatic gamma) wl else flux (.adiabatic gamma) wr := by
  have hg1 : gamma - 1 ≠ 0 := by linarith [hl.2.2]
  obtain ⟨dl, vxl, vyl, vzl, pl⟩ := wl
  obtain ⟨dr, vxr, vyr, vzr, pr⟩ := wr
  simp only at h1 h2 h3 h4
  subst h1 h3 h2 h4
  have hbm : (if al < 0 then al else -tiny) < 0 := by split <;> linarith
  have hbp : 0 < (if 0 < ar then ar else tiny) := by split <;> linarith
  unfold hllcFlux
  simp only [lineFlux_eq _ _ _ hl, lineFlux_eq _ _ _ hr]
  generalize (if al < 0 then al else -tiny) = bm at *
  generalize (if 0 < ar then ar else tiny) = bp at *
  split
  · have : vxr - bm ≠ 0 := by linarith
    ext <;> simp [flux, cons] <;> field_simp <;> ring
  · have : bp - vxr ≠ 0 := by linarith
    ext <;> simp [flux, cons] <;> field_simp <;> ring

theorem hllcAm_contact (gamma v p : ℝ) (wl wr : W) (hl : Ok (.adiabatic gamma) wl)
    (hr : Ok (.adiabatic gamma) wr) (h1 : wl.vx = v) (h2 : wr.vx = v) (h3 : wl.p = p) (h4 : wr.p = p) :
    hllcAm gamma wl wr = v ∧ hllcCp gamma wl wr = p := by
  have hd := (hllc_speeds gamma wl wr hl hr).2.2
  have hp := hl.2.1
  unfold hllcAm hllcCp
  rw [h1, h2] at hd
  rw [h1, h2, h3, h4]
  generalize hllcAl gamma wl wr = al at *
  generalize hllcAr gamma wl wr = ar at *
  have hne : wl.d * (v - al) + -(wr.d * (v - ar)) ≠ 0 := by
    have : wl.d * (v - al) + -(wr.d * (v - ar)) = wl.d * (v - al) + wr.d * (ar - v) := by ring
    rw [this]; exact hd.ne'
  have e1 : (p + (v - al) * wl.d * v - (p + (v - ar) * wr.d * v)) / (wl.d * (v - al) + -(wr.d * (v - ar))) = v := by
    rw [div_eq_iff hne]; ring
  have e2 : (wl.d * (v - al) * (p + (v - ar) * wr.d * v) + -(wr.d * (v - ar)) * (p + (v - al) * wl.d * v)) /
      (wl.d * (v - al) + -(wr.d * (v - ar))) = p := by
    rw [div_eq_iff hne]; ring
  refine ⟨e1, ?_⟩
  simp only [e2]
  rw [if_pos (h3 ▸ hp)]

/-- HLLC keeps contacts and shear layers exactly: if the normal velocity and the pressure agree, the flux is that of
the state on the upwind side, whatever the densities and transverse velocities are. In particular a contact at rest does
not diffuse. -/
theorem hllc_contact (gamma tiny : ℝ) (ht : 0 < tiny) (wl wr : W) (hl : Ok (.adiabatic gamma) wl)
    (hr : Ok (.adiabatic gamma) wr) (hv : wl.vx = wr.vx) (hp : wl.p = wr.p) :
    hllc gamma tiny wl wr = if 0 ≤ wl.vx then flux (.adiabatic gamma) wl else flux (.adiabatic gamma) wr := by
  obtain ⟨e1, e2⟩ := hllcAm_contact gamma wl.vx wl.p wl wr hl hr rfl hv.symm rfl hp.symm
  unfold hllc
  rw [e1, e2]
  exact hllcFlux_contact gamma tiny wl.vx wl.p ht wl wr hl hr rfl hv.symm rfl hp.symm _ _

/-- HLLC is consistent. -/
theorem hllc_consistent (gamma tiny : ℝ) (ht : 0 < tiny) : Consistent (.adiabatic gamma) (hllc gamma tiny) := by
  refine consistent_of fun w hw => ?_
  rw [hllc_contact gamma tiny ht w w hw hw rfl rfl, ite_self]

/-- A stationary contact: only the pressure acts on the face. -/
example : hllc (5/3) (1/10) ⟨1, 0, 2, 0, 3⟩ ⟨7, 0, -5, 1, 3⟩ = ⟨0, 3, 0, 0, 0⟩ := by
  rw [hllc_contact (5/3) (1/10) (by norm_num) ⟨1, 0, 2, 0, 3⟩ ⟨7, 0, -5, 1, 3⟩
    ⟨by norm_num, by norm_num, by norm_num⟩ ⟨by norm_num, by norm_num, by norm_num⟩ rfl rfl]
  simp [flux]

/-- The same for LHLLC, whatever the shock detector says. -/
theorem lhllc_contact (gamma tiny dvn dvt : ℝ) (ht : 0 < tiny) (wl wr : W) (hl : Ok (.adiabatic gamma) wl)
    (hr : Ok (.adiabatic gamma) wr) (hv : wl.vx = wr.vx) (hp : wl.p = wr.p) :
    lhllc gamma tiny dvn dvt wl wr =
      if 0 ≤ wl.vx then flux (.adiabatic gamma) wl else flux (.adiabatic gamma) wr := by
  have hd := (hllc_speeds gamma wl wr hl hr).2.2
  have hp0 := hl.2.1
  have e1 : lhllcAm gamma dvn dvt wl wr = wl.vx := by
    unfold lhllcAm
    simp only
    rw [← hv] at hd ⊢
    rw [hp, sub_self, mul_zero, sub_zero, div_eq_iff (by
      have : wr.d * (hllcAr gamma wl wr - wl.vx) - wl.d * (hllcAl gamma wl wr - wl.vx) =
        wl.d * (wl.vx - hllcAl gamma wl wr) + wr.d * (hllcAr gamma wl wr - wl.vx) := by ring
      rw [this]; exact hd.ne')]
    ring
  have e2 : lhllcCp gamma wl wr = wl.p := by
    unfold lhllcCp
    simp only
    rw [← hv, ← hp] at *
    have : wr.d * (hllcAr gamma wl wr - wl.vx) - wl.d * (hllcAl gamma wl wr - wl.vx) =
        wl.d * (wl.vx - hllcAl gamma wl wr) + wr.d * (hllcAr gamma wl wr - wl.vx) := by ring
    rw [sub_self, mul_zero, add_zero, ← sub_mul, mul_div_assoc, mul_comm, div_mul_cancel₀ _ (by rw [this]; exact hd.ne')]
    rw [if_pos hp0]
  unfold lhllc
  rw [e1, e2]
  exact hllcFlux_contact gamma tiny wl.vx wl.p ht wl wr hl hr rfl hv.symm rfl hp.symm _ _

theorem soundSpeed_pos {gamma : ℝ} {w : W} (h : Ok (.adiabatic gamma) w) : 0 < soundSpeed gamma w.p w.d := by
  obtain ⟨h1, h2, h3⟩ := h
  unfold soundSpeed
  have : 0 < gamma := by linarith
  exact Real.sqrt_pos.mpr (by positivity)

/-- The low Mach number corrections of LHLLC are bounded: the pressure at the contact lies between the impedance-weighted mean
of the two pressures and that of HLLC (`θ = 1`), the correction being switched off in proportion to the Mach number. -/
theorem lhllc_pressure (gamma : ℝ) (wl wr : W) (hl : Ok (.adiabatic gamma) wl) :
    ∃ θ, 0 ≤ θ ∧ θ ≤ 1 ∧
      θ ≤ 2 * (Real.sqrt (max (wl.vx ^ 2 + wl.vy ^ 2 + wl.vz ^ 2) (wr.vx ^ 2 + wr.vy ^ 2 + wr.vz ^ 2)) /
        max (soundSpeed gamma wl.p wl.d) (soundSpeed gamma wr.p wr.d)) ∧
      (max (soundSpeed gamma wl.p wl.d) (soundSpeed gamma wr.p wr.d) ^ 2 ≤
        max (wl.vx ^ 2 + wl.vy ^ 2 + wl.vz ^ 2) (wr.vx ^ 2 + wr.vy ^ 2 + wr.vz ^ 2) → θ = 1) ∧
      let zl := wl.d * (wl.vx - hllcAl gamma wl wr)
      let zr := wr.d * (hllcAr gamma wl wr - wr.vx)
      lhllcCp gamma wl wr = max 0 ((zr * wl.p + zl * wr.p - θ * zl * zr * (wr.vx - wl.vx)) / (zl + zr)) ∧
      hllcCp gamma wl wr = max 0 ((zr * wl.p + zl * wr.p - 1 * zl * zr * (wr.vx - wl.vx)) / (zl + zr)) := by
  have c0 : 0 < max (soundSpeed gamma wl.p wl.d) (soundSpeed gamma wr.p wr.d) :=
    lt_max_of_lt_left (soundSpeed_pos hl)
  generalize hc : max (soundSpeed gamma wl.p wl.d) (soundSpeed gamma wr.p wr.d) = c at *
  generalize hv : max (wl.vx ^ 2 + wl.vy ^ 2 + wl.vz ^ 2) (wr.vx ^ 2 + wr.vy ^ 2 + wr.vz ^ 2) = v at *
  have m0 : 0 ≤ Real.sqrt v / c := div_nonneg (Real.sqrt_nonneg _) c0.le
  have e0 : 0 ≤ min 1 (Real.sqrt v / c) := le_min zero_le_one m0
  have e1 : min 1 (Real.sqrt v / c) ≤ 1 := min_le_left _ _
  have e2 : min 1 (Real.sqrt v / c) ≤ Real.sqrt v / c := min_le_right _ _
  refine ⟨min 1 (Real.sqrt v / c) * (2 - min 1 (Real.sqrt v / c)), ?_, ?_, ?_, ?_, ?_, ?_⟩
  · exact mul_nonneg e0 (by linarith)
  · nlinarith [sq_nonneg (1 - min 1 (Real.sqrt v / c))]
  · nlinarith
  · intro h
    have : 1 ≤ Real.sqrt v / c := by
      rw [le_div_iff₀ c0, one_mul]
      exact Real.le_sqrt_of_sq_le h
    rw [min_eq_left this]
    norm_num
  · unfold lhllcCp
    simp only [hc, hv]
    rw [max_def_lt]
    have : ∀ t, (wr.d * (hllcAr gamma wl wr - wr.vx) * wl.p - wl.d * (hllcAl gamma wl wr - wl.vx) * wr.p +
          t * (wr.d * (hllcAr gamma wl wr - wr.vx)) * (wl.d * (hllcAl gamma wl wr - wl.vx)) * (wr.vx - wl.vx)) /
        (wr.d * (hllcAr gamma wl wr - wr.vx) - wl.d * (hllcAl gamma wl wr - wl.vx)) =
        (wr.d * (hllcAr gamma wl wr - wr.vx) * wl.p + wl.d * (wl.vx - hllcAl gamma wl wr) * wr.p -
          t * (wl.d * (wl.vx - hllcAl gamma wl wr)) * (wr.d * (hllcAr gamma wl wr - wr.vx)) * (wr.vx - wl.vx)) /
        (wl.d * (wl.vx - hllcAl gamma wl wr) + wr.d * (hllcAr gamma wl wr - wr.vx)) := by
      intro t
      congr 1 <;> ring
    rw [this]
  · unfold hllcCp
    simp only []
    rw [max_def_lt]
    have : (wl.d * (wl.vx - hllcAl gamma wl wr) * (wr.p + (wr.vx - hllcAr gamma wl wr) * wr.d * wr.vx) +
          -(wr.d * (wr.vx - hllcAr gamma wl wr)) * (wl.p + (wl.vx - hllcAl gamma wl wr) * wl.d * wl.vx)) /
        (wl.d * (wl.vx - hllcAl gamma wl wr) + -(wr.d * (wr.vx - hllcAr gamma wl wr))) =
        (wr.d * (hllcAr gamma wl wr - wr.vx) * wl.p + wl.d * (wl.vx - hllcAl gamma wl wr) * wr.p -
          1 * (wl.d * (wl.vx - hllcAl gamma wl wr)) * (wr.d * (hllcAr gamma wl wr - wr.vx)) * (wr.vx - wl.vx)) /
        (wl.d * (wl.vx - hllcAl gamma wl wr) + wr.d * (hllcAr gamma wl wr - wr.vx)) := by
      congr 1 <;> ring
    rw [this]

/-- Where the gas is as fast as sound and the shock detector sees no compression along the face, LHLLC is HLLC. -/
theorem lhllc_is_hllc (gamma tiny dvn dvt : ℝ) (wl wr : W) (hl : Ok (.adiabatic gamma) wl)
    (hd : min dvn 0 ≤ min dvt 0)
    (hv : max (soundSpeed gamma wl.p wl.d) (soundSpeed gamma wr.p wr.d) ^ 2 ≤
        max (wl.vx ^ 2 + wl.vy ^ 2 + wl.vz ^ 2) (wr.vx ^ 2 + wr.vy ^ 2 + wr.vz ^ 2)) :
    lhllc gamma tiny dvn dvt wl wr = hllc gamma tiny wl wr := by
  have c0 : 0 < max (soundSpeed gamma wl.p wl.d) (soundSpeed gamma wr.p wr.d) :=
    lt_max_of_lt_left (soundSpeed_pos hl)
  have ecp : lhllcCp gamma wl wr = hllcCp gamma wl wr := by
    obtain ⟨θ, -, -, -, h1, h2, h3⟩ := lhllc_pressure gamma wl wr hl
    rw [h2, h3, h1 hv]
  have eth : lhllcTh (max (soundSpeed gamma wl.p wl.d) (soundSpeed gamma wr.p wr.d)) dvn dvt = 1 := by
    unfold lhllcTh
    have hm : min dvt 0 ≤ 0 := min_le_right _ _
    have : 1 ≤ (max (soundSpeed gamma wl.p wl.d) (soundSpeed gamma wr.p wr.d) - min dvn 0) /
        (max (soundSpeed gamma wl.p wl.d) (soundSpeed gamma wr.p wr.d) - min dvt 0) := by
      rw [le_div_iff₀ (by linarith)]
      linarith
    rw [min_eq_left this]
    norm_num
  have eam : lhllcAm gamma dvn dvt wl wr = hllcAm gamma wl wr := by
    unfold lhllcAm hllcAm
    simp only [eth]
    congr 1 <;> ring
  unfold lhllc hllc
  rw [ecp, eam]

/-- Hypotheses of `lhllc_is_hllc`. -/
example : Ok (.adiabatic 2) ⟨1, 4, 0, 0, 2⟩ ∧ min (0:ℝ) 0 ≤ min 0 0 ∧
    max (soundSpeed 2 2 1) (soundSpeed 2 2 1) ^ 2 ≤ max ((4:ℝ) ^ 2 + 0 ^ 2 + 0 ^ 2) (4 ^ 2 + 0 ^ 2 + 0 ^ 2) := by
  refine ⟨⟨by norm_num, by norm_num, by norm_num⟩, le_rfl, ?_⟩
  rw [max_self, max_self]
  unfold soundSpeed
  rw [Real.sq_sqrt (by norm_num)]
  norm_num

/-- LHLLC is consistent. -/
theorem lhllc_consistent (gamma tiny dvn dvt : ℝ) (ht : 0 < tiny) :
    Consistent (.adiabatic gamma) (lhllc gamma tiny dvn dvt) := by
  refine consistent_of fun w hw => ?_
  rw [lhllc_contact gamma tiny dvn dvt ht w w hw hw rfl rfl, ite_self]

/-- The intermediate states of HLLC. When the fan is open (`al < 0 < ar`, the contact between them) and the pressure at
the contact is not cut, there are states on both sides of the contact with the velocity `am`, the pressure `cp` and the
transverse velocities of their side; the jump conditions hold at all three waves, and the flux is the one of the state
that covers the face. -/
theorem hllc_waves (gamma tiny : ℝ) (wl wr : W) (hl : Ok (.adiabatic gamma) wl)
    (hr : Ok (.adiabatic gamma) wr) (h1 : hllcAl gamma wl wr < 0) (h2 : 0 < hllcAr gamma wl wr)
    (h3 : hllcAl gamma wl wr < hllcAm gamma wl wr) (h4 : hllcAm gamma wl wr < hllcAr gamma wl wr)
    (h5 : 0 < hllcCp gamma wl wr) :
    ∃ (s P dl dr el er : ℝ), 0 < dl ∧ 0 < dr ∧
      let UL : F := ⟨dl, dl * s, dl * wl.vy, dl * wl.vz, el⟩
      let UR : F := ⟨dr, dr * s, dr * wr.vy, dr * wr.vz, er⟩
      let work : F := ⟨0, P, 0, 0, P * s⟩
      hllcAl gamma wl wr < s ∧ s < hllcAr gamma wl wr ∧
      s • UL + work - flux (.adiabatic gamma) wl = hllcAl gamma wl wr • (UL - cons (.adiabatic gamma) wl) ∧
      flux (.adiabatic gamma) wr - (s • UR + work) = hllcAr gamma wl wr • (cons (.adiabatic gamma) wr - UR) ∧
      hllc gamma tiny wl wr = if 0 ≤ s then s • UL + work else s • UR + work := by
  obtain ⟨b1, b2, hd⟩ := hllc_speeds gamma wl wr hl hr
  have hcl := hl.sound_pos
  have hcr := hr.sound_pos
  have hg1 : gamma - 1 ≠ 0 := by linarith [hl.2.2]
  have hdl := hl.1
  have hdr := hr.1
  -- the unclipped pressure
  have hcp : hllcCp gamma wl wr = (wl.d * (wl.vx - hllcAl gamma wl wr) *
      (wr.p + (wr.vx - hllcAr gamma wl wr) * wr.d * wr.vx) + -(wr.d * (wr.vx - hllcAr gamma wl wr)) *
      (wl.p + (wl.vx - hllcAl gamma wl wr) * wl.d * wl.vx)) /
      (wl.d * (wl.vx - hllcAl gamma wl wr) + -(wr.d * (wr.vx - hllcAr gamma wl wr))) := by
    by_contra hne
    unfold hllcCp at h5 hne
    simp only at h5 hne
    split at h5
    · rename_i hpos
      rw [if_pos hpos] at hne
      exact hne rfl
    · exact absurd h5 (lt_irrefl _)
  have ham : hllcAm gamma wl wr = (wl.p + (wl.vx - hllcAl gamma wl wr) * wl.d * wl.vx -
      (wr.p + (wr.vx - hllcAr gamma wl wr) * wr.d * wr.vx)) /
      (wl.d * (wl.vx - hllcAl gamma wl wr) + -(wr.d * (wr.vx - hllcAr gamma wl wr))) := rfl
  unfold hllc hllcFlux
  simp only [if_pos h1, if_pos h2, lineFlux_eq _ _ _ hl, lineFlux_eq _ _ _ hr]
  generalize hllcAm gamma wl wr = s at *
  generalize hllcCp gamma wl wr = P at *
  generalize hllcAl gamma wl wr = al at *
  generalize hllcAr gamma wl wr = ar at *
  have hne : wl.d * (wl.vx - al) + -(wr.d * (wr.vx - ar)) ≠ 0 := by
    have : wl.d * (wl.vx - al) + -(wr.d * (wr.vx - ar)) = wl.d * (wl.vx - al) + wr.d * (ar - wr.vx) := by ring
    rw [this]; exact hd.ne'
  rw [eq_div_iff hne] at hcp ham
  have hsl : s - al ≠ 0 := by linarith
  have hsr : s - ar ≠ 0 := by linarith
  have hsr' : ar - s ≠ 0 := by linarith
  have hvl : 0 < wl.vx - al := by linarith
  have hvr : 0 < ar - wr.vx := by linarith
  -- the pressure from each side
  have pl : P = wl.p + wl.d * (wl.vx - al) * (wl.vx - s) := by
    have hm : wl.d * (wl.vx - al) + -(wr.d * (wr.vx - ar)) ≠ 0 := hne
    apply mul_right_cancel₀ hm
    linear_combination hcp - (wl.d * (wl.vx - al)) * ham * (-1)
  have pr : P = wr.p + wr.d * (wr.vx - ar) * (wr.vx - s) := by
    apply mul_right_cancel₀ hne
    linear_combination hcp + (wr.d * (wr.vx - ar)) * ham
  refine ⟨s, P, wl.d * (wl.vx - al) / (s - al), wr.d * (wr.vx - ar) / (s - ar),
    ((wl.vx - al) * (cons (.adiabatic gamma) wl).e + wl.p * wl.vx - P * s) / (s - al),
    ((wr.vx - ar) * (cons (.adiabatic gamma) wr).e + wr.p * wr.vx - P * s) / (s - ar), ?_, ?_, h3, h4, ?_, ?_, ?_⟩
  · exact div_pos (mul_pos hdl hvl) (by linarith)
  · exact div_pos_of_neg_of_neg (mul_neg_of_pos_of_neg hdr (by linarith)) (by linarith)
  · ext <;> simp [flux, cons] <;> field_simp
    all_goals first
      | ring1
      | (rw [pl]; ring)
  · ext <;> simp [flux, cons] <;> field_simp
    all_goals first
      | ring1
      | (rw [pr]; ring)
  · split
    · ext <;> simp [flux, cons] <;> field_simp
      all_goals first
        | ring1
        | (rw [pl]; ring)
    · ext <;> simp [flux, cons] <;> field_simp
      all_goals first
        | ring1
        | (rw [pr]; ring)

/-- The fan of a contact at rest is open. -/
example (gamma : ℝ) (hg : 1 < gamma) (dl dr vyl vyr : ℝ) (h1 : 0 < dl) (h2 : 0 < dr) :
    let wl : W := ⟨dl, 0, vyl, 0, 3⟩
    let wr : W := ⟨dr, 0, vyr, 1, 3⟩
    hllcAl gamma wl wr < 0 ∧ 0 < hllcAr gamma wl wr ∧ hllcAl gamma wl wr < hllcAm gamma wl wr ∧
      hllcAm gamma wl wr < hllcAr gamma wl wr ∧ 0 < hllcCp gamma wl wr := by
  intro wl wr
  have hl : Ok (.adiabatic gamma) wl := ⟨h1, by norm_num [wl], hg⟩
  have hr : Ok (.adiabatic gamma) wr := ⟨h2, by norm_num [wr], hg⟩
  obtain ⟨a, b, _⟩ := hllc_speeds gamma wl wr hl hr
  have cl := hl.sound_pos
  have cr := hr.sound_pos
  obtain ⟨e1, e2⟩ := hllcAm_contact gamma 0 3 wl wr hl hr rfl rfl rfl rfl
  have z1 : wl.vx = 0 := rfl
  have z2 : wr.vx = 0 := rfl
  rw [z1] at a
  rw [z2] at b
  rw [e1, e2]
  refine ⟨by linarith, by linarith, by linarith, by linarith, by norm_num⟩

end Verif.Riemann
