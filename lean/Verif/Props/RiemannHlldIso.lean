import Verif.Props.RiemannHlld

/-!
# C46: HLLD for an isothermal gas
-/
namespace Verif.Mhd
open Verif.TimeStep
open Verif.Riemann (Gas Gas.ifEnergy)

/-- The outer speeds bound both fast waves. -/
theorem iso_outer (cs bx : ℝ) (wl wr : W) :
    isoSl cs bx wl wr ≤ wl.vx - fast (.isothermal cs) bx wl ∧
    isoSl cs bx wl wr ≤ wr.vx - fast (.isothermal cs) bx wr ∧
    wl.vx + fast (.isothermal cs) bx wl ≤ isoSr cs bx wl wr ∧
    wr.vx + fast (.isothermal cs) bx wr ≤ isoSr cs bx wl wr :=
  ⟨min_le_left _ _, min_le_right _ _, le_max_left _ _, le_max_right _ _⟩

theorem iso_strict (cs bx : ℝ) (wl wr : W) (hl : Ok (.isothermal cs) wl) (hr : Ok (.isothermal cs) wr) :
    isoSl cs bx wl wr < wl.vx ∧ isoSl cs bx wl wr < wr.vx ∧ wl.vx < isoSr cs bx wl wr ∧ wr.vx < isoSr cs bx wl wr := by
  obtain ⟨a1, a2, a3, a4⟩ := iso_outer cs bx wl wr
  have cl := (fast_bounds bx hl).1
  have cr := (fast_bounds bx hr).1
  exact ⟨by linarith, by linarith, by linarith, by linarith⟩

/-- The averaged density is positive, before the floor. -/
theorem isoDraw_pos (cs bx : ℝ) (wl wr : W) (hl : Ok (.isothermal cs) wl) (hr : Ok (.isothermal cs) wr) :
    0 < isoDraw cs bx wl wr := by
  obtain ⟨b1, b2, b3, b4⟩ := iso_strict cs bx wl wr hl hr
  have e : isoDraw cs bx wl wr = (wr.d * (isoSr cs bx wl wr - wr.vx) + wl.d * (wl.vx - isoSl cs bx wl wr))
      * (1 / (isoSr cs bx wl wr - isoSl cs bx wl wr)) := by
    simp only [isoDraw, isoCons, isoFlux]; ring
  rw [e]
  have h1 := mul_pos hr.d_pos (sub_pos.2 b4)
  have h2 := mul_pos hl.d_pos (sub_pos.2 b1)
  have h3 : 0 < isoSr cs bx wl wr - isoSl cs bx wl wr := by linarith
  positivity

/-- The averages satisfy the jump conditions for mass and normal momentum at both outer waves. -/
theorem iso_averages (cs bx : ℝ) (wl wr : W) (hl : Ok (.isothermal cs) wl) (hr : Ok (.isothermal cs) wr) :
    let D := isoDraw cs bx wl wr
    let m := isoMx cs bx wl wr
    let Fd := (isoFhll cs bx wl wr).1
    let Fm := (isoFhll cs bx wl wr).2
    (Fd - wl.d * wl.vx = isoSl cs bx wl wr * (D - wl.d) ∧ Fd - wr.d * wr.vx = isoSr cs bx wl wr * (D - wr.d)) ∧
    Fm - (flux (.isothermal cs) bx wl).mx = isoSl cs bx wl wr * (m - wl.d * wl.vx) ∧
    Fm - (flux (.isothermal cs) bx wr).mx = isoSr cs bx wl wr * (m - wr.d * wr.vx) := by
  obtain ⟨b1, b2, b3, b4⟩ := iso_strict cs bx wl wr hl hr
  have h3 : isoSr cs bx wl wr - isoSl cs bx wl wr ≠ 0 := by linarith
  intro D m Fd Fm
  simp only [D, m, Fd, Fm, isoDraw, isoMx, isoFhll, isoFlux_eq, isoCons]
  generalize isoSr cs bx wl wr = sr at *
  generalize isoSl cs bx wl wr = sl at *
  have d1 : (flux (.isothermal cs) bx wl).d = wl.d * wl.vx := rfl
  have d2 : (flux (.isothermal cs) bx wr).d = wr.d * wr.vx := rfl
  rw [d1, d2]
  generalize (flux (.isothermal cs) bx wl).mx = f1
  generalize (flux (.isothermal cs) bx wr).mx = f2
  refine ⟨⟨?_, ?_⟩, ?_, ?_⟩ <;> field_simp <;> ring

/-- The jump conditions for the transverse quantities between a side and its star state. -/
theorem isoStar_jump (cs bx D m u M s sa a : ℝ) (w : W) (hd : 0 < w.d) (hcs : 0 < cs) (hD : 0 < D)
    (hu : D * (u - s) = w.d * (w.vx - s)) (ha : D * a ^ 2 = bx ^ 2)
    (hM : M - (flux (.isothermal cs) bx w).mx = s * (m - w.d * w.vx))
    (hn : 1/10000 * cs ≤ |s - sa|) (h1 : s ≠ u - a) (h3 : s ≠ u + a) :
    fluxIso bx u M (isoStar cs bx D m u s sa (u - a) (u + a) w) - flux (.isothermal cs) bx w
      = s • (isoStar cs bx D m u s sa (u - a) (u + a) w - cons (.isothermal cs) bx w) := by
  have hT : (s - (u - a)) * (s - (u + a)) ≠ 0 := mul_ne_zero (sub_ne_zero.2 h1) (sub_ne_zero.2 h3)
  have hD' : D ≠ 0 := hD.ne'
  have hT' : D * ((s - (u - a)) * (s - (u + a))) ≠ 0 := mul_ne_zero hD' hT
  have eT : D * ((s - (u - a)) * (s - (u + a))) = D * (u - s) ^ 2 - bx ^ 2 := by linear_combination -ha
  unfold isoStar
  simp only [if_neg (not_lt.2 hn)]
  set T := (s - (u - a)) * (s - (u + a)) with hTd
  set mf := bx * (u - w.vx) / T with hmf
  set bf := ((isoCons w).d * (s - w.vx) ^ 2 - bx * bx) / (D * T) with hbf
  have q1 : mf * T = bx * (u - w.vx) := div_mul_cancel₀ _ hT
  have q2 : bf * (D * T) = w.d * (s - w.vx) ^ 2 - bx * bx := div_mul_cancel₀ _ hT'
  clear_value mf bf
  clear hmf hbf
  -- the two relations that make the jump conditions hold
  have r1 : mf * (u - s) + bx * bf = bx := by
    apply mul_left_cancel₀ hT'
    have : w.d * (s - w.vx) ^ 2 = D * (u - s) * (w.vx - s) := by rw [hu]; ring
    linear_combination (D * (u - s)) * q1 + bx * q2 + bx * this - bx * eT
  have r2 : bf * (u - s) + bx * mf / D = w.vx - s := by
    have : bf * (u - s) * D + bx * mf = (w.vx - s) * D := by
      apply mul_left_cancel₀ hT
      have h4 : w.d * (s - w.vx) ^ 2 = D * (u - s) * (w.vx - s) := by rw [hu]; ring
      linear_combination (u - s) * q2 + bx * q1 + (u - s) * h4 - (w.vx - s) * eT
    field_simp
    linear_combination this
  ext
  · simp only [fluxIso, flux, cons, sub_d, smul_d]; linear_combination hu
  · simp only [fluxIso, cons, sub_mx, smul_mx]; exact hM
  · simp only [fluxIso, flux, cons, sub_my, smul_my, isoCons]; linear_combination w.vy * hu - w.bY * r1
  · simp only [fluxIso, flux, cons, sub_mz, smul_mz, isoCons]; linear_combination w.vz * hu - w.bZ * r1
  · simp [fluxIso, flux, cons, totalE]
  · simp only [fluxIso, flux, cons, sub_bY, smul_bY, isoCons]
    have : (D * w.vy - w.bY * mf) / D = w.vy - w.bY * (mf / D) := by field_simp
    rw [this]; linear_combination w.bY * r2
  · simp only [fluxIso, flux, cons, sub_bZ, smul_bZ, isoCons]
    have : (D * w.vz - w.bZ * mf) / D = w.vz - w.bZ * (mf / D) := by field_simp
    rw [this]; linear_combination w.bZ * r2

/-- The state between the Alfven waves (hlld_iso.cpp:189-196). -/
noncomputable def isoMid (bx D m : ℝ) (ul ur : F) : F :=
  let x := Real.sqrt D * bxsig bx
  ⟨D, m, 1/2 * (ul.my + ur.my + (ur.bY - ul.bY) * x), 1/2 * (ul.mz + ur.mz + (ur.bZ - ul.bZ) * x), 0,
    1/2 * (ul.bY + ur.bY + (ur.my - ul.my) / x), 1/2 * (ul.bZ + ur.bZ + (ur.mz - ul.mz) / x)⟩

theorem isoMid_jump (bx D m u M : ℝ) (ul ur : F) (hD : 0 < D) (h1 : ul.d = D) (h2 : ur.d = D) (h3 : ul.mx = m)
    (h4 : ur.mx = m) (h5 : ul.e = 0) (h6 : ur.e = 0) :
    fluxIso bx u M (isoMid bx D m ul ur) - fluxIso bx u M ul
      = (u - |bx| / Real.sqrt D) • (isoMid bx D m ul ur - ul) ∧
    fluxIso bx u M (isoMid bx D m ul ur) - fluxIso bx u M ur
      = (u + |bx| / Real.sqrt D) • (isoMid bx D m ul ur - ur) := by
  have hq : 0 < Real.sqrt D := Real.sqrt_pos.2 hD
  have e1 : D = Real.sqrt D ^ 2 := (Real.sq_sqrt hD.le).symm
  have hsig := bxsig_sq bx
  rw [abs_bxsig]
  unfold isoMid
  generalize bxsig bx = σ at *
  generalize Real.sqrt D = q at *
  have hq' : q ≠ 0 := hq.ne'
  rcases mul_self_eq_one_iff.1 hsig with rfl | rfl <;>
  · constructor <;>
    · ext
      all_goals simp only [fluxIso, sub_d, sub_mx, sub_my, sub_mz, sub_e, sub_bY, sub_bZ, smul_d, smul_mx, smul_my, smul_mz,
        smul_e, smul_bY, smul_bZ, h1, h2, h3, h4, h5, h6, e1]
      all_goals field_simp
      all_goals ring

/-- The isothermal solver in the regular case: the flux is that of the state which covers the face, in a fan of four
waves that satisfies the jump conditions. -/
theorem hlldIso_waves (cs dfloor bx : ℝ) (wl wr : W) (hl : Ok (.isothermal cs) wl) (hr : Ok (.isothermal cs) wr)
    (hf : dfloor ≤ isoDraw cs bx wl wr)
    (nl : 1/10000 * cs ≤ |isoSl cs bx wl wr - ((isoFhll cs bx wl wr).1 / isoDraw cs bx wl wr
      - |bx| / Real.sqrt (isoDraw cs bx wl wr))|)
    (nr : 1/10000 * cs ≤ |isoSr cs bx wl wr - ((isoFhll cs bx wl wr).1 / isoDraw cs bx wl wr
      + |bx| / Real.sqrt (isoDraw cs bx wl wr))|) :
    ∃ s1 s3 u M ul uc ur, IsoFan cs bx wl wr (isoSl cs bx wl wr) s1 s3 (isoSr cs bx wl wr) u M ul uc ur ∧
      hlldIso cs dfloor bx wl wr =
        if 0 ≤ isoSl cs bx wl wr then flux (.isothermal cs) bx wl
        else if isoSr cs bx wl wr ≤ 0 then flux (.isothermal cs) bx wr
        else fluxIso bx u M (if 0 ≤ s1 then ul else if s3 ≤ 0 then ur else uc) := by
  have hD := isoDraw_pos cs bx wl wr hl hr
  obtain ⟨b1, b2, b3, b4⟩ := iso_strict cs bx wl wr hl hr
  obtain ⟨⟨k1, k2⟩, k3, k4⟩ := iso_averages cs bx wl wr hl hr
  have hcs : 0 < cs := hl.2
  set sl := isoSl cs bx wl wr with hsl
  set sr := isoSr cs bx wl wr with hsr
  set D := isoDraw cs bx wl wr with hDd
  set Fd := (isoFhll cs bx wl wr).1 with hFd
  set M := (isoFhll cs bx wl wr).2 with hMd
  set m := isoMx cs bx wl wr with hm
  set u := Fd / D with hu
  have hDu : D * u = Fd := mul_div_cancel₀ _ hD.ne'
  set a := |bx| / Real.sqrt D with hadef
  have ha0 : 0 ≤ a := by positivity
  have ha : D * a ^ 2 = bx ^ 2 := by
    rw [hadef, div_pow, Real.sq_sqrt hD.le, sq_abs]; field_simp
  have ul1 : D * (u - sl) = wl.d * (wl.vx - sl) := by linear_combination hDu + k1
  have ur1 : D * (u - sr) = wr.d * (wr.vx - sr) := by linear_combination hDu + k2
  have o1 : sl < u := by
    have := mul_pos hl.d_pos (sub_pos.2 b1)
    rw [← ul1] at this
    linarith [(mul_pos_iff_of_pos_left hD).1 this]
  have o2 : u < sr := by
    have := mul_pos hr.d_pos (sub_pos.2 b4)
    have h' : 0 < D * (sr - u) := by linarith
    linarith [(mul_pos_iff_of_pos_left hD).1 h']
  have pos : 0 < 1/10000 * cs := by positivity
  have n1 : sl ≠ u - a := by
    intro h; rw [h, sub_self, abs_zero] at nl; linarith
  have n3 : sr ≠ u + a := by
    intro h; rw [h, sub_self, abs_zero] at nr; linarith
  have jl := isoStar_jump cs bx D m u M sl (u - a) a wl hl.d_pos hcs hD ul1 ha k3 nl n1 (by linarith : sl < u + a).ne
  have jr := isoStar_jump cs bx D m u M sr (u + a) a wr hr.d_pos hcs hD ur1 ha k4 nr (by linarith : u - a < sr).ne' n3
  set ul := isoStar cs bx D m u sl (u - a) (u - a) (u + a) wl with hul
  set ur := isoStar cs bx D m u sr (u + a) (u - a) (u + a) wr with hur
  have dl : ul.d = D ∧ ul.mx = m ∧ ul.e = 0 := by rw [hul]; unfold isoStar; simp only; split <;> simp
  have dr : ur.d = D ∧ ur.mx = m ∧ ur.e = 0 := by rw [hur]; unfold isoStar; simp only; split <;> simp
  obtain ⟨jm, jn⟩ := isoMid_jump bx D m u M ul ur hD dl.1 dr.1 dl.2.1 dr.2.1 dl.2.2 dr.2.2
  refine ⟨u - a, u + a, u, M, ul, isoMid bx D m ul ur, ur, ⟨⟨o1, o2, rfl, rfl⟩, ⟨hD, dl.1, dr.1⟩, jl, jm, jn, jr⟩, ?_⟩
  have step : ∀ (f g u v : F) (s : ℝ), g - f = s • (u - v) → f + s • (u - v) = g := by
    intro f g u v s h
    rw [← h]
    ext <;> simp
  unfold hlldIso
  simp only [isoFlux_eq, isoCons_eq cs bx, plus_eq, ← hsl, ← hsr, ← hDd, max_eq_left hf, ← hFd, ← hMd, ← hm, ← hu,
    ← hadef, ← hul, ← hur]
  rw [step _ _ _ _ _ jl, step _ _ _ _ _ jr]
  split_ifs
  · rfl
  · rfl
  · rfl
  · rfl
  · unfold fluxIso isoMid
    simp only [mul_div_assoc]

/-- The isothermal solver is consistent for densities not less than the floor. -/
theorem hlldIso_same (cs dfloor bx : ℝ) (w : W) (h : Ok (.isothermal cs) w) (hf : dfloor ≤ w.d) :
    hlldIso cs dfloor bx w w = flux (.isothermal cs) bx w := by
  obtain ⟨b1, b2, b3, b4⟩ := iso_strict cs bx w w h h
  have hd := h.d_pos
  have hcs : 0 < cs := h.2
  have hs : isoSr cs bx w w - isoSl cs bx w w ≠ 0 := by linarith
  have e1 : isoDraw cs bx w w = w.d := by
    simp only [isoDraw, isoCons, isoFlux]; field_simp; ring
  have e2 : (isoFhll cs bx w w).1 = w.d * w.vx := by
    simp only [isoFhll, isoFlux, isoCons]; field_simp; ring
  have e3 : (isoFhll cs bx w w).2 = (flux (.isothermal cs) bx w).mx := by
    simp only [isoFhll, isoFlux_eq, isoCons]; field_simp; ring
  have e4 : isoMx cs bx w w = w.d * w.vx := by
    simp only [isoMx, isoFlux_eq, isoCons]; field_simp; ring
  have e5 : w.d * w.vx / w.d = w.vx := mul_div_cancel_left₀ _ hd.ne'
  set a := |bx| / Real.sqrt w.d with hadef
  have ha0 : 0 ≤ a := by positivity
  have ha : w.d * a ^ 2 = bx ^ 2 := by
    rw [hadef, div_pow, Real.sq_sqrt hd.le, sq_abs]; field_simp
  have pos : 0 < 1/10000 * cs := by positivity
  have st : ∀ s sa, s ≠ w.vx → sa = w.vx - a ∧ s < w.vx ∨ sa = w.vx + a ∧ w.vx < s →
      isoStar cs bx w.d (w.d * w.vx) w.vx s sa (w.vx - a) (w.vx + a) w = cons (.isothermal cs) bx w := by
    intro s sa hne hsa
    unfold isoStar
    simp only
    split
    · ext <;> simp [isoCons, cons, totalE] <;> ring
    · rename_i hdeg
      rw [not_lt] at hdeg
      have hne' : s ≠ sa := by
        rintro rfl; rw [sub_self, abs_zero] at hdeg; linarith
      have hT : (s - (w.vx - a)) * (s - (w.vx + a)) ≠ 0 := by
        rcases hsa with ⟨rfl, h2⟩ | ⟨rfl, h2⟩
        · exact mul_ne_zero (sub_ne_zero.2 hne') (by linarith : s - (w.vx + a) < 0).ne
        · exact mul_ne_zero (by linarith : 0 < s - (w.vx - a)).ne' (sub_ne_zero.2 hne')
      have eT : w.d * ((s - (w.vx - a)) * (s - (w.vx + a))) = w.d * (s - w.vx) ^ 2 - bx * bx := by
        linear_combination -ha
      have eb : ((isoCons w).d * (s - w.vx) ^ 2 - bx * bx) / (w.d * ((s - (w.vx - a)) * (s - (w.vx + a)))) = 1 := by
        have hx := mul_ne_zero hd.ne' hT
        rw [eT] at hx ⊢
        exact div_self hx
      rw [eb, sub_self, mul_zero, zero_div]
      ext <;> simp [isoCons, cons, totalE]
  have zero : ∀ (f u : F) (s : ℝ), f + s • (u - u) = f := by
    intro f u s; ext <;> simp
  unfold hlldIso
  simp only [isoFlux_eq, isoCons_eq cs bx, plus_eq, e1, e2, e3, e4, max_eq_left hf, e5, ← hadef,
    st _ _ b1.ne (Or.inl ⟨rfl, b1⟩), st _ _ b4.ne' (Or.inr ⟨rfl, b4⟩), zero]
  split_ifs <;> try rfl
  have f4 : (flux (.isothermal cs) bx w).e = 0 := rfl
  ext <;> simp only [flux, cons] <;> field_simp <;> ring

/-- The same on the arrays of the code, with the electric field. -/
theorem hlldIso_consistent (cs dfloor : ℝ) (w b oldF oldE : Nat → ℝ) (m : Nat) (hm : m = 1 ∨ m = 2 ∨ m = 3)
    (hcs : 0 < cs) (hd : 0 < w 0) (hf : dfloor ≤ w 0) :
    let s := load (.isothermal cs) m (stateArr (.isothermal cs) m w b)
    (∀ n, storeFlux (.isothermal cs) m (hlldIso cs dfloor (b m) s s) oldF n
      = if n < 4 then axisFlux (.isothermal cs) m w b n else oldF n) ∧
    (∀ c, storeE m (hlldIso cs dfloor (b m) s s) oldE c
      = if (c = 1 ∨ c = 2 ∨ c = 3) ∧ c ≠ m then electric w b c else oldE c) := by
  intro s
  have hs : s.d = w 0 := by simp [s, load, stateArr, iby]
  have hok : Ok (.isothermal cs) s := ⟨hs ▸ hd, hcs⟩
  rw [hlldIso_same cs dfloor (b m) s hok (hs ▸ hf)]
  exact consistent_of (g := .isothermal cs) (solver := fun bx w _ => flux (.isothermal cs) bx w) (fun _ _ _ => rfl)
    w b oldF oldE m hm hok

/-- If both flows are faster than their fast waves to one side, the flux is that of the side from which they come. -/
theorem hlldIso_upwind (cs dfloor bx : ℝ) (wl wr : W) (hl : Ok (.isothermal cs) wl) :
    (fast (.isothermal cs) bx wl ≤ wl.vx → fast (.isothermal cs) bx wr ≤ wr.vx →
      hlldIso cs dfloor bx wl wr = flux (.isothermal cs) bx wl) ∧
    (wl.vx ≤ -fast (.isothermal cs) bx wl → wr.vx ≤ -fast (.isothermal cs) bx wr →
      hlldIso cs dfloor bx wl wr = flux (.isothermal cs) bx wr) := by
  obtain ⟨a1, a2, a3, a4⟩ := iso_outer cs bx wl wr
  have cl := (fast_bounds bx hl).1
  unfold hlldIso
  simp only [isoFlux_eq]
  constructor
  · intro h1 h2
    rw [if_pos]
    unfold isoSl
    exact le_min (by linarith) (by linarith)
  · intro h1 h2
    rw [if_neg (by linarith), if_pos]
    unfold isoSr
    exact max_le (by linarith) (by linarith)

/-- The density floor is essential for consistency: below it the solver makes a mass flux of its own. -/
theorem hlldIso_floor : hlldIso 1 4 0 ⟨1, 1/4, 0, 0, 0, 0, 0⟩ ⟨1, 1/4, 0, 0, 0, 0, 0⟩
    ≠ flux (.isothermal 1) 0 ⟨1, 1/4, 0, 0, 0, 0, 0⟩ := by
  have f : fast (.isothermal 1) 0 ⟨1, 1/4, 0, 0, 0, 0, 0⟩ = 1 := by
    simp only [fast, fastSpeed, asq]; norm_num
  intro h
  have := congrArg F.d h
  unfold hlldIso at this
  simp only [isoSl, isoSr, f, isoDraw, isoFhll, isoCons, isoFlux, isoStar, F.plus, flux] at this
  norm_num at this

/-- Two streams that collide along a field. -/
example : ∃ s1 s3 u M ul uc ur, IsoFan 2 1 ⟨1, 1, 5, 0, 0, 0, 0⟩ ⟨1, -1, 0, 7, 0, 0, 0⟩ (-3) s1 s3 3 u M ul uc ur := by
  have h4 : Real.sqrt 4 = 2 := by
    rw [show (4 : ℝ) = 2 ^ 2 by norm_num]; exact Real.sqrt_sq (by norm_num)
  have h9 : Real.sqrt 9 = 3 := by
    rw [show (9 : ℝ) = 3 ^ 2 by norm_num]; exact Real.sqrt_sq (by norm_num)
  have f1 : fast (.isothermal 2) 1 ⟨1, 1, 5, 0, 0, 0, 0⟩ = 2 := by
    simp only [fast, fastSpeed, asq]; norm_num [h4, h9]
  have f2 : fast (.isothermal 2) 1 ⟨1, -1, 0, 7, 0, 0, 0⟩ = 2 := by
    simp only [fast, fastSpeed, asq]; norm_num [h4, h9]
  have e1 : isoSl 2 1 ⟨1, 1, 5, 0, 0, 0, 0⟩ ⟨1, -1, 0, 7, 0, 0, 0⟩ = -3 := by
    simp only [isoSl, f1, f2]; norm_num
  have e2 : isoSr 2 1 ⟨1, 1, 5, 0, 0, 0, 0⟩ ⟨1, -1, 0, 7, 0, 0, 0⟩ = 3 := by
    simp only [isoSr, f1, f2]; norm_num
  have e3 : isoDraw 2 1 ⟨1, 1, 5, 0, 0, 0, 0⟩ ⟨1, -1, 0, 7, 0, 0, 0⟩ = 4/3 := by
    simp only [isoDraw, e1, e2, isoCons, isoFlux]; norm_num
  have e4 : (isoFhll 2 1 ⟨1, 1, 5, 0, 0, 0, 0⟩ ⟨1, -1, 0, 7, 0, 0, 0⟩).1 = 0 := by
    simp only [isoFhll, e1, e2, isoCons, isoFlux]; norm_num
  have b : 1 ≤ Real.sqrt (4/3) := by rw [Real.one_le_sqrt]; norm_num
  have b' : (1 : ℝ) / Real.sqrt (4/3) ≤ 1 := by rw [div_le_one (by linarith)]; exact b
  have b0 : (0 : ℝ) ≤ 1 / Real.sqrt (4/3) := by positivity
  have h := hlldIso_waves 2 0 1 ⟨1, 1, 5, 0, 0, 0, 0⟩ ⟨1, -1, 0, 7, 0, 0, 0⟩
    ⟨by norm_num, by norm_num⟩ ⟨by norm_num, by norm_num⟩
  simp only [e1, e2, e3, e4, zero_div, abs_one] at h
  obtain ⟨s1, s3, u, M, ul, uc, ur, hf, _⟩ := h (by norm_num)
    (by rw [abs_of_neg (by linarith)]; linarith) (by rw [abs_of_pos (by linarith)]; linarith)
  exact ⟨s1, s3, u, M, ul, uc, ur, hf⟩

end Verif.Mhd
