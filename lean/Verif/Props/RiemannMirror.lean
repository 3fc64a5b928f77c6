import Verif.Props.Riemann
import Verif.Props.RiemannHllc
import Verif.Props.RiemannRoe

/-!
# C46: reflection symmetry, and what follows at a reflecting wall
-/
namespace Verif.Riemann
open Verif.TimeStep

theorem Ok.mirror {g : Gas} {w : W} (h : Ok g w) : Ok g w.mirror := by
  cases g <;> exact h

theorem sound_mirror (g : Gas) (w : W) : g.sound w.mirror = g.sound w := by cases g <;> rfl

theorem flux_mirror (g : Gas) (w : W) : flux g w.mirror = (⟨-(flux g w).d, (flux g w).mx, -(flux g w).my,
    -(flux g w).mz, -(flux g w).e⟩ : F) := by
  cases g <;> ext <;> simp [flux, W.mirror]

theorem cons_mirror (g : Gas) (w : W) : cons g w.mirror = (⟨(cons g w).d, -(cons g w).mx, (cons g w).my,
    (cons g w).mz, (cons g w).e⟩ : F) := by
  cases g <;> ext <;> simp [cons, W.mirror]

theorem roeMean_swap (wl wr : W) (x y : ℝ) : roeMean wr.mirror wl.mirror y x = roeMean wl wr x y := by
  simp only [roeMean, W.mirror]
  ring

theorem roeMean_neg (wl wr : W) (x y : ℝ) : roeMean wl wr (-x) (-y) = -roeMean wl wr x y := by
  simp only [roeMean]
  ring

theorem roeEnthalpy_mirror (g : Gas) (wl wr : W) : roeEnthalpy g wr.mirror wl.mirror = roeEnthalpy g wl wr := by
  have he : ∀ w, g.energy w.mirror = g.energy w := fun w => by cases g <;> simp [Gas.energy, W.mirror]
  simp only [roeEnthalpy, he]
  simp only [W.mirror]
  ring

theorem hlleA_mirror (g : Gas) (wl wr : W) : hlleA g wr.mirror wl.mirror = hlleA g wl wr := by
  have hx : roeMean wr.mirror wl.mirror wr.mirror.vx wl.mirror.vx = -roeMean wl wr wl.vx wr.vx := by
    rw [roeMean_swap]; exact roeMean_neg wl wr _ _
  have hy : roeMean wr.mirror wl.mirror wr.mirror.vy wl.mirror.vy = roeMean wl wr wl.vy wr.vy := roeMean_swap _ _ _ _
  have hz : roeMean wr.mirror wl.mirror wr.mirror.vz wl.mirror.vz = roeMean wl wr wl.vz wr.vz := roeMean_swap _ _ _ _
  have hq : roeQ g wr.mirror wl.mirror = roeQ g wl wr := by
    simp only [roeQ, roeEnthalpy_mirror, hx, hy, hz]; ring
  cases g <;> simp only [hlleA, hq]

/-- HLLE commutes with reflection. -/
theorem hlle_mirror (g : Gas) : Mirror g (hlle g) := by
  intro wl wr hl hr
  obtain ⟨bm, bp, hm, hp, hlt, h⟩ := hlle_formula g wl wr hl hr
  obtain ⟨bm', bp', hm', hp', _, h'⟩ := hlle_formula g wr.mirror wl.mirror hr.mirror hl.mirror
  have hx : roeMean wr.mirror wl.mirror wr.mirror.vx wl.mirror.vx = -roeMean wl wr wl.vx wr.vx := by
    rw [roeMean_swap]; exact roeMean_neg wl wr _ _
  rw [hx, hlleA_mirror, sound_mirror] at hm' hp'
  have e1 : bm' = -bp := by
    rw [hm', hp, ← min_neg_neg, ← min_neg_neg, neg_zero]
    congr 2
    · ring
    · simp only [W.mirror]; ring
  have e2 : bp' = -bm := by
    rw [hp', hm, ← max_neg_neg, ← max_neg_neg, neg_zero]
    congr 2
    · ring
    · simp only [W.mirror]; ring
  rw [h, h', e1, e2, flux_mirror, flux_mirror, cons_mirror, cons_mirror]
  have hne : bp - bm ≠ 0 := by linarith
  rw [show -bm - -bp = bp - bm by ring]
  ext <;> simp only [F.mirror, add_d, add_mx, add_my, add_mz, add_e, smul_d, smul_mx,
    smul_my, smul_mz, smul_e, sub_d, sub_mx, sub_my, sub_mz, sub_e] <;> field_simp <;> ring

/-- LLF commutes with reflection. -/
theorem llf_mirror (g : Gas) : Mirror g (llf g) := by
  intro wl wr hl hr
  rw [llf_formula g _ _ hr.mirror hl.mirror, llf_formula g _ _ hl hr, sound_mirror, sound_mirror, flux_mirror,
    flux_mirror, cons_mirror, cons_mirror]
  have e : max (|wr.mirror.vx| + g.sound wr) (|wl.mirror.vx| + g.sound wl)
      = max (|wl.vx| + g.sound wl) (|wr.vx| + g.sound wr) := by
    simp only [W.mirror, abs_neg]; exact max_comm _ _
  rw [e]
  generalize max (|wl.vx| + g.sound wl) (|wr.vx| + g.sound wr) = A
  ext <;> simp only [F.mirror, add_d, add_mx, add_my, add_mz, add_e, smul_d, smul_mx,
        smul_my, smul_mz, smul_e, sub_d, sub_mx, sub_my, sub_mz, sub_e] <;> ring

theorem hllcFlux_mirror (gamma tiny : ℝ) (ht : 0 < tiny) (wl wr : W) (hl : Ok (.adiabatic gamma) wl)
    (hr : Ok (.adiabatic gamma) wr) (al ar am cp : ℝ) :
    hllcFlux gamma tiny wr.mirror wl.mirror (-ar) (-al) (-am) cp = (hllcFlux gamma tiny wl wr al ar am cp).mirror := by
  unfold hllcFlux
  simp only [lineFlux_eq _ _ _ hl, lineFlux_eq _ _ _ hr, lineFlux_eq _ _ _ hl.mirror, lineFlux_eq _ _ _ hr.mirror,
    flux_mirror, cons_mirror]
  have b1 : (if 0 < -al then -al else tiny) = -(if al < 0 then al else -tiny) := by
    simp only [neg_pos]; split <;> ring
  have b2 : (if -ar < 0 then -ar else -tiny) = -(if 0 < ar then ar else tiny) := by
    simp only [neg_lt_zero]; split <;> ring
  rw [b1, b2]
  have hbm : (if al < 0 then al else -tiny) < 0 := by split <;> linarith
  have hbp : 0 < (if 0 < ar then ar else tiny) := by split <;> linarith
  generalize (if al < 0 then al else -tiny) = bm at *
  generalize (if 0 < ar then ar else tiny) = bp at *
  rcases lt_trichotomy am 0 with ha | ha | ha
  · have n1 : ¬ 0 ≤ am := by linarith
    have n2 : 0 ≤ -am := by linarith
    have n3 : bp - am ≠ 0 := by linarith
    simp only [if_neg n1, if_pos n2]
    rw [show -am - -bp = bp - am by ring]
    ext <;> simp only [F.mirror, flux, cons, add_d, add_mx, add_my, add_mz, add_e, smul_d, smul_mx,
    smul_my, smul_mz, smul_e, sub_d, sub_mx, sub_my, sub_mz, sub_e] <;> field_simp <;> ring
  · subst ha
    have n3 : bp ≠ 0 := hbp.ne'
    have n4 : bm ≠ 0 := hbm.ne
    ext <;> simp [F.mirror] <;> field_simp <;> simp
  · have n1 : 0 ≤ am := by linarith
    have n2 : ¬ 0 ≤ -am := by linarith
    have n3 : am - bm ≠ 0 := by linarith
    simp only [if_pos n1, if_neg n2]
    rw [show -bm - -am = am - bm by ring]
    ext <;> simp only [F.mirror, flux, cons, add_d, add_mx, add_my, add_mz, add_e, smul_d, smul_mx,
    smul_my, smul_mz, smul_e, sub_d, sub_mx, sub_my, sub_mz, sub_e] <;> field_simp <;> ring

/-- HLLC commutes with reflection. -/
theorem hllc_mirror (gamma tiny : ℝ) (ht : 0 < tiny) : Mirror (.adiabatic gamma) (hllc gamma tiny) := by
  intro wl wr hl hr
  have hd := (hllc_speeds gamma wl wr hl hr).2.2
  have hpm : hllcPmid gamma wr.mirror wl.mirror = hllcPmid gamma wl wr := by
    simp only [hllcPmid, W.mirror]; ring
  have e1 : hllcAl gamma wr.mirror wl.mirror = -hllcAr gamma wl wr := by
    unfold hllcAl hllcAr
    rw [hpm]; simp only [W.mirror]; ring
  have e2 : hllcAr gamma wr.mirror wl.mirror = -hllcAl gamma wl wr := by
    unfold hllcAl hllcAr
    rw [hpm]; simp only [W.mirror]; ring
  have hne : wl.d * (wl.vx - hllcAl gamma wl wr) + -(wr.d * (wr.vx - hllcAr gamma wl wr)) ≠ 0 := by
    have : wl.d * (wl.vx - hllcAl gamma wl wr) + -(wr.d * (wr.vx - hllcAr gamma wl wr)) =
      wl.d * (wl.vx - hllcAl gamma wl wr) + wr.d * (hllcAr gamma wl wr - wr.vx) := by ring
    rw [this]; exact hd.ne'
  have hne' : wr.d * (-wr.vx - -hllcAr gamma wl wr) + -(wl.d * (-wl.vx - -hllcAl gamma wl wr)) ≠ 0 := by
    have : wr.d * (-wr.vx - -hllcAr gamma wl wr) + -(wl.d * (-wl.vx - -hllcAl gamma wl wr)) =
      wl.d * (wl.vx - hllcAl gamma wl wr) + -(wr.d * (wr.vx - hllcAr gamma wl wr)) := by ring
    rw [this]; exact hne
  have e3 : hllcAm gamma wr.mirror wl.mirror = -hllcAm gamma wl wr := by
    unfold hllcAm
    simp only [e1, e2]
    simp only [W.mirror]
    rw [← neg_div, div_eq_div_iff hne' hne]
    ring
  have e4 : hllcCp gamma wr.mirror wl.mirror = hllcCp gamma wl wr := by
    have : ∀ x y : ℝ, x = y → (if 0 < x then x else 0) = if 0 < y then y else 0 := by rintro x _ rfl; rfl
    unfold hllcCp
    simp only [e1, e2]
    apply this
    simp only [W.mirror]
    rw [div_eq_div_iff hne' hne]
    ring
  unfold hllc
  rw [e1, e2, e3, e4]
  exact hllcFlux_mirror gamma tiny ht wl wr hl hr _ _ _ _

/-- The LHLLC solver commutes with reflection; the velocity differences `dvn`, `dvt` are the same after reflection. -/
theorem lhllc_mirror (gamma tiny dvn dvt : ℝ) (ht : 0 < tiny) :
    Mirror (.adiabatic gamma) (lhllc gamma tiny dvn dvt) := by
  intro wl wr hl hr
  have hd := (hllc_speeds gamma wl wr hl hr).2.2
  have hpm : hllcPmid gamma wr.mirror wl.mirror = hllcPmid gamma wl wr := by
    simp only [hllcPmid, W.mirror]; ring
  have e1 : hllcAl gamma wr.mirror wl.mirror = -hllcAr gamma wl wr := by
    unfold hllcAl hllcAr
    rw [hpm]; simp only [W.mirror]; ring
  have e2 : hllcAr gamma wr.mirror wl.mirror = -hllcAl gamma wl wr := by
    unfold hllcAl hllcAr
    rw [hpm]; simp only [W.mirror]; ring
  have hne : wr.d * (hllcAr gamma wl wr - wr.vx) - wl.d * (hllcAl gamma wl wr - wl.vx) ≠ 0 := by
    have : wr.d * (hllcAr gamma wl wr - wr.vx) - wl.d * (hllcAl gamma wl wr - wl.vx) =
      wl.d * (wl.vx - hllcAl gamma wl wr) + wr.d * (hllcAr gamma wl wr - wr.vx) := by ring
    rw [this]; exact hd.ne'
  have hne' : wl.d * (-hllcAl gamma wl wr - -wl.vx) - wr.d * (-hllcAr gamma wl wr - -wr.vx) ≠ 0 := by
    have : wl.d * (-hllcAl gamma wl wr - -wl.vx) - wr.d * (-hllcAr gamma wl wr - -wr.vx) =
      wr.d * (hllcAr gamma wl wr - wr.vx) - wl.d * (hllcAl gamma wl wr - wl.vx) := by ring
    rw [this]; exact hne
  have e3 : lhllcAm gamma dvn dvt wr.mirror wl.mirror = -lhllcAm gamma dvn dvt wl wr := by
    unfold lhllcAm
    simp only [e1, e2]
    simp only [W.mirror]
    rw [max_comm (soundSpeed gamma wr.p wr.d), ← neg_div, div_eq_div_iff hne' hne]
    ring
  have e4 : lhllcCp gamma wr.mirror wl.mirror = lhllcCp gamma wl wr := by
    have : ∀ x y : ℝ, x = y → (if 0 < x then x else 0) = if 0 < y then y else 0 := by rintro x _ rfl; rfl
    unfold lhllcCp
    simp only [e1, e2]
    apply this
    simp only [W.mirror]
    rw [max_comm (soundSpeed gamma wr.p wr.d), max_comm ((-wr.vx) ^ 2 + wr.vy ^ 2 + wr.vz ^ 2), neg_sq, neg_sq,
      div_eq_div_iff hne' hne]
    ring
  unfold lhllc
  rw [e1, e2, e3, e4]
  exact hllcFlux_mirror gamma tiny ht wl wr hl hr _ _ _ _

theorem waves_unique (gamma : ℝ) (wl wr : W) (hl : Ok (.adiabatic gamma) wl) (hr : Ok (.adiabatic gamma) wr)
    (a b : Fin 5 → ℝ)
    (h : sum5 a (waveAd (roeMean wl wr wl.vx wr.vx) (roeMean wl wr wl.vy wr.vy) (roeMean wl wr wl.vz wr.vz)
      (roeEnthalpy (.adiabatic gamma) wl wr) (hlleA (.adiabatic gamma) wl wr)) =
      sum5 b (waveAd (roeMean wl wr wl.vx wr.vx) (roeMean wl wr wl.vy wr.vy) (roeMean wl wr wl.vz wr.vz)
      (roeEnthalpy (.adiabatic gamma) wl wr) (hlleA (.adiabatic gamma) wl wr))) : a = b := by
  have hc := hlleA_pos _ wl wr hl hr
  have hqp := roeQ_pos gamma wl wr hl hr
  have hz := sum5_zero (roeMean wl wr wl.vx wr.vx) (roeMean wl wr wl.vy wr.vy) (roeMean wl wr wl.vz wr.vz)
    (roeEnthalpy (.adiabatic gamma) wl wr) _ (fun i => a i - b i) hc (by
    unfold roeQ at hqp
    refine hqp.trans_eq ?_
    ring) (by
    have e : ∀ r : Fin 5 → F, sum5 (fun i => a i - b i) r = sum5 a r - sum5 b r := by
      intro r
      ext <;> simp only [sum5, add_d, add_mx, add_my, add_mz, add_e, smul_d, smul_mx,
        smul_my, smul_mz, smul_e, sub_d, sub_mx, sub_my, sub_mz, sub_e] <;> ring
    rw [e, h]
    ext <;> simp)
  funext i
  have := hz i
  linarith

/-- The adiabatic Roe solver commutes with reflection. -/
theorem roe_mirror (gamma tiny : ℝ) : Mirror (.adiabatic gamma) (roe (.adiabatic gamma) tiny) := by
  intro wl wr hl hr
  obtain ⟨hc, a, s1, s2, h⟩ := roe_waves gamma tiny wl wr hl hr
  obtain ⟨_, b, t1, t2, h'⟩ := roe_waves gamma tiny wr.mirror wl.mirror hr.mirror hl.mirror
  have hx : roeMean wr.mirror wl.mirror wr.mirror.vx wl.mirror.vx = -roeMean wl wr wl.vx wr.vx := by
    rw [roeMean_swap]; exact roeMean_neg wl wr _ _
  have hy : roeMean wr.mirror wl.mirror wr.mirror.vy wl.mirror.vy = roeMean wl wr wl.vy wr.vy := roeMean_swap _ _ _ _
  have hz : roeMean wr.mirror wl.mirror wr.mirror.vz wl.mirror.vz = roeMean wl wr wl.vz wr.vz := roeMean_swap _ _ _ _
  rw [hx, hy, hz, roeEnthalpy_mirror, hlleA_mirror] at t1 t2 h'
  -- the strengths of the reflected waves
  have hb : (fun i => match i with
      | (0 : Fin 5) => -b 4
      | 1 => -b 1
      | 2 => -b 2
      | 3 => -b 3
      | 4 => -b 0) = a := by
    apply waves_unique gamma wl wr hl hr
    rw [s1]
    rw [cons_mirror, cons_mirror] at t1
    have d := congrArg F.d t1
    have x := congrArg F.mx t1
    have y := congrArg F.my t1
    have z := congrArg F.mz t1
    have e := congrArg F.e t1
    simp only [sum5, waveAd, add_d, add_mx, add_my, add_mz, add_e, smul_d, smul_mx,
        smul_my, smul_mz, smul_e, sub_d, sub_mx, sub_my, sub_mz, sub_e] at d x y z e
    ext <;> simp only [sum5, waveAd, add_d, add_mx, add_my, add_mz, add_e, smul_d, smul_mx,
        smul_my, smul_mz, smul_e, sub_d, sub_mx, sub_my, sub_mz, sub_e]
    · linear_combination -d
    · linear_combination x
    · linear_combination -y
    · linear_combination -z
    · linear_combination -e
  have a0 : a 0 = -b 4 := by rw [← hb]
  have a1 : a 1 = -b 1 := by rw [← hb]
  have a2 : a 2 = -b 2 := by rw [← hb]
  have a3 : a 3 = -b 3 := by rw [← hb]
  have a4 : a 4 = -b 0 := by rw [← hb]
  have hd := congrArg F.d s1
  simp only [sum5, waveAd, add_d, smul_d, sub_d] at hd
  have cd : ∀ u, (cons (.adiabatic gamma) u).d = u.d := fun u => rfl
  rw [cd, cd] at hd
  have hcond : (wr.mirror.d + b 0 < 0 ∨ wr.mirror.d + b 0 + b 3 < 0) ↔ (wl.d + a 0 < 0 ∨ wl.d + a 0 + a 3 < 0) := by
    have e1 : wr.mirror.d + b 0 = wl.d + a 0 + a 3 := by
      simp only [W.mirror]; linarith
    have e2 : wr.mirror.d + b 0 + b 3 = wl.d + a 0 := by
      simp only [W.mirror]; linarith
    rw [e2, e1, or_comm]
  rw [h, h']
  by_cases hf : wl.d + a 0 < 0 ∨ wl.d + a 0 + a 3 < 0
  · rw [if_pos hf, if_pos (hcond.2 hf)]
    exact llf_mirror _ wl wr hl hr
  · rw [if_neg hf, if_neg (fun hh => hf (hcond.1 hh))]
    rw [flux_mirror, flux_mirror]
    have m1 : |(-roeMean wl wr wl.vx wr.vx) - hlleA (.adiabatic gamma) wl wr|
        = |roeMean wl wr wl.vx wr.vx + hlleA (.adiabatic gamma) wl wr| := by
      rw [← abs_neg]; congr 1; ring
    have m2 : |(-roeMean wl wr wl.vx wr.vx) + hlleA (.adiabatic gamma) wl wr|
        = |roeMean wl wr wl.vx wr.vx - hlleA (.adiabatic gamma) wl wr| := by
      rw [← abs_neg]; congr 1; ring
    ext <;> simp only [F.mirror, sum5, waveAd, speedAd, m1, m2, abs_neg, a0, a1, a2, a3, a4, add_d, add_mx, add_my,
      add_mz, add_e, smul_d, smul_mx, smul_my, smul_mz, smul_e, sub_d, sub_mx, sub_my, sub_mz, sub_e] <;> ring

/-- The isothermal Roe solver commutes with reflection. -/
theorem roe_mirror_iso (cs tiny : ℝ) : Mirror (.isothermal cs) (roe (.isothermal cs) tiny) := by
  intro wl wr hl hr
  have hc : cs ≠ 0 := by
    have := hl.2; exact (ne_of_gt (by simpa using this))
  have hx : roeMean wr.mirror wl.mirror wr.mirror.vx wl.mirror.vx = -roeMean wl wr wl.vx wr.vx := by
    rw [roeMean_swap]; exact roeMean_neg wl wr _ _
  have hy : roeMean wr.mirror wl.mirror wr.mirror.vy wl.mirror.vy = roeMean wl wr wl.vy wr.vy := roeMean_swap _ _ _ _
  have hz : roeMean wr.mirror wl.mirror wr.mirror.vz wl.mirror.vz = roeMean wl wr wl.vz wr.vz := roeMean_swap _ _ _ _
  obtain ⟨a, s1, s2, h⟩ := roe_waves_iso cs tiny wl wr hl hr
  obtain ⟨b, t1, t2, h'⟩ := roe_waves_iso cs tiny wr.mirror wl.mirror hr.mirror hl.mirror
  rw [hx, hy, hz] at t1 t2 h'
  rw [cons_mirror, cons_mirror] at t1
  have d := congrArg F.d t1
  have x := congrArg F.mx t1
  have y := congrArg F.my t1
  have z := congrArg F.mz t1
  have d' := congrArg F.d s1
  have x' := congrArg F.mx s1
  have y' := congrArg F.my s1
  have z' := congrArg F.mz s1
  simp only [sum4, waveIso, add_d, add_mx, add_my, add_mz, smul_d, smul_mx,
    smul_my, smul_mz, sub_d, sub_mx, sub_my, sub_mz] at d x y z d' x' y' z'
  have a0 : a 0 = -b 3 := by
    have : 2 * cs * (a 0 + b 3) = 0 := by
      linear_combination (roeMean wl wr wl.vx wr.vx + cs) * (d' + d) - x' + x
    have := (mul_eq_zero.1 this).resolve_left (by simpa using hc)
    linarith
  have a3 : a 3 = -b 0 := by linarith
  have a1 : a 1 = -b 1 := by
    linear_combination y' + y - roeMean wl wr wl.vy wr.vy * (d' + d)
  have a2 : a 2 = -b 2 := by
    linear_combination z' + z - roeMean wl wr wl.vz wr.vz * (d' + d)
  have cd : ∀ u, (cons (.isothermal cs) u).d = u.d := fun u => rfl
  rw [cd, cd] at d'
  have hcond : (wr.mirror.d + b 0 < 0 ∨ wr.mirror.d + b 0 + b 3 < 0) ↔ (wl.d + a 0 < 0 ∨ wl.d + a 0 + a 3 < 0) := by
    have e1 : wr.mirror.d + b 0 = wl.d + a 0 := by
      simp only [W.mirror]; linarith
    have e2 : ¬ wl.d + a 0 + b 3 < 0 := by
      have := hl.1; linarith
    have e3 : ¬ wl.d + a 0 + a 3 < 0 := by
      have := hr.1; linarith
    rw [e1]; tauto
  rw [h, h']
  by_cases hf : wl.d + a 0 < 0 ∨ wl.d + a 0 + a 3 < 0
  · rw [if_pos hf, if_pos (hcond.2 hf)]
    exact llf_mirror _ wl wr hl hr
  · rw [if_neg hf, if_neg (fun hh => hf (hcond.1 hh))]
    rw [flux_mirror, flux_mirror]
    have m1 : |(-roeMean wl wr wl.vx wr.vx) - cs| = |roeMean wl wr wl.vx wr.vx + cs| := by
      rw [← abs_neg]; congr 1; ring
    have m2 : |(-roeMean wl wr wl.vx wr.vx) + cs| = |roeMean wl wr wl.vx wr.vx - cs| := by
      rw [← abs_neg]; congr 1; ring
    ext <;> simp only [F.mirror, sum4, waveIso, speedIso, m1, m2, abs_neg, a0, a1, a2, a3, add_d, add_mx, add_my,
      add_mz, add_e, smul_d, smul_mx, smul_my, smul_mz, smul_e, sub_d, sub_mx, sub_my, sub_mz, sub_e] <;> ring

/-- At a reflecting wall (the two sides mirror each other) no mass, transverse momentum or energy crosses the face,
for any solver that commutes with reflection. -/
theorem wall (g : Gas) (solver : W → W → F) (hm : Mirror g solver) (w : W) (hw : Ok g w) :
    let f := solver w.mirror w
    f.d = 0 ∧ f.my = 0 ∧ f.mz = 0 ∧ f.e = 0 := by
  have h := hm w.mirror w hw.mirror hw
  have e : w.mirror.mirror = w := by cases w; simp [W.mirror]
  rw [e] at h
  have d := congrArg F.d h
  have y := congrArg F.my h
  have z := congrArg F.mz h
  have en := congrArg F.e h
  simp only [F.mirror] at d y z en
  exact ⟨by linarith, by linarith, by linarith, by linarith⟩

end Verif.Riemann
