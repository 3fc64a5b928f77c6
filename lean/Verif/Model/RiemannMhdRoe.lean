import Verif.Model.RiemannMhd

/-!
# Roe's solver with a magnetic field

`Hydro::RiemannSolver` of hydro/rsolvers/mhd/roe_mhd.cpp with `RoeFlux` for one interface. Exact real arithmetic.
-/
namespace Verif.Mhd
open Verif.TimeStep
open Verif.Riemann (Gas Gas.ifEnergy)

/-- The local variables of `RoeFlux` (roe_mhd.cpp:248-349). -/
structure Eig where
  d : ℝ
  v1 : ℝ
  v2 : ℝ
  v3 : ℝ
  b2 : ℝ
  b3 : ℝ
  x : ℝ
  vsq : ℝ
  hp : ℝ
  twid_csq : ℝ
  cf : ℝ
  cs : ℝ
  vax : ℝ
  bt_star : ℝ
  bet2 : ℝ
  bet3 : ℝ
  bet2_star : ℝ
  bet3_star : ℝ
  bet_starsq : ℝ
  q2_star : ℝ
  q3_star : ℝ
  alpha_f : ℝ
  alpha_s : ℝ
  s : ℝ

/-- `vbet` (roe_mhd.cpp:302). -/
def Eig.vbet (e : Eig) : ℝ := e.v2 * e.bet2_star + e.v3 * e.bet3_star
/-- `sqrtd`, `isqrtd`, `twid_c` (roe_mhd.cpp:327-330). -/
noncomputable def Eig.sqrtd (e : Eig) : ℝ := Real.sqrt e.d
@[inherit_doc Eig.sqrtd]
noncomputable def Eig.isqrtd (e : Eig) : ℝ := 1 / e.sqrtd
@[inherit_doc Eig.sqrtd]
noncomputable def Eig.twid_c (e : Eig) : ℝ := Real.sqrt e.twid_csq
/-- `qf`, `qs`, `af_prime`, `as_prime`, `afpbb`, `aspbb`, `vqstr` (roe_mhd.cpp:331-337). -/
noncomputable def Eig.qf (e : Eig) : ℝ := e.cf * e.alpha_f * e.s
@[inherit_doc Eig.qf]
noncomputable def Eig.qs (e : Eig) : ℝ := e.cs * e.alpha_s * e.s
@[inherit_doc Eig.qf]
noncomputable def Eig.af_prime (e : Eig) : ℝ := e.twid_c * e.alpha_f * e.isqrtd
@[inherit_doc Eig.qf]
noncomputable def Eig.as_prime (e : Eig) : ℝ := e.twid_c * e.alpha_s * e.isqrtd
@[inherit_doc Eig.qf]
noncomputable def Eig.afpbb (e : Eig) : ℝ := e.af_prime * e.bt_star * e.bet_starsq
@[inherit_doc Eig.qf]
noncomputable def Eig.aspbb (e : Eig) : ℝ := e.as_prime * e.bt_star * e.bet_starsq
@[inherit_doc Eig.qf]
noncomputable def Eig.vqstr (e : Eig) : ℝ := e.v2 * e.q2_star + e.v3 * e.q3_star
/-- `norm` and the quantities it multiplies (roe_mhd.cpp:341-349). -/
noncomputable def Eig.norm (e : Eig) : ℝ := 1/2 / e.twid_csq
@[inherit_doc Eig.norm]
noncomputable def Eig.cff (e : Eig) : ℝ := e.norm * e.alpha_f * e.cf
@[inherit_doc Eig.norm]
noncomputable def Eig.css (e : Eig) : ℝ := e.norm * e.alpha_s * e.cs
@[inherit_doc Eig.norm]
noncomputable def Eig.qf_hat (e : Eig) : ℝ := e.qf * e.norm
@[inherit_doc Eig.norm]
noncomputable def Eig.qs_hat (e : Eig) : ℝ := e.qs * e.norm
@[inherit_doc Eig.norm]
noncomputable def Eig.af (e : Eig) : ℝ := e.norm * e.af_prime * e.d
@[inherit_doc Eig.norm]
noncomputable def Eig.as (e : Eig) : ℝ := e.norm * e.as_prime * e.d
@[inherit_doc Eig.norm]
noncomputable def Eig.afpb (e : Eig) : ℝ := e.norm * e.af_prime * e.bt_star
@[inherit_doc Eig.norm]
noncomputable def Eig.aspb (e : Eig) : ℝ := e.norm * e.as_prime * e.bt_star

/-- `bt_starsq` and `twid_csq` (roe_mhd.cpp:260-269). -/
noncomputable def roeStar (g : Gas) (bx : ℝ) (wl wr : W) : ℝ × ℝ :=
  let btsq := roeMeanB wl wr wl.bY wr.bY ^ 2 + roeMeanB wl wr wl.bZ wr.bZ ^ 2
  match g with
  | .adiabatic gamma =>
    ((gamma - 1 - (gamma - 1 - 1) * roeY wl wr) * btsq,
      max ((gamma - 1) * roeQ g bx wl wr - (gamma - 1 - 1) * roeX wl wr) (1 / 10 ^ 20))
  | .isothermal cs => (btsq * roeY wl wr, cs * cs + roeX wl wr)

/-- The amplitudes `alpha_f`, `alpha_s` (roe_mhd.cpp:311-324) from `cfsq`, `cssq`, `twid_csq`. -/
noncomputable def roeAlpha (cfsq cssq twid_csq : ℝ) : ℝ × ℝ :=
  if cfsq - cssq ≤ 0 then (1, 0)
  else if twid_csq - cssq ≤ 0 then (0, 1)
  else if cfsq - twid_csq ≤ 0 then (1, 0)
  else (Real.sqrt ((twid_csq - cssq) / (cfsq - cssq)), Real.sqrt ((cfsq - twid_csq) / (cfsq - cssq)))

/-- Lines 248-349 of roe_mhd.cpp. The divisor of `bet2_star` is `sqrt(gm1 - (gm1-1) y)` or `sqrt(y)` (294-300). -/
noncomputable def eig (g : Gas) (bx : ℝ) (wl wr : W) : Eig :=
  let d := roeD wl wr
  let v1 := roeMean wl wr wl.vx wr.vx
  let v2 := roeMean wl wr wl.vy wr.vy
  let v3 := roeMean wl wr wl.vz wr.vz
  let b2 := roeMeanB wl wr wl.bY wr.bY
  let b3 := roeMeanB wl wr wl.bZ wr.bZ
  let btsq := b2 * b2 + b3 * b3
  let vaxsq := bx * bx / d
  let vsq := v1 * v1 + v2 * v2 + v3 * v3
  let hp := roeEnthalpy g bx wl wr - (vaxsq + btsq / d)
  let bt_starsq := (roeStar g bx wl wr).1
  let twid_csq := (roeStar g bx wl wr).2
  let ct2 := bt_starsq / d
  let tsum := vaxsq + ct2 + twid_csq
  let tdif := vaxsq + ct2 - twid_csq
  let cf2_cs2 := Real.sqrt (tdif * tdif + 4 * twid_csq * ct2)
  let cfsq := 1/2 * (tsum + cf2_cs2)
  let cssq := twid_csq * vaxsq / cfsq
  let bt := Real.sqrt btsq
  let bet2 := if bt ≠ 0 then b2 / bt else 0
  let bet3 := if bt ≠ 0 then b3 / bt else 0
  let q := match g with
    | .adiabatic gamma => Real.sqrt (gamma - 1 - (gamma - 1 - 1) * roeY wl wr)
    | .isothermal _ => Real.sqrt (roeY wl wr)
  let bet2_star := bet2 / q
  let bet3_star := bet3 / q
  let bet_starsq := bet2_star * bet2_star + bet3_star * bet3_star
  { d, v1, v2, v3, b2, b3, x := roeX wl wr, vsq, hp, twid_csq, cf := Real.sqrt cfsq, cs := Real.sqrt cssq,
    vax := Real.sqrt vaxsq, bt_star := Real.sqrt bt_starsq, bet2, bet3, bet2_star, bet3_star, bet_starsq,
    q2_star := if bet_starsq ≠ 0 then bet2_star / bet_starsq else 0,
    q3_star := if bet_starsq ≠ 0 then bet3_star / bet_starsq else 0,
    alpha_f := (roeAlpha cfsq cssq twid_csq).1, alpha_s := (roeAlpha cfsq cssq twid_csq).2,
    s := if bx < 0 then -1 else 1 }

/-- One number for each wave: fast, Alfven, slow to the left, contact (none for an isothermal gas), slow, Alfven, fast
to the right. -/
structure Waves where
  f0 : ℝ
  a1 : ℝ
  s2 : ℝ
  c3 : ℝ
  s4 : ℝ
  a5 : ℝ
  f6 : ℝ

/-- The eigenvalues `ev` (roe_mhd.cpp:355-361, 502-507). -/
noncomputable def Eig.ev (e : Eig) : Waves :=
  ⟨e.v1 - e.cf, e.v1 - e.vax, e.v1 - e.cs, e.v1, e.v1 + e.cs, e.v1 + e.vax, e.v1 + e.cf⟩

/-- The projections `a` with an energy equation (roe_mhd.cpp:366-422); `m = gm1`. -/
noncomputable def Eig.proj (e : Eig) (m : ℝ) (du : F) : Waves :=
  let alpha_f_bar := e.alpha_f * m * e.norm
  let alpha_s_bar := e.alpha_s * m * e.norm
  let gm1a := m / e.twid_csq
  { f0 := du.d * (alpha_f_bar * (e.vsq - e.hp) + e.cff * (e.cf + e.v1) - e.qs_hat * e.vqstr - e.aspb)
      - du.mx * (alpha_f_bar * e.v1 + e.cff)
      - du.my * (alpha_f_bar * e.v2 - e.qs_hat * e.q2_star)
      - du.mz * (alpha_f_bar * e.v3 - e.qs_hat * e.q3_star)
      + du.e * alpha_f_bar
      + du.bY * (e.as * e.q2_star - alpha_f_bar * e.b2)
      + du.bZ * (e.as * e.q3_star - alpha_f_bar * e.b3)
    a1 := (du.d * (e.v2 * e.bet3 - e.v3 * e.bet2) - du.my * e.bet3 + du.mz * e.bet2
      - du.bY * e.sqrtd * e.bet3 * e.s + du.bZ * e.sqrtd * e.bet2 * e.s) * (1/2)
    s2 := du.d * (alpha_s_bar * (e.vsq - e.hp) + e.css * (e.cs + e.v1) + e.qf_hat * e.vqstr + e.afpb)
      - du.mx * (alpha_s_bar * e.v1 + e.css)
      - du.my * (alpha_s_bar * e.v2 + e.qf_hat * e.q2_star)
      - du.mz * (alpha_s_bar * e.v3 + e.qf_hat * e.q3_star)
      + du.e * alpha_s_bar
      - du.bY * (e.af * e.q2_star + alpha_s_bar * e.b2)
      - du.bZ * (e.af * e.q3_star + alpha_s_bar * e.b3)
    c3 := du.d * (1 - gm1a * (1/2 * e.vsq - (m - 1) * e.x / m))
      + du.mx * gm1a * e.v1 + du.my * gm1a * e.v2 + du.mz * gm1a * e.v3 - du.e * gm1a
      + du.bY * gm1a * e.b2 + du.bZ * gm1a * e.b3
    s4 := du.d * (alpha_s_bar * (e.vsq - e.hp) + e.css * (e.cs - e.v1) - e.qf_hat * e.vqstr + e.afpb)
      - du.mx * (alpha_s_bar * e.v1 - e.css)
      - du.my * (alpha_s_bar * e.v2 - e.qf_hat * e.q2_star)
      - du.mz * (alpha_s_bar * e.v3 - e.qf_hat * e.q3_star)
      + du.e * alpha_s_bar
      - du.bY * (e.af * e.q2_star + alpha_s_bar * e.b2)
      - du.bZ * (e.af * e.q3_star + alpha_s_bar * e.b3)
    a5 := (du.d * (e.v3 * e.bet2 - e.v2 * e.bet3) + du.my * e.bet3 - du.mz * e.bet2
      - du.bY * e.sqrtd * e.bet3 * e.s + du.bZ * e.sqrtd * e.bet2 * e.s) * (1/2)
    f6 := du.d * (alpha_f_bar * (e.vsq - e.hp) + e.cff * (e.cf - e.v1) + e.qs_hat * e.vqstr - e.aspb)
      - du.mx * (alpha_f_bar * e.v1 - e.cff)
      - du.my * (alpha_f_bar * e.v2 + e.qs_hat * e.q2_star)
      - du.mz * (alpha_f_bar * e.v3 + e.qs_hat * e.q3_star)
      + du.e * alpha_f_bar
      + du.bY * (e.as * e.q2_star - alpha_f_bar * e.b2)
      + du.bZ * (e.as * e.q3_star - alpha_f_bar * e.b3) }

/-- The projections for an isothermal gas (roe_mhd.cpp:510-551); there is no contact. -/
noncomputable def Eig.projIso (e : Eig) (du : F) : Waves where
  f0 := du.d * (e.cff * (e.cf + e.v1) - e.qs_hat * e.vqstr - e.aspb) - du.mx * e.cff + du.my * e.qs_hat * e.q2_star
    + du.mz * e.qs_hat * e.q3_star + du.bY * e.as * e.q2_star + du.bZ * e.as * e.q3_star
  a1 := (du.d * (e.v2 * e.bet3 - e.v3 * e.bet2) - du.my * e.bet3 + du.mz * e.bet2
    - du.bY * e.sqrtd * e.bet3 * e.s + du.bZ * e.sqrtd * e.bet2 * e.s) * (1/2)
  s2 := du.d * (e.css * (e.cs + e.v1) + e.qf_hat * e.vqstr + e.afpb) - du.mx * e.css - du.my * e.qf_hat * e.q2_star
    - du.mz * e.qf_hat * e.q3_star - du.bY * e.af * e.q2_star - du.bZ * e.af * e.q3_star
  c3 := 0
  s4 := du.d * (e.css * (e.cs - e.v1) - e.qf_hat * e.vqstr + e.afpb) + du.mx * e.css + du.my * e.qf_hat * e.q2_star
    + du.mz * e.qf_hat * e.q3_star - du.bY * e.af * e.q2_star - du.bZ * e.af * e.q3_star
  a5 := (du.d * (e.v3 * e.bet2 - e.v2 * e.bet3) + du.my * e.bet3 - du.mz * e.bet2
    - du.bY * e.sqrtd * e.bet3 * e.s + du.bZ * e.sqrtd * e.bet2 * e.s) * (1/2)
  f6 := du.d * (e.cff * (e.cf - e.v1) + e.qs_hat * e.vqstr - e.aspb) + du.mx * e.cff - du.my * e.qs_hat * e.q2_star
    - du.mz * e.qs_hat * e.q3_star + du.bY * e.as * e.q2_star + du.bZ * e.as * e.q3_star

/-- `SUM_m(coeff[m]*rem[n][m])` (roe_mhd.cpp:448-496 adiabatic; 574-610 isothermal, where the energy and the contact are
absent). The factor of `coeff[5]` in the energy is as in the code (line 481). -/
noncomputable def Eig.sum (e : Eig) (g : Gas) (c : Waves) : F where
  d := c.f0 * e.alpha_f + c.s2 * e.alpha_s + c.c3 + c.s4 * e.alpha_s + c.f6 * e.alpha_f
  mx := c.f0 * (e.alpha_f * (e.v1 - e.cf)) + c.s2 * (e.alpha_s * (e.v1 - e.cs)) + c.c3 * e.v1
    + c.s4 * (e.alpha_s * (e.v1 + e.cs)) + c.f6 * (e.alpha_f * (e.v1 + e.cf))
  my := c.f0 * (e.alpha_f * e.v2 + e.qs * e.bet2_star) - c.a1 * e.bet3
    + c.s2 * (e.alpha_s * e.v2 - e.qf * e.bet2_star) + c.c3 * e.v2
    + c.s4 * (e.alpha_s * e.v2 + e.qf * e.bet2_star) + c.a5 * e.bet3
    + c.f6 * (e.alpha_f * e.v2 - e.qs * e.bet2_star)
  mz := c.f0 * (e.alpha_f * e.v3 + e.qs * e.bet3_star) + c.a1 * e.bet2
    + c.s2 * (e.alpha_s * e.v3 - e.qf * e.bet3_star) + c.c3 * e.v3
    + c.s4 * (e.alpha_s * e.v3 + e.qf * e.bet3_star) - c.a5 * e.bet2
    + c.f6 * (e.alpha_f * e.v3 - e.qs * e.bet3_star)
  e := match g with
    | .adiabatic gamma =>
      let m := gamma - 1
      c.f0 * (e.alpha_f * (e.hp - e.v1 * e.cf) + e.qs * e.vbet + e.aspbb)
      - c.a1 * (e.v2 * e.bet3 - e.v3 * e.bet2)
      + c.s2 * (e.alpha_s * (e.hp - e.v1 * e.cs) - e.qf * e.vbet - e.afpbb)
      + c.c3 * (1/2 * e.vsq + (m - 1) * e.x / m)
      + c.s4 * (e.alpha_s * (e.hp + e.v1 * e.cs) + e.qf * e.vbet - e.afpbb)
      + c.a5 * (e.v1 * e.bet3 - e.v3 * e.bet2)
      + c.f6 * (e.alpha_f * (e.hp + e.v1 * e.cf) - e.qs * e.vbet + e.aspbb)
    | .isothermal _ => 0
  bY := c.f0 * e.as_prime * e.bet2_star - c.a1 * e.bet3 * e.s * e.isqrtd - c.s2 * e.af_prime * e.bet2_star
    - c.s4 * e.af_prime * e.bet2_star - c.a5 * e.bet3 * e.s * e.isqrtd + c.f6 * e.as_prime * e.bet2_star
  bZ := c.f0 * e.as_prime * e.bet3_star + c.a1 * e.bet2 * e.s * e.isqrtd - c.s2 * e.af_prime * e.bet3_star
    - c.s4 * e.af_prime * e.bet3_star + c.a5 * e.bet2 * e.s * e.isqrtd + c.f6 * e.as_prime * e.bet3_star

/-- The projections of the jump. -/
noncomputable def roeA (g : Gas) (bx : ℝ) (wl wr : W) : Waves :=
  match g with
  | .adiabatic gamma => (eig g bx wl wr).proj (gamma - 1) (jump g bx wl wr)
  | .isothermal _ => (eig g bx wl wr).projIso (jump g bx wl wr)

/-- `coeff` (roe_mhd.cpp:425-431, 554-560). -/
noncomputable def roeCoeff (g : Gas) (bx : ℝ) (wl wr : W) : Waves :=
  let ev := (eig g bx wl wr).ev
  let a := roeA g bx wl wr
  ⟨-(1/2) * |ev.f0| * a.f0, -(1/2) * |ev.a1| * a.a1, -(1/2) * |ev.s2| * a.s2, -(1/2) * |ev.c3| * a.c3,
    -(1/2) * |ev.s4| * a.s4, -(1/2) * |ev.a5| * a.a5, -(1/2) * |ev.f6| * a.f6⟩

/-- `llf_flag` (roe_mhd.cpp:435-445, 564-571; for an isothermal gas the density after the contact is that before it). -/
def roeFlag (g : Gas) (bx : ℝ) (wl wr : W) : Prop :=
  let e := eig g bx wl wr
  let a := roeA g bx wl wr
  let d0 := wl.d + a.f0 * e.alpha_f
  let d2 := d0 + a.s2 * e.alpha_s
  let d3 := d2 + a.c3
  let d4 := d3 + a.s4 * e.alpha_s
  d0 < 0 ∨ d2 < 0 ∨ d3 < 0 ∨ d4 < 0

open Classical in
/-- The solver of roe_mhd.cpp:61-211. -/
noncomputable def roe (g : Gas) (bx : ℝ) (wl wr : W) : F :=
  let fl := sideFlux g bx wl
  let fr := sideFlux g bx wr
  let du := jump g bx wl wr
  let ev := (eig g bx wl wr).ev
  let mean := F.map2 g (fun l r => 1/2 * (l + r)) fl fr
  let f := F.map2 g (fun l r => l + r) mean ((eig g bx wl wr).sum g (roeCoeff g bx wl wr))
  let f := if 0 ≤ ev.f0 then fl else f
  let f := if ev.f6 ≤ 0 then fr else f
  if roeFlag g bx wl wr then
    let cfl := fast g bx wl
    let cfr := fast g bx wr
    let a := 1/2 * max (|wl.vx| + cfl) (|wr.vx| + cfr)
    -- the transverse field keeps what was stored before
    { F.map2 g (fun f du => f - a * du) mean du with bY := f.bY, bZ := f.bZ }
  else f

end Verif.Mhd
