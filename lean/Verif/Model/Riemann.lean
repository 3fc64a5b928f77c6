import Verif.Model.TimeStep

/-!
# Riemann solvers without a magnetic field

`Hydro::RiemannSolver` of hydro/rsolvers/hydro (`hlle.cpp`, `llf.cpp`, `hllc.cpp`, `lhllc.cpp`, `roe.cpp`) for one
interface. Exact real arithmetic; the branches `GENERAL_EOS` are not modelled. A quotient with divisor zero has an
unspecified value here; the theorems about the divisors say when this does not occur.
-/
namespace Verif.Riemann
open Verif.TimeStep

/-- The primitive variables `wli[]`, `wri[]` of one side: density, the velocity normal to the face and the two
transverse ones, and the pressure (without meaning for an isothermal gas). -/
structure W where
  d : ℝ
  vx : ℝ
  vy : ℝ
  vz : ℝ
  p : ℝ

/-- The array `flxi[]`, and any other array of conserved variables: mass, momentum, energy. -/
@[ext] structure F where
  d : ℝ
  mx : ℝ
  my : ℝ
  mz : ℝ
  e : ℝ

/-- The equation of state: `NON_BAROTROPIC_EOS` with the ratio `gamma`, or isothermal with `iso_cs`. -/
inductive Gas where
  | adiabatic (gamma : ℝ)
  | isothermal (cs : ℝ)

/-- `EquationOfState::SoundSpeed` (adiabatic_hydro.cpp:125-127, isothermal_hydro.cpp:108-110). -/
noncomputable def Gas.sound : Gas → W → ℝ
  | .adiabatic gamma, w => soundSpeed gamma w.p w.d
  | .isothermal cs, _ => cs

/-- What is added to the normal momentum flux (hlle.cpp:135-143 and the other solvers): the pressure. -/
def Gas.press : Gas → W → ℝ
  | .adiabatic _, w => w.p
  | .isothermal cs, w => cs * cs * w.d

/-- The total energy `el`, `er` (hlle.cpp:96-97, llf.cpp:85-86, hllc.cpp:76-77, roe.cpp:85-86). There is none for an
isothermal gas. -/
noncomputable def Gas.energy : Gas → W → ℝ
  | .adiabatic gamma, w => w.p / (gamma - 1) + 1/2 * w.d * (w.vx ^ 2 + w.vy ^ 2 + w.vz ^ 2)
  | .isothermal _, _ => 0

/-- `x` is stored in the energy component if there is an energy equation. -/
def Gas.ifEnergy (g : Gas) (x : ℝ) : ℝ :=
  match g with
  | .adiabatic _ => x
  | .isothermal _ => 0

/-- `wl(IDN,i)`, `wl(ivx,i)`, … into `wli[]` (hlle.cpp:42-43, 59-69; the same in every solver), for
`IDN = 0`, `IVX = 1`, `IVY = 2`, `IVZ = 3`, `IPR = 4`. -/
def load (ivx : Nat) (w : Nat → ℝ) : W :=
  let ivy := 1 + ((ivx - 1) + 1) % 3
  let ivz := 1 + ((ivx - 1) + 2) % 3
  ⟨w 0, w ivx, w ivy, w ivz, w 4⟩

/-- `flxi[]` into `flx(n,k,j,i)` (hlle.cpp:155-159); `IEN = 4` is stored if there is an energy equation. -/
def store (g : Gas) (ivx : Nat) (f : F) (old : Nat → ℝ) : Nat → ℝ :=
  let ivy := 1 + ((ivx - 1) + 1) % 3
  let ivz := 1 + ((ivx - 1) + 2) % 3
  let a := Function.update old 0 f.d
  let a := Function.update a ivx f.mx
  let a := Function.update a ivy f.my
  let a := Function.update a ivz f.mz
  match g with
  | .adiabatic _ => Function.update a 4 f.e
  | .isothermal _ => a

/-- One interface of a sweep in direction `ivx` with a given solver. -/
def face (g : Gas) (solver : W → W → F) (ivx : Nat) (wl wr old : Nat → ℝ) : Nat → ℝ :=
  store g ivx (solver (load ivx wl) (load ivx wr)) old

/-! ## Roe average -/

/-- The weighted average of velocities (hlle.cpp:83-90, roe.cpp:72-79). -/
noncomputable def roeMean (wl wr : W) (x y : ℝ) : ℝ :=
  let sqrtdl := Real.sqrt wl.d
  let sqrtdr := Real.sqrt wr.d
  let isdlpdr := 1 / (sqrtdl + sqrtdr)
  (sqrtdl * x + sqrtdr * y) * isdlpdr

/-- The averaged enthalpy `hroe`, `wroe[IPR]` (hlle.cpp:98, roe.cpp:87). -/
noncomputable def roeEnthalpy (g : Gas) (wl wr : W) : ℝ :=
  let sqrtdl := Real.sqrt wl.d
  let sqrtdr := Real.sqrt wr.d
  let isdlpdr := 1 / (sqrtdl + sqrtdr)
  ((g.energy wl + wl.p) / sqrtdl + (g.energy wr + wr.p) / sqrtdr) * isdlpdr

/-- `q`: the averaged enthalpy less the kinetic energy of the averaged velocity (hlle.cpp:107, roe.cpp:216-217). -/
noncomputable def roeQ (g : Gas) (wl wr : W) : ℝ :=
  roeEnthalpy g wl wr - 1/2 * (roeMean wl wr wl.vx wr.vx ^ 2 + roeMean wl wr wl.vy wr.vy ^ 2
    + roeMean wl wr wl.vz wr.vz ^ 2)

/-! ## HLLE -/

/-- The sound speed `a` of the Roe average (hlle.cpp:105-109). -/
noncomputable def hlleA (g : Gas) (wl wr : W) : ℝ :=
  match g with
  | .adiabatic gamma => if roeQ g wl wr < 0 then 0 else Real.sqrt ((gamma - 1) * roeQ g wl wr)
  | .isothermal cs => cs

/-- The flux along the line of slope `b`: `F - b U` (hlle.cpp:120-143). -/
noncomputable def lineFlux (g : Gas) (w : W) (b : ℝ) : F :=
  let vx := w.vx - b
  ⟨w.d * vx, w.d * w.vx * vx + g.press w, w.d * w.vy * vx, w.d * w.vz * vx,
    g.ifEnergy (g.energy w * vx + w.p * w.vx)⟩

/-- The solver of hlle.cpp:58-160. -/
noncomputable def hlle (g : Gas) (wl wr : W) : F :=
  let vroe := roeMean wl wr wl.vx wr.vx
  let cl := g.sound wl
  let cr := g.sound wr
  let a := hlleA g wl wr
  let al := min (vroe - a) (wl.vx - cl)
  let ar := max (vroe + a) (wr.vx + cr)
  let bp := if 0 < ar then ar else 0
  let bm := if al < 0 then al else 0
  let fl := lineFlux g wl bm
  let fr := lineFlux g wr bp
  let tmp := if bp ≠ bm then 1/2 * (bp + bm) / (bp - bm) else 0
  ⟨1/2 * (fl.d + fr.d) + (fl.d - fr.d) * tmp, 1/2 * (fl.mx + fr.mx) + (fl.mx - fr.mx) * tmp,
    1/2 * (fl.my + fr.my) + (fl.my - fr.my) * tmp, 1/2 * (fl.mz + fr.mz) + (fl.mz - fr.mz) * tmp,
    g.ifEnergy (1/2 * (fl.e + fr.e) + (fl.e - fr.e) * tmp)⟩

/-! ## LLF -/

/-- The fluxes `fl`, `fr` (llf.cpp:68-94, roe.cpp:92-115). -/
noncomputable def sideFlux (g : Gas) (w : W) : F :=
  let mx := w.d * w.vx
  ⟨mx, mx * w.vx + g.press w, mx * w.vy, mx * w.vz, g.ifEnergy ((g.energy w + w.p) * w.vx)⟩

/-- The difference `du` (llf.cpp:98-102, roe.cpp:119-123). -/
noncomputable def jump (g : Gas) (wl wr : W) : F :=
  ⟨wr.d - wl.d, wr.d * wr.vx - wl.d * wl.vx, wr.d * wr.vy - wl.d * wl.vy, wr.d * wr.vz - wl.d * wl.vz,
    g.ifEnergy (g.energy wr - g.energy wl)⟩

/-- The solver of llf.cpp:46-121. -/
noncomputable def llf (g : Gas) (wl wr : W) : F :=
  let cl := g.sound wl
  let cr := g.sound wr
  let a := 1/2 * max (|wl.vx| + cl) (|wr.vx| + cr)
  let fl := sideFlux g wl
  let fr := sideFlux g wr
  let du := jump g wl wr
  ⟨1/2 * (fl.d + fr.d) - a * du.d, 1/2 * (fl.mx + fr.mx) - a * du.mx, 1/2 * (fl.my + fr.my) - a * du.my,
    1/2 * (fl.mz + fr.mz) - a * du.mz, g.ifEnergy (1/2 * (fl.e + fr.e) - a * du.e)⟩

/-! ## HLLC -/

/-- The factor `ql`, `qr` (hllc.cpp:97-100) from the estimated pressure `pmid` and the pressure `p` of the side. -/
noncomputable def hllcQ (gamma pmid p : ℝ) : ℝ :=
  if pmid ≤ p then 1 else Real.sqrt (1 + (gamma + 1) / (2 * gamma) * (pmid / p - 1))

/-- The estimate `pmid` (hllc.cpp:79-81); `umid`, `rhol`, `rhor` are used with a general equation of state only. -/
noncomputable def hllcPmid (gamma : ℝ) (wl wr : W) : ℝ :=
  let cl := soundSpeed gamma wl.p wl.d
  let cr := soundSpeed gamma wr.p wr.d
  let rhoa := 1/2 * (wl.d + wr.d)
  let ca := 1/2 * (cl + cr)
  1/2 * (wl.p + wr.p + (wl.vx - wr.vx) * rhoa * ca)

/-- The outer speeds `al`, `ar` (hllc.cpp:105-106, lhllc.cpp:101-102). -/
noncomputable def hllcAl (gamma : ℝ) (wl wr : W) : ℝ :=
  wl.vx - soundSpeed gamma wl.p wl.d * hllcQ gamma (hllcPmid gamma wl wr) wl.p

@[inherit_doc hllcAl]
noncomputable def hllcAr (gamma : ℝ) (wl wr : W) : ℝ :=
  wr.vx + soundSpeed gamma wr.p wr.d * hllcQ gamma (hllcPmid gamma wl wr) wr.p

/-- The speed of the contact `am` (hllc.cpp:113-123). -/
noncomputable def hllcAm (gamma : ℝ) (wl wr : W) : ℝ :=
  let vxl := wl.vx - hllcAl gamma wl wr
  let vxr := wr.vx - hllcAr gamma wl wr
  let tl := wl.p + vxl * wl.d * wl.vx
  let tr := wr.p + vxr * wr.d * wr.vx
  let ml := wl.d * vxl
  let mr := -(wr.d * vxr)
  (tl - tr) / (ml + mr)

/-- The pressure at the contact `cp` (hllc.cpp:125-126). -/
noncomputable def hllcCp (gamma : ℝ) (wl wr : W) : ℝ :=
  let vxl := wl.vx - hllcAl gamma wl wr
  let vxr := wr.vx - hllcAr gamma wl wr
  let tl := wl.p + vxl * wl.d * wl.vx
  let tr := wr.p + vxr * wr.d * wr.vx
  let ml := wl.d * vxl
  let mr := -(wr.d * vxr)
  let cp := (ml * tr + mr * tl) / (ml + mr)
  if 0 < cp then cp else 0

/-- Steps 6 to 9 of hllc.cpp:132-170 and lhllc.cpp:135-173; `tiny` is `TINY_NUMBER`. -/
noncomputable def hllcFlux (gamma tiny : ℝ) (wl wr : W) (al ar am cp : ℝ) : F :=
  let bp := if 0 < ar then ar else tiny
  let bm := if al < 0 then al else -tiny
  let fl := lineFlux (.adiabatic gamma) wl bm
  let fr := lineFlux (.adiabatic gamma) wr bp
  let s : ℝ × ℝ × ℝ := if 0 ≤ am then (am / (am - bm), 0, -bm / (am - bm)) else (0, -am / (bp - am), bp / (bp - am))
  let sl := s.1
  let sr := s.2.1
  let sm := s.2.2
  ⟨sl * fl.d + sr * fr.d, sl * fl.mx + sr * fr.mx + sm * cp, sl * fl.my + sr * fr.my, sl * fl.mz + sr * fr.mz,
    sl * fl.e + sr * fr.e + sm * cp * am⟩

/-- The solver of hllc.cpp:51-177. -/
noncomputable def hllc (gamma tiny : ℝ) (wl wr : W) : F :=
  hllcFlux gamma tiny wl wr (hllcAl gamma wl wr) (hllcAr gamma wl wr) (hllcAm gamma wl wr) (hllcCp gamma wl wr)

/-! ## LHLLC -/

/-- The fourth power of the shock detector (lhllc.cpp:117-119) from `cmax`, `dvn`, `dvt`. -/
noncomputable def lhllcTh (cmax dvn dvt : ℝ) : ℝ :=
  let th1 := min 1 ((cmax - min dvn 0) / (cmax - min dvt 0))
  th1 * th1 * th1 * th1

/-- The speed of the contact (lhllc.cpp:109-122); `dvn`, `dvt` are the velocity differences at the face. -/
noncomputable def lhllcAm (gamma dvn dvt : ℝ) (wl wr : W) : ℝ :=
  let vxl := hllcAl gamma wl wr - wl.vx
  let vxr := hllcAr gamma wl wr - wr.vx
  let ml := wl.d * vxl
  let mr := wr.d * vxr
  let cmax := max (soundSpeed gamma wl.p wl.d) (soundSpeed gamma wr.p wr.d)
  let th := lhllcTh cmax dvn dvt
  (mr * wr.vx - ml * wl.vx - th * (wr.p - wl.p)) / (mr - ml)

/-- The pressure at the contact (lhllc.cpp:125-129). -/
noncomputable def lhllcCp (gamma : ℝ) (wl wr : W) : ℝ :=
  let vxl := hllcAl gamma wl wr - wl.vx
  let vxr := hllcAr gamma wl wr - wr.vx
  let ml := wl.d * vxl
  let mr := wr.d * vxr
  let vsql := wl.vx ^ 2 + wl.vy ^ 2 + wl.vz ^ 2
  let vsqr := wr.vx ^ 2 + wr.vy ^ 2 + wr.vz ^ 2
  let cmax := max (soundSpeed gamma wl.p wl.d) (soundSpeed gamma wr.p wr.d)
  let chi := min 1 (Real.sqrt (max vsql vsqr) / cmax)
  let phi := chi * (2 - chi)
  let cp := (mr * wl.p - ml * wr.p + phi * mr * ml * (wr.vx - wl.vx)) / (mr - ml)
  if 0 < cp then cp else 0

/-- The solver of lhllc.cpp:47-180. -/
noncomputable def lhllc (gamma tiny dvn dvt : ℝ) (wl wr : W) : F :=
  hllcFlux gamma tiny wl wr (hllcAl gamma wl wr) (hllcAr gamma wl wr) (lhllcAm gamma dvn dvt wl wr)
    (lhllcCp gamma wl wr)

/-! ## Roe -/

/-- What `RoeFlux` returns: the speeds `ev[0]`, `ev[NWAVE-1]`, the sum over the waves added to the flux, and whether
`llf_flag` is set. -/
structure RoeOut where
  evFirst : ℝ
  evLast : ℝ
  add : F
  llfFlag : Bool

/-- `RoeFlux`, adiabatic (roe.cpp:208-296); `tiny` is `TINY_NUMBER`. -/
noncomputable def roeFluxAd (gamma tiny v1 v2 v3 h : ℝ) (du : F) (dl : ℝ) : RoeOut :=
  let gm1 := gamma - 1
  let vsq := v1 * v1 + v2 * v2 + v3 * v3
  let q := h - 1/2 * vsq
  let cs_sq := if q < 0 then tiny else gm1 * q
  let cs := Real.sqrt cs_sq
  let na := (1/2) / cs_sq
  let a0 := (du.d * (1/2 * gm1 * vsq + v1 * cs) - du.mx * (gm1 * v1 + cs) - du.my * gm1 * v2 - du.mz * gm1 * v3
    + du.e * gm1) * na
  let a1 := du.d * (-v2) + du.my
  let a2 := du.d * (-v3) + du.mz
  let qa := gm1 / cs_sq
  let a3 := du.d * (1 - na * gm1 * vsq) + du.mx * qa * v1 + du.my * qa * v2 + du.mz * qa * v3 - du.e * qa
  let a4 := (du.d * (1/2 * gm1 * vsq - v1 * cs) - du.mx * (gm1 * v1 - cs) - du.my * gm1 * v2 - du.mz * gm1 * v3
    + du.e * gm1) * na
  let c0 := -(1/2) * |v1 - cs| * a0
  let c1 := -(1/2) * |v1| * a1
  let c2 := -(1/2) * |v1| * a2
  let c3 := -(1/2) * |v1| * a3
  let c4 := -(1/2) * |v1 + cs| * a4
  ⟨v1 - cs, v1 + cs,
    ⟨c0 + c3 + c4, c0 * (v1 - cs) + c3 * v1 + c4 * (v1 + cs), c0 * v2 + c1 + c3 * v2 + c4 * v2,
      c0 * v3 + c2 + c3 * v3 + c4 * v3,
      c0 * (h - v1 * cs) + c1 * v2 + c2 * v3 + c3 * (1/2) * vsq + c4 * (h + v1 * cs)⟩,
    decide (dl + a0 < 0) || decide (dl + a0 + a3 < 0)⟩

/-- `RoeFlux`, isothermal (roe.cpp:300-348). -/
noncomputable def roeFluxIso (cs v1 v2 v3 : ℝ) (du : F) (dl : ℝ) : RoeOut :=
  let a0 := du.d * (1/2 + 1/2 * v1 / cs) - du.mx * (1/2) / cs
  let a1 := du.d * (-v2) + du.my
  let a2 := du.d * (-v3) + du.mz
  let a3 := du.d * (1/2 - 1/2 * v1 / cs) + du.mx * (1/2) / cs
  let c0 := -(1/2) * |v1 - cs| * a0
  let c1 := -(1/2) * |v1| * a1
  let c2 := -(1/2) * |v1| * a2
  let c3 := -(1/2) * |v1 + cs| * a3
  ⟨v1 - cs, v1 + cs,
    ⟨c0 + c3, c0 * (v1 - cs) + c3 * (v1 + cs), c0 * v2 + c1 + c3 * v2, c0 * v3 + c2 + c3 * v3, 0⟩,
    decide (dl + a0 < 0) || decide (dl + a0 + a3 < 0)⟩

/-- The call of `RoeFlux` (roe.cpp:72-88, 119-132). -/
noncomputable def roeOut (g : Gas) (tiny : ℝ) (wl wr : W) : RoeOut :=
  let v1 := roeMean wl wr wl.vx wr.vx
  let v2 := roeMean wl wr wl.vy wr.vy
  let v3 := roeMean wl wr wl.vz wr.vz
  match g with
  | .adiabatic gamma => roeFluxAd gamma tiny v1 v2 v3 (roeEnthalpy g wl wr) (jump g wl wr) wl.d
  | .isothermal cs => roeFluxIso cs v1 v2 v3 (jump g wl wr) wl.d

/-- The solver of roe.cpp:56-174. -/
noncomputable def roe (g : Gas) (tiny : ℝ) (wl wr : W) : F :=
  let fl := sideFlux g wl
  let fr := sideFlux g wr
  let du := jump g wl wr
  let o := roeOut g tiny wl wr
  let f : F := ⟨1/2 * (fl.d + fr.d) + o.add.d, 1/2 * (fl.mx + fr.mx) + o.add.mx, 1/2 * (fl.my + fr.my) + o.add.my,
    1/2 * (fl.mz + fr.mz) + o.add.mz, g.ifEnergy (1/2 * (fl.e + fr.e) + o.add.e)⟩
  let f := if 0 ≤ o.evFirst then fl else f
  let f := if o.evLast ≤ 0 then fr else f
  if o.llfFlag then
    let cl := g.sound wl
    let cr := g.sound wr
    let a := 1/2 * max (|wl.vx| + cl) (|wr.vx| + cr)
    ⟨1/2 * (fl.d + fr.d) - a * du.d, 1/2 * (fl.mx + fr.mx) - a * du.mx, 1/2 * (fl.my + fr.my) - a * du.my,
      1/2 * (fl.mz + fr.mz) - a * du.mz, g.ifEnergy (1/2 * (fl.e + fr.e) - a * du.e)⟩
  else f

end Verif.Riemann
