import Verif.Model.Riemann

/-!
# Riemann solvers with a magnetic field

`Hydro::RiemannSolver` of hydro/rsolvers/mhd (`hlle_mhd.cpp`, `llf_mhd.cpp`, `hlld.cpp`, `lhlld.cpp`, `hlld_iso.cpp`,
`roe_mhd.cpp`) for one interface. Exact real arithmetic; the branches `GENERAL_EOS` and the relativistic solvers are
not modelled. A quotient with divisor zero and the root of a negative number have an unspecified value here; the
theorems about divisors and radicands say when this does not occur.
-/
namespace Verif.Mhd
open Verif.TimeStep
open Verif.Riemann (Gas Gas.ifEnergy)

/-- The primitive variables `wli[]`, `wri[]` of one side: density, normal and transverse velocities, pressure (without
meaning for an isothermal gas) and the transverse field (`IBY`, `IBZ`). The normal field is a separate argument. -/
structure W where
  d : ℝ
  vx : ℝ
  vy : ℝ
  vz : ℝ
  p : ℝ
  bY : ℝ
  bZ : ℝ

/-- The array `flxi[]` and the structure `Cons1D` (hlld.cpp:28-30). -/
@[ext] structure F where
  d : ℝ
  mx : ℝ
  my : ℝ
  mz : ℝ
  e : ℝ
  bY : ℝ
  bZ : ℝ

/-- The index `IBY = NHYDRO` (athena.hpp): 5 with an energy equation, 4 without. -/
def iby : Gas → Nat
  | .adiabatic _ => 5
  | .isothermal _ => 4

/-- The components of the cell-centred field in the slots `IBY`, `IBZ` of the reconstructed state (dc.cpp:37-41, 67-71,
96-100: `IB2`, `IB3` for the first direction, `IB3`, `IB1` for the second, `IB1`, `IB2` for the third). `w` are the
hydrodynamic variables, `b` the field with components 1, 2, 3. -/
def stateArr (g : Gas) (ivx : Nat) (w b : Nat → ℝ) : Nat → ℝ :=
  let c : Nat × Nat := if ivx = 1 then (2, 3) else if ivx = 2 then (3, 1) else (1, 2)
  fun n => if n = iby g then b c.1 else if n = iby g + 1 then b c.2 else w n

/-- Step 1 of each solver (hlle_mhd.cpp:44-58). -/
def load (g : Gas) (ivx : Nat) (w : Nat → ℝ) : W :=
  let ivy := 1 + ((ivx - 1) + 1) % 3
  let ivz := 1 + ((ivx - 1) + 2) % 3
  let p := match g with
    | .adiabatic _ => w 4
    | .isothermal _ => 0
  ⟨w 0, w ivx, w ivy, w ivz, p, w (iby g), w (iby g + 1)⟩

/-- The last step: the fluxes (hlle_mhd.cpp:171-175). -/
def storeFlux (g : Gas) (ivx : Nat) (f : F) (old : Nat → ℝ) : Nat → ℝ :=
  let ivy := 1 + ((ivx - 1) + 1) % 3
  let ivz := 1 + ((ivx - 1) + 2) % 3
  let a := Function.update old 0 f.d
  let a := Function.update a ivx f.mx
  let a := Function.update a ivy f.my
  let a := Function.update a ivz f.mz
  match g with
  | .adiabatic _ => Function.update a 4 f.e
  | .isothermal _ => a

/-- The electric field `ey = -flxi[IBY]`, `ez = flxi[IBZ]` (hlle_mhd.cpp:176-177). The arguments `ey`, `ez` are
`e3_x1f`, `e2_x1f` in the first direction, `e1_x2f`, `e3_x2f` in the second, `e2_x3f`, `e1_x3f` in the third
(calculate_fluxes.cpp:102, 223, 343). The index of `old` is the component. -/
def storeE (ivx : Nat) (f : F) (old : Nat → ℝ) : Nat → ℝ :=
  let c : Nat × Nat := if ivx = 1 then (3, 2) else if ivx = 2 then (1, 3) else (2, 1)
  Function.update (Function.update old c.1 (-f.bY)) c.2 f.bZ

/-- `Hydro::GetWeightForCT` (hydro.cpp:154-158). -/
noncomputable def weightForCT (dflx rhol rhor dx dt : ℝ) : ℝ :=
  let v_over_c := 1024 * dt * dflx / (dx * (rhol + rhor))
  let tmp_min := min (1/2) v_over_c
  1/2 + max (-(1/2)) tmp_min

/-! ## Common parts -/

/-- `gamma*p` or `cs*cs*d` (adiabatic_mhd.cpp:150, isothermal_mhd.cpp:123). -/
noncomputable def asq : Gas → W → ℝ
  | .adiabatic gamma, w => gamma * w.p
  | .isothermal cs, w => cs * cs * w.d

/-- `FastMagnetosonicSpeed(wli,bxi)`. -/
noncomputable def fast (g : Gas) (bx : ℝ) (w : W) : ℝ := fastSpeed (asq g w) w.d bx w.bY w.bZ

/-- The magnetic pressure `pbl`, `pbr` (hlle_mhd.cpp:80-81). -/
noncomputable def pb (bx : ℝ) (w : W) : ℝ := 1/2 * (bx * bx + w.bY ^ 2 + w.bZ ^ 2)

/-- What is added to the normal momentum flux (hlle_mhd.cpp:140-150). -/
def press : Gas → W → ℝ
  | .adiabatic _, w => w.p
  | .isothermal cs, w => cs * cs * w.d

/-- The total energy `el`, `er` (hlle_mhd.cpp:84-85). -/
noncomputable def energy (g : Gas) (bx : ℝ) (w : W) : ℝ :=
  match g with
  | .adiabatic gamma => w.p / (gamma - 1) + 1/2 * w.d * (w.vx ^ 2 + w.vy ^ 2 + w.vz ^ 2) + pb bx w
  | .isothermal _ => 0

/-- The fluxes `fl`, `fr` (llf_mhd.cpp:79-115, roe_mhd.cpp:110-141). -/
noncomputable def sideFlux (g : Gas) (bx : ℝ) (w : W) : F :=
  let mx := w.d * w.vx
  ⟨mx, mx * w.vx + pb bx w - bx ^ 2 + press g w, mx * w.vy - bx * w.bY, mx * w.vz - bx * w.bZ,
    g.ifEnergy ((energy g bx w + w.p + pb bx w - bx * bx) * w.vx - bx * (w.bY * w.vy + w.bZ * w.vz)),
    w.bY * w.vx - bx * w.vy, w.bZ * w.vx - bx * w.vz⟩

/-- The difference `du` (llf_mhd.cpp:119-125, roe_mhd.cpp:145-151). -/
noncomputable def jump (g : Gas) (bx : ℝ) (wl wr : W) : F :=
  ⟨wr.d - wl.d, wr.d * wr.vx - wl.d * wl.vx, wr.d * wr.vy - wl.d * wl.vy, wr.d * wr.vz - wl.d * wl.vz,
    g.ifEnergy (energy g bx wr - energy g bx wl), wr.bY - wl.bY, wr.bZ - wl.bZ⟩

/-- Componentwise combination; the energy is stored if there is an energy equation. -/
def F.map2 (g : Gas) (op : ℝ → ℝ → ℝ) (a b : F) : F :=
  ⟨op a.d b.d, op a.mx b.mx, op a.my b.my, op a.mz b.mz, g.ifEnergy (op a.e b.e), op a.bY b.bY, op a.bZ b.bZ⟩

/-! ## LLF -/

/-- The solver of llf_mhd.cpp:51-149. -/
noncomputable def llf (g : Gas) (bx : ℝ) (wl wr : W) : F :=
  let cfl := fast g bx wl
  let cfr := fast g bx wr
  let a := 1/2 * max (|wl.vx| + cfl) (|wr.vx| + cfr)
  F.map2 g (fun f du => f - a * du)
    (F.map2 g (fun l r => 1/2 * (l + r)) (sideFlux g bx wl) (sideFlux g bx wr)) (jump g bx wl wr)

/-! ## HLLE -/

/-- The weighted average (hlle_mhd.cpp:64-74, roe_mhd.cpp:83-93). For the field the code exchanges the weights. -/
noncomputable def roeMean (wl wr : W) (x y : ℝ) : ℝ :=
  let sqrtdl := Real.sqrt wl.d
  let sqrtdr := Real.sqrt wr.d
  let isdlpdr := 1 / (sqrtdl + sqrtdr)
  (sqrtdl * x + sqrtdr * y) * isdlpdr

@[inherit_doc roeMean]
noncomputable def roeMeanB (wl wr : W) (x y : ℝ) : ℝ :=
  let sqrtdl := Real.sqrt wl.d
  let sqrtdr := Real.sqrt wr.d
  let isdlpdr := 1 / (sqrtdl + sqrtdr)
  (sqrtdr * x + sqrtdl * y) * isdlpdr

/-- `wroe[IDN]` (hlle_mhd.cpp:68). -/
noncomputable def roeD (wl wr : W) : ℝ := Real.sqrt wl.d * Real.sqrt wr.d

/-- `x`, `y` (hlle_mhd.cpp:75-76, roe_mhd.cpp:94-95). -/
noncomputable def roeX (wl wr : W) : ℝ :=
  1/2 * ((wl.bY - wr.bY) ^ 2 + (wl.bZ - wr.bZ) ^ 2) / (Real.sqrt wl.d + Real.sqrt wr.d) ^ 2

@[inherit_doc roeX]
noncomputable def roeY (wl wr : W) : ℝ := 1/2 * (wl.d + wr.d) / roeD wl wr

/-- `hroe`, `wroe[IPR]` (hlle_mhd.cpp:86, roe_mhd.cpp:105). -/
noncomputable def roeEnthalpy (g : Gas) (bx : ℝ) (wl wr : W) : ℝ :=
  let sqrtdl := Real.sqrt wl.d
  let sqrtdr := Real.sqrt wr.d
  let isdlpdr := 1 / (sqrtdl + sqrtdr)
  ((energy g bx wl + wl.p + pb bx wl) / sqrtdl + (energy g bx wr + wr.p + pb bx wr) / sqrtdr) * isdlpdr

/-- `hp - 0.5*vsq` (hlle_mhd.cpp:95-102, roe_mhd.cpp:262-265). -/
noncomputable def roeQ (g : Gas) (bx : ℝ) (wl wr : W) : ℝ :=
  let vaxsq := bx * bx / roeD wl wr
  let btsq := roeMeanB wl wr wl.bY wr.bY ^ 2 + roeMeanB wl wr wl.bZ wr.bZ ^ 2
  let vsq := roeMean wl wr wl.vx wr.vx ^ 2 + roeMean wl wr wl.vy wr.vy ^ 2 + roeMean wl wr wl.vz wr.vz ^ 2
  roeEnthalpy g bx wl wr - (vaxsq + btsq / roeD wl wr) - 1/2 * vsq

/-- `bt_starsq`, `twid_asq` (hlle_mhd.cpp:95-106). -/
noncomputable def hlleStar (g : Gas) (bx : ℝ) (wl wr : W) : ℝ × ℝ :=
  let btsq := roeMeanB wl wr wl.bY wr.bY ^ 2 + roeMeanB wl wr wl.bZ wr.bZ ^ 2
  match g with
  | .adiabatic gamma =>
    ((gamma - 1 - (gamma - 1 - 1) * roeY wl wr) * btsq,
      max ((gamma - 1) * roeQ g bx wl wr - (gamma - 1 - 1) * roeX wl wr) 0)
  | .isothermal cs => (btsq * roeY wl wr, cs * cs + roeX wl wr)

/-- The radicands of `cf2_cs2` and of the speed `a` (hlle_mhd.cpp:107-112). -/
noncomputable def hlleRad (g : Gas) (bx : ℝ) (wl wr : W) : ℝ × ℝ :=
  let vaxsq := bx * bx / roeD wl wr
  let ct2 := (hlleStar g bx wl wr).1 / roeD wl wr
  let twid_asq := (hlleStar g bx wl wr).2
  let tsum := vaxsq + ct2 + twid_asq
  let tdif := vaxsq + ct2 - twid_asq
  let r := tdif * tdif + 4 * twid_asq * ct2
  (r, 1/2 * (tsum + Real.sqrt r))

/-- The fast speed `a` of the Roe average (hlle_mhd.cpp:113). -/
noncomputable def hlleA (g : Gas) (bx : ℝ) (wl wr : W) : ℝ := Real.sqrt (hlleRad g bx wl wr).2

/-- The flux along a line of slope `b` (hlle_mhd.cpp:125-156). -/
noncomputable def lineFlux (g : Gas) (bx : ℝ) (w : W) (b : ℝ) : F :=
  let vx := w.vx - b
  ⟨w.d * vx, w.d * w.vx * vx + pb bx w - bx ^ 2 + press g w, w.d * w.vy * vx - bx * w.bY,
    w.d * w.vz * vx - bx * w.bZ,
    g.ifEnergy (energy g bx w * vx + w.vx * (w.p + pb bx w - bx * bx) - bx * (w.bY * w.vy + w.bZ * w.vz)),
    w.bY * vx - bx * w.vy, w.bZ * vx - bx * w.vz⟩

/-- The solver of hlle_mhd.cpp:42-179. -/
noncomputable def hlle (g : Gas) (bx : ℝ) (wl wr : W) : F :=
  let vroe := roeMean wl wr wl.vx wr.vx
  let cl := fast g bx wl
  let cr := fast g bx wr
  let a := hlleA g bx wl wr
  let al := min (vroe - a) (wl.vx - cl)
  let ar := max (vroe + a) (wr.vx + cr)
  let bp := if 0 < ar then ar else 0
  let bm := if al < 0 then al else 0
  let tmp := if bp ≠ bm then 1/2 * (bp + bm) / (bp - bm) else 0
  F.map2 g (fun l r => 1/2 * (l + r) + (l - r) * tmp) (lineFlux g bx wl bm) (lineFlux g bx wr bp)

/-! ## HLLD, LHLLD -/

/-- `ul`, `ur` (hlld.cpp:80-110). -/
noncomputable def hlldCons (gamma bx : ℝ) (w : W) : F :=
  let pbl := 1/2 * (bx * bx + (w.bY ^ 2 + w.bZ ^ 2))
  let kel := 1/2 * w.d * (w.vx ^ 2 + (w.vy ^ 2 + w.vz ^ 2))
  ⟨w.d, w.vx * w.d, w.vy * w.d, w.vz * w.d, w.p * (1 / (gamma - 1)) + kel + pbl, w.bY, w.bZ⟩

/-- The total pressure `ptl`, `ptr` (hlld.cpp:131-132). -/
noncomputable def hlldPt (bx : ℝ) (w : W) : ℝ := w.p + 1/2 * (bx * bx + (w.bY ^ 2 + w.bZ ^ 2))

/-- `fl`, `fr` (hlld.cpp:134-148). -/
noncomputable def hlldFlux (gamma bx : ℝ) (w : W) : F :=
  let u := hlldCons gamma bx w
  let pt := hlldPt bx w
  ⟨u.mx, u.mx * w.vx + pt - bx * bx, u.my * w.vx - bx * u.bY, u.mz * w.vx - bx * u.bZ,
    w.vx * (u.e + pt - bx * bx) - bx * (w.vy * u.bY + w.vz * u.bZ), u.bY * w.vx - bx * w.vy, u.bZ * w.vx - bx * w.vz⟩

/-- `spd[0]`, `spd[4]` (hlld.cpp:114-118). -/
noncomputable def hlldSl (gamma bx : ℝ) (wl wr : W) : ℝ :=
  min (wl.vx - fast (.adiabatic gamma) bx wl) (wr.vx - fast (.adiabatic gamma) bx wr)

@[inherit_doc hlldSl]
noncomputable def hlldSr (gamma bx : ℝ) (wl wr : W) : ℝ :=
  max (wl.vx + fast (.adiabatic gamma) bx wl) (wr.vx + fast (.adiabatic gamma) bx wr)

/-- `spd[2]` (hlld.cpp:152-157). -/
noncomputable def hlldSm (gamma bx : ℝ) (wl wr : W) : ℝ :=
  let sdl := hlldSl gamma bx wl wr - wl.vx
  let sdr := hlldSr gamma bx wl wr - wr.vx
  let ul := hlldCons gamma bx wl
  let ur := hlldCons gamma bx wr
  (sdr * ur.mx - sdl * ul.mx + (hlldPt bx wl - hlldPt bx wr)) / (sdr * ur.d - sdl * ul.d)

/-- `ptst` (hlld.cpp:178-182). -/
noncomputable def hlldPst (gamma bx : ℝ) (wl wr : W) : ℝ :=
  let sdl := hlldSl gamma bx wl wr - wl.vx
  let sdr := hlldSr gamma bx wl wr - wr.vx
  let sm := hlldSm gamma bx wl wr
  let ptstl := hlldPt bx wl + wl.d * sdl * (sm - wl.vx)
  let ptstr := hlldPt bx wr + wr.d * sdr * (sm - wr.vx)
  1/2 * (ptstr + ptstl)

/-- `std::abs(ul.d*sdl*sdml-bxsq) < (SMALL_NUMBER)*ptst` (hlld.cpp:186, 214): the degenerate case; `s` is the outer
speed, `sm` the middle one. -/
def hlldDeg (bx s sm ptst : ℝ) (w : W) : Prop := |w.d * (s - w.vx) * (s - sm) - bx * bx| < 1/10000 * ptst

/-- The density of a star state (hlld.cpp:159-165). -/
noncomputable def hlldDst (s sm : ℝ) (w : W) : ℝ := w.d * (s - w.vx) * (1 / (s - sm))

/-- `v_i* dot B_i*` (hlld.cpp:206, 234). -/
noncomputable def hlldVb (bx : ℝ) (u : F) : ℝ := (u.mx * bx + (u.my * u.bY + u.mz * u.bZ)) * (1 / u.d)

open Classical in
/-- The star state of one side (hlld.cpp:184-210 and 212-238) for the outer speed `s`. -/
noncomputable def hlldStar (gamma bx s sm ptst : ℝ) (w : W) : F :=
  let u := hlldCons gamma bx w
  let sd := s - w.vx
  let sdm := s - sm
  let dst := hlldDst s sm w
  let t : F :=
    if hlldDeg bx s sm ptst w then ⟨dst, dst * sm, dst * w.vy, dst * w.vz, 0, u.bY, u.bZ⟩
    else
      let tmp := bx * (sd - sdm) / (u.d * sd * sdm - bx * bx)
      let tmp2 := (u.d * sd ^ 2 - bx * bx) / (u.d * sd * sdm - bx * bx)
      ⟨dst, dst * sm, dst * (w.vy - u.bY * tmp), dst * (w.vz - u.bZ * tmp), 0, u.bY * tmp2, u.bZ * tmp2⟩
  { t with e := (sd * u.e - hlldPt bx w * w.vx + ptst * sm
      + bx * (w.vx * bx + (w.vy * u.bY + w.vz * u.bZ) - hlldVb bx t)) * (1 / sdm) }

/-- `bxsig` (hlld.cpp:241). -/
noncomputable def bxsig (bx : ℝ) : ℝ := if 0 < bx then 1 else -1

/-- The double-star states `uldst` (`side = -1`) and `urdst` (`side = 1`) (hlld.cpp:239-274) from the star states. -/
noncomputable def hlldDst2 (bx sm side : ℝ) (ul ur own : F) : F :=
  let sqrtdl := Real.sqrt ul.d
  let sqrtdr := Real.sqrt ur.d
  let invsumd := 1 / (sqrtdl + sqrtdr)
  let sig := bxsig bx
  let vy := invsumd * (sqrtdl * (ul.my * (1 / ul.d)) + sqrtdr * (ur.my * (1 / ur.d)) + sig * (ur.bY - ul.bY))
  let vz := invsumd * (sqrtdl * (ul.mz * (1 / ul.d)) + sqrtdr * (ur.mz * (1 / ur.d)) + sig * (ur.bZ - ul.bZ))
  let bY := invsumd * (sqrtdl * ur.bY + sqrtdr * ul.bY
    + sig * sqrtdl * sqrtdr * (ur.my * (1 / ur.d) - ul.my * (1 / ul.d)))
  let bZ := invsumd * (sqrtdl * ur.bZ + sqrtdr * ul.bZ
    + sig * sqrtdl * sqrtdr * (ur.mz * (1 / ur.d) - ul.mz * (1 / ul.d)))
  -- the code forms this product with the momenta of the left double-star state
  let tmp := sm * bx + (ul.d * vy * bY + ul.d * vz * bZ) / ul.d
  ⟨own.d, own.mx, own.d * vy, own.d * vz, own.e + side * Real.sqrt own.d * sig * (hlldVb bx own - tmp), bY, bZ⟩

/-- `spd[1]` (`side = -1`) and `spd[3]` (`side = 1`) (hlld.cpp:172-173). -/
noncomputable def hlldSa (bx sm side : ℝ) (u : F) : ℝ := sm + side * (|bx| / Real.sqrt u.d)

/-- `f + s (u' - u)` (hlld.cpp:277-307 with the sums of 309-363). -/
def F.plus (f : F) (s : ℝ) (u' u : F) : F :=
  ⟨f.d + s * (u'.d - u.d), f.mx + s * (u'.mx - u.mx), f.my + s * (u'.my - u.my), f.mz + s * (u'.mz - u.mz),
    f.e + s * (u'.e - u.e), f.bY + s * (u'.bY - u.bY), f.bZ + s * (u'.bZ - u.bZ)⟩

/-- Steps 4 (from the speed of the middle wave on) to 6 (hlld.cpp:159-363, lhlld.cpp:165-369). -/
noncomputable def hlldFrom (gamma bx sm ptst : ℝ) (wl wr : W) : F :=
  let sl := hlldSl gamma bx wl wr
  let sr := hlldSr gamma bx wl wr
  let ul := hlldCons gamma bx wl
  let ur := hlldCons gamma bx wr
  let fl := hlldFlux gamma bx wl
  let fr := hlldFlux gamma bx wr
  let ulst := hlldStar gamma bx sl sm ptst wl
  let urst := hlldStar gamma bx sr sm ptst wr
  let s1 := hlldSa bx sm (-1) ulst
  let s3 := hlldSa bx sm 1 urst
  let uldst := hlldDst2 bx sm (-1) ulst urst ulst
  let urdst := hlldDst2 bx sm 1 ulst urst urst
  if 0 ≤ sl then fl
  else if sr ≤ 0 then fr
  else if 0 ≤ s1 then fl.plus sl ulst ul
  else if s3 ≤ 0 then fr.plus sr urst ur
  else if 0 ≤ sm then (fl.plus sl ulst ul).plus s1 uldst ulst
  else (fr.plus sr urst ur).plus s3 urdst urst

/-- The solver of hlld.cpp:60-373. -/
noncomputable def hlld (gamma bx : ℝ) (wl wr : W) : F :=
  hlldFrom gamma bx (hlldSm gamma bx wl wr) (hlldPst gamma bx wl wr) wl wr

/-- The speed of the middle wave (lhlld.cpp:149-163); the shock detector is that of LHLLC with the fast speeds. -/
noncomputable def lhlldSm (gamma bx dvn dvt : ℝ) (wl wr : W) : ℝ :=
  let sdl := hlldSl gamma bx wl wr - wl.vx
  let sdr := hlldSr gamma bx wl wr - wr.vx
  let ul := hlldCons gamma bx wl
  let ur := hlldCons gamma bx wr
  let cfmax := max (fast (.adiabatic gamma) bx wl) (fast (.adiabatic gamma) bx wr)
  let th := Verif.Riemann.lhllcTh cfmax dvn dvt
  (sdr * ur.mx - sdl * ul.mx + th * (hlldPt bx wl - hlldPt bx wr)) / (sdr * ur.d - sdl * ul.d)

/-- `clsq`, `crsq` (lhlld.cpp:184-185). -/
noncomputable def lhlldCsq (bx : ℝ) (w : W) : ℝ :=
  let pbl := 1/2 * (bx * bx + (w.bY ^ 2 + w.bZ ^ 2))
  let kel := 1/2 * w.d * (w.vx ^ 2 + (w.vy ^ 2 + w.vz ^ 2))
  ((pbl + kel) + Real.sqrt ((pbl + kel) ^ 2 - 2 * kel * (bx * bx))) / w.d

/-- `ptst` (lhlld.cpp:184-188). -/
noncomputable def lhlldPst (gamma bx : ℝ) (wl wr : W) : ℝ :=
  let sdld := (hlldSl gamma bx wl wr - wl.vx) * wl.d
  let sdrd := (hlldSr gamma bx wl wr - wr.vx) * wr.d
  let cfmax := max (fast (.adiabatic gamma) bx wl) (fast (.adiabatic gamma) bx wr)
  let chi := min 1 (Real.sqrt (max (lhlldCsq bx wl) (lhlldCsq bx wr)) / cfmax)
  let phi := chi * (2 - chi)
  (sdrd * hlldPt bx wl - sdld * hlldPt bx wr + phi * sdrd * sdld * (wr.vx - wl.vx)) / (sdrd - sdld)

/-- The solver of lhlld.cpp:59-379. -/
noncomputable def lhlld (gamma bx dvn dvt : ℝ) (wl wr : W) : F :=
  hlldFrom gamma bx (lhlldSm gamma bx dvn dvt wl wr) (lhlldPst gamma bx wl wr) wl wr

/-! ## HLLD for an isothermal gas -/

/-- `ul`, `ur` (hlld_iso.cpp:77-89). -/
def isoCons (w : W) : F := ⟨w.d, w.vx * w.d, w.vy * w.d, w.vz * w.d, 0, w.bY, w.bZ⟩

/-- `fl`, `fr` (hlld_iso.cpp:102-118). -/
noncomputable def isoFlux (cs bx : ℝ) (w : W) : F :=
  let u := isoCons w
  let pt := cs ^ 2 * w.d + 1/2 * (bx * bx + w.bY ^ 2 + w.bZ ^ 2)
  ⟨u.mx, u.mx * w.vx + pt - bx * bx, u.my * w.vx - bx * u.bY, u.mz * w.vx - bx * u.bZ, 0,
    u.bY * w.vx - bx * w.vy, u.bZ * w.vx - bx * w.vz⟩

/-- `spd[0]`, `spd[4]` (hlld_iso.cpp:93-97). -/
noncomputable def isoSl (cs bx : ℝ) (wl wr : W) : ℝ :=
  min (wl.vx - fast (.isothermal cs) bx wl) (wr.vx - fast (.isothermal cs) bx wr)

@[inherit_doc isoSl]
noncomputable def isoSr (cs bx : ℝ) (wl wr : W) : ℝ :=
  max (wl.vx + fast (.isothermal cs) bx wl) (wr.vx + fast (.isothermal cs) bx wr)

/-- `dhll` before the floor (hlld_iso.cpp:126). -/
noncomputable def isoDraw (cs bx : ℝ) (wl wr : W) : ℝ :=
  let sl := isoSl cs bx wl wr
  let sr := isoSr cs bx wl wr
  (sr * (isoCons wr).d - sl * (isoCons wl).d - (isoFlux cs bx wr).d + (isoFlux cs bx wl).d) * (1 / (sr - sl))

/-- `fdhll`, `fmxhll` (hlld_iso.cpp:131-132). -/
noncomputable def isoFhll (cs bx : ℝ) (wl wr : W) : ℝ × ℝ :=
  let sl := isoSl cs bx wl wr
  let sr := isoSr cs bx wl wr
  let ul := isoCons wl
  let ur := isoCons wr
  let fl := isoFlux cs bx wl
  let fr := isoFlux cs bx wr
  ((sr * fl.d - sl * fr.d + sr * sl * (ur.d - ul.d)) * (1 / (sr - sl)),
    (sr * fl.mx - sl * fr.mx + sr * sl * (ur.mx - ul.mx)) * (1 / (sr - sl)))

/-- `mxhll` (hlld_iso.cpp:139). -/
noncomputable def isoMx (cs bx : ℝ) (wl wr : W) : ℝ :=
  let sl := isoSl cs bx wl wr
  let sr := isoSr cs bx wl wr
  (sr * (isoCons wr).mx - sl * (isoCons wl).mx - (isoFlux cs bx wr).mx + (isoFlux cs bx wl).mx) * (1 / (sr - sl))

/-- The star state of one side (hlld_iso.cpp:147-166, 168-187). `s` is the outer speed, `sa` the Alfven speed of that
side tested for the degenerate case, `s1`, `s3` both Alfven speeds. -/
noncomputable def isoStar (cs bx dhll mxhll ustar s sa s1 s3 : ℝ) (w : W) : F :=
  let u := isoCons w
  let tmp := (s - s1) * (s - s3)
  if |s - sa| < 1/10000 * cs then ⟨dhll, mxhll, u.my, u.mz, 0, u.bY, u.bZ⟩
  else
    let mfact := bx * (ustar - w.vx) / tmp
    let bfact := (u.d * (s - w.vx) ^ 2 - bx * bx) / (dhll * tmp)
    ⟨dhll, mxhll, dhll * w.vy - u.bY * mfact, dhll * w.vz - u.bZ * mfact, 0, u.bY * bfact, u.bZ * bfact⟩

/-- The solver of hlld_iso.cpp:58-249; `dfloor` is the density floor. -/
noncomputable def hlldIso (cs dfloor bx : ℝ) (wl wr : W) : F :=
  let sl := isoSl cs bx wl wr
  let sr := isoSr cs bx wl wr
  let ul := isoCons wl
  let ur := isoCons wr
  let fl := isoFlux cs bx wl
  let fr := isoFlux cs bx wr
  let dhll := max (isoDraw cs bx wl wr) dfloor
  let sqrtdhll := Real.sqrt dhll
  let ustar := (isoFhll cs bx wl wr).1 / dhll
  let mxhll := isoMx cs bx wl wr
  let s1 := ustar - |bx| / sqrtdhll
  let s3 := ustar + |bx| / sqrtdhll
  let ulst := isoStar cs bx dhll mxhll ustar sl s1 s1 s3 wl
  let urst := isoStar cs bx dhll mxhll ustar sr s3 s1 s3 wr
  let x := sqrtdhll * bxsig bx
  let cmy := 1/2 * (ulst.my + urst.my + (urst.bY - ulst.bY) * x)
  let cmz := 1/2 * (ulst.mz + urst.mz + (urst.bZ - ulst.bZ) * x)
  let cbY := 1/2 * (ulst.bY + urst.bY + (urst.my - ulst.my) / x)
  let cbZ := 1/2 * (ulst.bZ + urst.bZ + (urst.mz - ulst.mz) / x)
  if 0 ≤ sl then fl
  else if sr ≤ 0 then fr
  else if 0 ≤ s1 then fl.plus sl ulst ul
  else if s3 ≤ 0 then fr.plus sr urst ur
  else ⟨dhll * ustar, (isoFhll cs bx wl wr).2, cmy * ustar - bx * cbY, cmz * ustar - bx * cbZ, 0,
    cbY * ustar - bx * cmy / dhll, cbZ * ustar - bx * cmz / dhll⟩

end Verif.Mhd
