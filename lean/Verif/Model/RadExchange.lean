import Mathlib.Analysis.SpecialFunctions.Pow.Real
import Mathlib.Algebra.BigOperators.Group.Finset.Basic

/-!
# Exchange of energy and momentum between radiation and gas

Model of `src/nr_radiation/integrators/srcterms/absorption_scattering.cpp`,
`src/utils/fourth_polynomial_root.cpp`, `src/nr_radiation/integrators/frame_transform.cpp` and
of `CalSourceTerms`, `GetHydroSourceTerms`, `AddSourceTerms` in
`src/nr_radiation/integrators/rad_source.cpp`, for one frequency group (`nfreq = 1`) and
without Compton scattering.  Arithmetic is real; tests for NaN are therefore left out.
-/

namespace Verif.RadX

open Finset

/-- `TINY_NUMBER`, defs.hpp.in:146. -/
noncomputable def tiny : ℝ := 1 / 10 ^ 20

/-- `BIG_NUMBER`, defs.hpp.in:147. -/
noncomputable def big : ℝ := 10 ^ 10

open Classical in
/-- `FouthPolyRoot`, fourth_polynomial_root.cpp:22-59: the root of `coef4*x^4 + x + tconst`;
`none` is the return value `-1`. -/
noncomputable def quarticRoot (c t : ℝ) : Option ℝ :=
  let d := 0.25 - 64 * (t * t * t) * c / 27
  if d < 0 then none else
  let d1 := √d
  if d1 < 0.5 then none else
  let z0 := if big < d1 then d1 ^ (-2 / 3 : ℝ) / 3
    else (0.5 + d1) ^ (1 / 3 : ℝ) - (-0.5 + d1) ^ (1 / 3 : ℝ)
  if z0 < 0 then none else
  let z := z0 * c ^ (-2 / 3 : ℝ)
  let r := √z
  let d2 := -z + 2 / (c * r)
  if d2 < 0 then none else
  let root := 0.5 * (√d2 - r)
  if root < 0 then none else some root

/-- What `AbsorptionScattering` is called with: `wmu_cm`, `tran_coef`, `implicit_coef`,
`ir_cm` for each angle; `ct = dt*crat`, `red = reduced_c/crat`, `prat`, `gm1 = gamma-1`, the
density and temperature of the gas and the four opacities. -/
structure Cell (N : ℕ) where
  w : Fin N → ℝ
  tc : Fin N → ℝ
  im : Fin N → ℝ
  ir : Fin N → ℝ
  ct : ℝ
  red : ℝ
  prat : ℝ
  gm1 : ℝ
  rho : ℝ
  tgas : ℝ
  sa : ℝ
  sp : ℝ
  spe : ℝ
  ss : ℝ

variable {N : ℕ}

/-- `rdtcsigmar + rdtcsigmas`, absorption_scattering.cpp:77-87. -/
def rR (q : Cell N) : ℝ := q.red * (q.ct * q.sa) + q.red * (q.ct * q.ss)

/-- `rdtcsigmap`. -/
def rP (q : Cell N) : ℝ := q.red * (q.ct * q.sp)

/-- `rdtcsigmae`. -/
def rE (q : Cell N) : ℝ := q.red * (q.ct * q.spe)

/-- `vn`, absorption_scattering.cpp:96. -/
noncomputable def vn (q : Cell N) (n : Fin N) : ℝ := 1 / (q.im n + rR q * q.tc n)

/-- `vn2`, absorption_scattering.cpp:97. -/
noncomputable def vn2 (q : Cell N) (n : Fin N) : ℝ := q.tc n * vn q n

/-- `suma1` before it is multiplied, absorption_scattering.cpp:100. -/
noncomputable def suma0 (q : Cell N) : ℝ := ∑ n, q.w n * vn2 q n

/-- `suma2`, absorption_scattering.cpp:98, 101. -/
noncomputable def suma2 (q : Cell N) : ℝ := ∑ n, q.ir n * q.w n * vn q n

/-- `suma3`, absorption_scattering.cpp:103. -/
noncomputable def suma3 (q : Cell N) : ℝ := suma0 q * (rR q - rE q)

/-- `suma1`, absorption_scattering.cpp:104. -/
noncomputable def suma1 (q : Cell N) : ℝ := suma0 q * rP q

/-- `coef[1]`, absorption_scattering.cpp:111. -/
noncomputable def coef1 (q : Cell N) : ℝ :=
  q.prat * (q.ct * q.sp - q.ct * q.spe * suma1 q / (1 - suma3 q)) * q.gm1 / q.rho

/-- `coef[0]`, absorption_scattering.cpp:113. -/
noncomputable def coef0 (q : Cell N) : ℝ :=
  -q.tgas - q.ct * q.spe * q.prat * suma2 q * q.gm1 / (q.rho * (1 - suma3 q))

open Classical in
/-- `tgasnew` and whether the cell is good, absorption_scattering.cpp:115-123. -/
noncomputable def newT (q : Cell N) : ℝ × Bool :=
  if tiny < |coef1 q| then
    match quarticRoot (coef1 q) (coef0 q) with
    | some x => (x, true)
    | none => (q.tgas, false)
  else (-coef0 q, true)

/-- `jr_cm`, absorption_scattering.cpp:126-129. -/
noncomputable def newJ (q : Cell N) : ℝ :=
  (suma1 q * ((newT q).1 * (newT q).1 * (newT q).1 * (newT q).1) + suma2 q) / (1 - suma3 q)

/-- The new intensity before its floor, absorption_scattering.cpp:137-139. -/
noncomputable def newI0 (q : Cell N) (n : Fin N) : ℝ :=
  q.ir n + ((rR q - rE q) * newJ q
    + rP q * ((newT q).1 * (newT q).1 * (newT q).1 * (newT q).1)
    - ((q.im n - 1) / q.tc n + rR q) * q.ir n) * vn2 q n

/-- `ir_cm` on return, absorption_scattering.cpp:125-142. -/
noncomputable def newI (q : Cell N) (n : Fin N) : ℝ :=
  if (newT q).2 then max (newI0 q n) tiny else q.ir n

/-! ### frames -/

/-- `1 - vdotn/crat`. -/
noncomputable def vnc (c vx vy vz x y z : ℝ) : ℝ := 1 - (vx * x + vy * y + vz * z) * (1 / c)

/-- `lorzsq`, frame_transform.cpp:54, rad_source.cpp:81. -/
noncomputable def lorzsq (c vx vy vz : ℝ) : ℝ :=
  1 / (1 - (vx * vx + vy * vy + vz * vz) * (1 / c) * (1 / c))

/-- `LabToCom` for one angle, frame_transform.cpp:44-67. -/
noncomputable def labToCom (c vx vy vz x y z ir : ℝ) : ℝ :=
  ir * (vnc c vx vy vz x y z * vnc c vx vy vz x y z * vnc c vx vy vz x y z *
    vnc c vx vy vz x y z * lorzsq c vx vy vz * lorzsq c vx vy vz)

/-- `ComToLab` for one angle, frame_transform.cpp:74-99. -/
noncomputable def comToLab (c vx vy vz x y z ir : ℝ) : ℝ :=
  ir / (vnc c vx vy vz x y z * vnc c vx vy vz x y z * vnc c vx vy vz x y z *
    vnc c vx vy vz x y z * lorzsq c vx vy vz * lorzsq c vx vy vz)

/-- `ComAngle`, frame_transform.cpp:144-160. -/
noncomputable def comAngle (c vx vy vz x y z : ℝ) : ℝ × ℝ × ℝ :=
  let lorz := √(lorzsq c vx vy vz)
  let vdotn := vx * x + vy * y + vz * z
  let angcoef := lorz * (1 / c) * (1 - lorz * vdotn * (1 / c) / (1 + lorz))
  let incoef := 1 / (lorz * (1 - vdotn * (1 / c)))
  ((x - vx * angcoef) * incoef, (y - vy * angcoef) * incoef, (z - vz * angcoef) * incoef)

/-! ### `CalSourceTerms` for the explicit scheme -/

/-- The cell as `CalSourceTerms` sees it: velocity of the source term, directions, weights and
intensities in the laboratory frame. -/
structure Lab (N : ℕ) where
  c : ℝ
  v : Fin 3 → ℝ
  mu : Fin N → Fin 3 → ℝ
  wmu : Fin N → ℝ
  ir : Fin N → ℝ

/-- `tran_coef(n)`, rad_source.cpp:80-97. -/
noncomputable def tranCoef (l : Lab N) (n : Fin N) : ℝ :=
  √(lorzsq l.c (l.v 0) (l.v 1) (l.v 2)) *
    vnc l.c (l.v 0) (l.v 1) (l.v 2) (l.mu n 0) (l.mu n 1) (l.mu n 2)

/-- `wmu_cm(n)` after normalisation, rad_source.cpp:98-107. -/
noncomputable def wmuCm (l : Lab N) (n : Fin N) : ℝ :=
  l.wmu n / (tranCoef l n * tranCoef l n) *
    (1 / ∑ m, l.wmu m / (tranCoef l m * tranCoef l m))

/-- `cm_to_lab(n)`, rad_source.cpp:100. -/
noncomputable def cmToLab (l : Lab N) (n : Fin N) : ℝ :=
  tranCoef l n * tranCoef l n * tranCoef l n * tranCoef l n

/-- The call of `AbsorptionScattering`, rad_source.cpp:109-153, without implicit radiation:
`implicit_coef` is one, intensities are transformed and floored. -/
noncomputable def comoving (l : Lab N) (ct red prat gm1 rho tgas sa sp spe ss : ℝ) : Cell N where
  w := wmuCm l
  tc := tranCoef l
  im := fun _ => 1
  ir := fun n => max (l.ir n * cmToLab l n) tiny
  ct := ct
  red := red
  prat := prat
  gm1 := gm1
  rho := rho
  tgas := tgas
  sa := sa
  sp := sp
  spe := spe
  ss := ss

/-- The intensity in the laboratory frame after the step, rad_source.cpp:229-236. -/
noncomputable def labOut (l : Lab N) (q : Cell N) (n : Fin N) : ℝ :=
  max (newI q n / cmToLab l n) tiny

/-! ### the gas -/

/-- Conserved variables of a cell of gas and what `AddSourceTerms` needs besides. -/
structure Gas where
  d : ℝ
  m1 : ℝ
  m2 : ℝ
  m3 : ℝ
  e : ℝ

/-- `rad_source(0..3)`, rad_source.cpp:422-512, explicit scheme, one group.  `a` are the
intensities before, `b` after the source step. -/
noncomputable def radSource (l : Lab N) (prat redc : ℝ) (a b : Fin N → ℝ) : Fin 4 → ℝ
  | 0 => -prat * (∑ n, b n * l.wmu n - ∑ n, a n * l.wmu n) * (1 / redc / (1 / l.c))
  | 1 => -prat * (∑ n, b n * l.wmu n * l.mu n 0 - ∑ n, a n * l.wmu n * l.mu n 0) * (1 / redc)
  | 2 => -prat * (∑ n, b n * l.wmu n * l.mu n 1 - ∑ n, a n * l.wmu n * l.mu n 1) * (1 / redc)
  | 3 => -prat * (∑ n, b n * l.wmu n * l.mu n 2 - ∑ n, a n * l.wmu n * l.mu n 2) * (1 / redc)

open Classical in
/-- `AddSourceTerms`, rad_source.cpp:516-579: `pb` magnetic energy (zero without fields), `flag`
is `set_source_flag`, `tnew` is `tgas_new_`, `ceil` is `t_ceiling_`. -/
noncomputable def addSource (c vmax gm1 ceil tnew pb : ℝ) (flag : ℕ) (s : Fin 4 → ℝ) (u : Gas) :
    Gas :=
  let m1 := u.m1 + s 1
  let m2 := u.m2 + s 2
  let m3 := u.m3 + s 3
  let vx := m1 / u.d
  let vy := m2 / u.d
  let vz := m3 / u.d
  let ratio := √(vx * vx + vy * vy + vz * vz) * (1 / c)
  let f := if ratio > vmax then vmax / ratio else 1
  let m1 := m1 * f
  let m2 := m2 * f
  let m3 := m3 * f
  let ekin := 0.5 * (m1 * m1 + m2 * m2 + m3 * m3) / u.d
  let e :=
    if flag = 2 then tnew * u.d / gm1 + pb + ekin
    else
      let eint := u.e + s 0 - ekin - pb
      let tgas := eint * gm1 / u.d
      if eint < 0 then tnew * u.d / gm1 + pb + ekin
      else if tgas > ceil then ekin + pb + ceil * u.d / gm1
      else u.e + s 0
  ⟨u.d, m1, m2, m3, e⟩

end Verif.RadX
