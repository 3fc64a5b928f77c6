import Mathlib.Analysis.SpecialFunctions.Exp
import Mathlib.Data.Fin.VecNotation
import Mathlib.Analysis.SpecialFunctions.Sqrt

/-!
# Cosmic rays: rotation to the magnetic field, opacities, HLLE flux, implicit source terms

Model of `src/utils/rotate_vectors.cpp`, `src/cr/cr.cpp`, `src/cr/integrators/cr_flux.cpp`, the diffusion speeds of
`src/cr/integrators/cr_transport.cpp` and `src/cr/integrators/cr_source.cpp`.  The numbers are real numbers; every
function is that of one cell or of one face.  The terms of curvilinear coordinates and the user functions are not
modelled.
-/
namespace Verif.Cr

/-- A vector with the components along the three directions of the coordinates. -/
@[ext] structure V3 where
  x : ℝ
  y : ℝ
  z : ℝ

/-- One cell of `pcr->b_angle`: sine and cosine of the polar angle, sine and cosine of the azimuth
(pgen/cr_diffusion.cpp:285-289). -/
@[ext] structure Angle where
  st : ℝ
  ct : ℝ
  sp : ℝ
  cp : ℝ

/-- `TINY_NUMBER` (defs.hpp.in:146). -/
noncomputable def tiny : ℝ := 1 / 10 ^ 20

/-- `RotateVec` (utils/rotate_vectors.cpp:19-43). -/
def rotateVec (a : Angle) (v : V3) : V3 :=
  let newv1 := a.cp * v.x + a.sp * v.y
  ⟨a.st * newv1 + a.ct * v.z, -a.sp * v.x + a.cp * v.y, -a.ct * newv1 + a.st * v.z⟩

/-- `InvRotateVec` (utils/rotate_vectors.cpp:46-71). -/
def invRotateVec (a : Angle) (v : V3) : V3 :=
  let newv1 := a.st * v.x - a.ct * v.z
  ⟨a.cp * newv1 - a.sp * v.y, a.sp * newv1 + a.cp * v.y, a.ct * v.x + a.st * v.z⟩

/-- Square of the length of the field, `btot*btot` (cr/cr.cpp:118-120). -/
def bsq (b : V3) : ℝ := b.x * b.x + b.y * b.y + b.z * b.z

open Classical in
/-- The angles of the field (cr/cr.cpp:116-135). -/
noncomputable def bAngle (b : V3) : Angle :=
  let bxby := √(b.x * b.x + b.y * b.y)
  let btot := √(bsq b)
  ⟨if tiny < btot then bxby / btot else 1, if tiny < btot then b.z / btot else 0,
   if tiny < bxby then b.y / bxby else 0, if tiny < bxby then b.x / bxby else 1⟩

/-- `b_angle` after `DefaultOpacity` (cr/cr.cpp:73, 116-135): it is set only in the branch with a magnetic field and
streaming; otherwise the array keeps what it had, `old`. -/
noncomputable def defaultAngle (mhd stream : Bool) (b : V3) (old : Angle) : Angle :=
  if mhd && stream then bAngle b else old

/-- What `NewAthenaArray` leaves in `b_angle` (cr/cr.cpp:251; athena_arrays.hpp, `new T[]()`): zeros. -/
def allocated : Angle := ⟨0, 0, 0, 0⟩

/-- `1/(1/sigma_diff + 1/sigma_adv)` (cr_source.cpp:126-134, cr_transport.cpp:86-88).  Written without the inner
quotients: the two agree for positive arguments, and for `sigma_adv = 0` this is the value 0 that the quotient has in
IEEE arithmetic, where `1/0` is infinite. -/
noncomputable def harm (sd sa : ℝ) : ℝ := sd * sa / (sd + sa)

/-- The opacity with which a direction is used: `sigma_diff`, or combined with `sigma_adv` if streaming is on. -/
noncomputable def opacity (stream : Bool) (sd sa : V3) : V3 :=
  if stream then ⟨harm sd.x sa.x, harm sd.y sa.y, harm sd.z sa.z⟩ else sd

/-- Energy and flux of the cosmic rays in a cell: `CRE`, `CRF1`, `CRF2`, `CRF3`. -/
@[ext] structure CRay where
  e : ℝ
  f : V3

/-- The divisor of the new energy, `e_coef` (cr_source.cpp:146-170). -/
noncomputable def eCoef (dt vmax : ℝ) (s v vt : V3) : ℝ :=
  let invlim := 1 / vmax
  let c11 := 1 - dt * s.x * vt.x * v.x * invlim * 4 / 3 - dt * s.y * vt.y * v.y * invlim * 4 / 3
    - dt * s.z * vt.z * v.z * invlim * 4 / 3
  let c12 := dt * s.x * vt.x
  let c13 := dt * s.y * vt.y
  let c14 := dt * s.z * vt.z
  let c21 := -dt * v.x * s.x * 4 / 3
  let c22 := 1 + dt * vmax * s.x
  let c31 := -dt * v.y * s.y * 4 / 3
  let c33 := 1 + dt * vmax * s.y
  let c41 := -dt * v.z * s.z * 4 / 3
  let c44 := 1 + dt * vmax * s.z
  c11 - c12 * c21 / c22 - c13 * c31 / c33 - c14 * c41 / c44

/-- The implicit update of energy and flux (cr_source.cpp:141-177): `s` the opacities, `v` the velocity of the gas,
`vt` the velocity of the waves. -/
noncomputable def implicit (dt vmax : ℝ) (s v vt : V3) (c : CRay) : CRay :=
  let c12 := dt * s.x * vt.x
  let c13 := dt * s.y * vt.y
  let c14 := dt * s.z * vt.z
  let c21 := -dt * v.x * s.x * 4 / 3
  let c22 := 1 + dt * vmax * s.x
  let c31 := -dt * v.y * s.y * 4 / 3
  let c33 := 1 + dt * vmax * s.y
  let c41 := -dt * v.z * s.z * 4 / 3
  let c44 := 1 + dt * vmax * s.z
  let e := (c.e - c12 * c.f.x / c22 - c13 * c.f.y / c33 - c14 * c.f.z / c44) / eCoef dt vmax s v vt
  ⟨e, ⟨(c.f.x - c21 * e) / c22, (c.f.y - c31 * e) / c33, (c.f.z - c41 * e) / c44⟩⟩

/-- Density, momentum and energy of the gas in a cell. -/
@[ext] structure Gas where
  d : ℝ
  m : V3
  en : ℝ

/-- The settings of a run: magnetic fields and an energy equation compiled in, `vs_flag`, `src_flag > 0`, `vmax` and
the density floor (cr/cr.cpp:239-244). -/
structure Cfg where
  mhd : Bool
  nonbaro : Bool
  stream : Bool
  src : Bool
  vmax : ℝ
  dfloor : ℝ

/-- What is stored per cell for the source terms: the angles, `sigma_diff`, `sigma_adv`, `v_adv` and `ec_source_`. -/
structure CellData where
  ang : Angle
  sd : V3
  sa : V3
  va : V3
  ecs : ℝ

/-- Velocity of the gas with the density floor (cr_source.cpp:85-89). -/
noncomputable def gasVel (C : Cfg) (g : Gas) : V3 :=
  let rho := max g.d C.dfloor
  ⟨g.m.x / rho, g.m.y / rho, g.m.z / rho⟩

/-- Velocity of the waves (cr_source.cpp:90-99). -/
noncomputable def waveVel (C : Cfg) (q : CellData) (g : Gas) : V3 :=
  let v := gasVel C g
  if C.stream then ⟨v.x + q.va.x, v.y + q.va.y, v.z + q.va.z⟩ else v

/-- The new energy and flux before the energy is checked (cr_source.cpp:101-186). -/
noncomputable def newCr (C : Cfg) (q : CellData) (dt : ℝ) (g : Gas) (c : CRay) : CRay :=
  let s := opacity C.stream q.sd q.sa
  if C.mhd then
    let vt := rotateVec q.ang (waveVel C q g)
    let r := implicit dt C.vmax s (rotateVec q.ang (gasVel C g)) ⟨vt.x, 0, 0⟩ ⟨c.e, rotateVec q.ang c.f⟩
    ⟨r.e + dt * q.ecs, invRotateVec q.ang r.f⟩
  else implicit dt C.vmax s (gasVel C g) (waveVel C q g) c

open Classical in
/-- The energy of the gas afterwards (cr_source.cpp:189-193). -/
noncomputable def gasEnergy (C : Cfg) (g : Gas) (e e' : ℝ) : ℝ :=
  if C.nonbaro && C.src then (if g.en - (e' - e) < 0 then g.en else g.en - (e' - e)) else g.en

open Classical in
/-- `CRIntegrator::AddSourceTerms` for one cell (cr_source.cpp:84-206), without user source terms. -/
noncomputable def addSource (C : Cfg) (q : CellData) (dt : ℝ) (g : Gas) (c : CRay) : Gas × CRay :=
  let r := newCr C q dt g c
  let invlim := 1 / C.vmax
  let m := if C.src then
      (⟨g.m.x + -(r.f.x - c.f.x) * invlim, g.m.y + -(r.f.y - c.f.y) * invlim,
        g.m.z + -(r.f.z - c.f.z) * invlim⟩ : V3) else g.m
  (⟨g.d, m, gasEnergy C g c.e r.e⟩, ⟨if r.e < 0 then c.e else r.e, r.f⟩)

/-- Reduction of the signal speed with the optical depth (cr_transport.cpp:46, 89-97). -/
noncomputable def diffv (tau : ℝ) : ℝ :=
  open Classical in
  if tau < 1 / 1000 then √(1 - 1 / 2 * tau) else √((1 - Real.exp (-tau)) / tau)

/-- The diffusion speed of one direction (cr_transport.cpp:82-98, 104-122, 131-149): `sig` the opacity, `dx` the width
of the cell, `tf` the parameter `taucell`. -/
noncomputable def vDiff (vmax tf sig dx : ℝ) : ℝ :=
  let t := tf * sig * dx
  vmax * √(1 / 3) * diffv (t * t / (2 * (1 / 3)))

/-- The diffusion speeds as used in the fluxes (cr_transport.cpp:157-173): rotated out of the frame of the field and
made positive component by component.  Without the sound speed of the cosmic rays that `vflx` adds (default 0). -/
def vDiffRot (a : Angle) (vd : V3) : V3 :=
  let r := invRotateVec a vd
  ⟨|r.x|, |r.y|, |r.z|⟩

/-- One side of a face: energy and flux of the cosmic rays and the velocity of the gas through the face. -/
structure Side where
  c : CRay
  v : ℝ

/-- Left signal speed (cr_flux.cpp:40-43, 46, 49). -/
noncomputable def bm (vmax : ℝ) (l r : Side) (dl dr : ℝ) : ℝ :=
  let al := min (1 / 2 * (l.v + r.v) - 1 / 2 * (dl + dr)) (l.v - dl)
  let al := max al (-vmax * √(1 / 3))
  open Classical in if al < 0 then al else 0

/-- Right signal speed (cr_flux.cpp:40-41, 44-45, 48). -/
noncomputable def bp (vmax : ℝ) (l r : Side) (dl dr : ℝ) : ℝ :=
  let ar := max (1 / 2 * (l.v + r.v) + 1 / 2 * (dl + dr)) (r.v + dr)
  let ar := min ar (vmax * √(1 / 3))
  open Classical in if 0 < ar then ar else 0

/-- Component of a vector, direction `0`, `1` or `2`. -/
def V3.get (v : V3) (d : Fin 3) : ℝ := ![v.x, v.y, v.z] d

/-- `CRIntegrator::CRFlux` at one face of direction `d` (cr_flux.cpp:36-95); the Eddington tensor is 1/3 on the
diagonal and 0 off it. -/
noncomputable def crFlux (vmax : ℝ) (d : Fin 3) (l r : Side) (dl dr : ℝ) : CRay :=
  let m := bm vmax l r dl dr
  let p := bp vmax l r dl dr
  let edd (i : Fin 3) : ℝ := if i = d then 1 / 3 else 0
  let fle := vmax * l.c.f.get d - m * l.c.e
  let fre := vmax * r.c.f.get d - p * r.c.e
  let flf (i : Fin 3) := vmax * edd i * l.c.e - m * l.c.f.get i
  let frf (i : Fin 3) := vmax * edd i * r.c.e - p * r.c.f.get i
  let tmp := open Classical in if tiny < |m - p| then 1 / 2 * (p + m) / (p - m) else 0
  let comb (a b : ℝ) := 1 / 2 * (a + b) + (a - b) * tmp
  ⟨comb fle fre, ⟨comb (flf 0) (frf 0), comb (flf 1) (frf 1), comb (flf 2) (frf 2)⟩⟩

/-- `B·grad Pc` (cr/cr.cpp:182-184). -/
def bGrad (b gp : V3) : ℝ := b.x * gp.x + b.y * gp.y + b.z * gp.z

open Classical in
/-- `dpc_sign` (cr/cr.cpp:191-194). -/
noncomputable def dpcSign (bg : ℝ) : ℝ := if tiny < bg then 1 else if tiny < -bg then -1 else 0

/-- The streaming velocity of `DefaultStreaming` with streaming on (cr/cr.cpp:186-199). -/
noncomputable def vAdv (rho : ℝ) (b gp : V3) : V3 :=
  let i := 1 / √rho
  let s := dpcSign (bGrad b gp)
  ⟨-(b.x * i) * s, -(b.y * i) * s, -(b.z * i) * s⟩

open Classical in
/-- `sigma_adv(0)` of `DefaultStreaming` with streaming on (cr/cr.cpp:190, 200-202), `old` where the field vanishes. -/
noncomputable def sigmaAdv (vmax rho : ℝ) (b gp : V3) (ec old : ℝ) : ℝ :=
  let va := √(bsq b) * (1 / √rho)
  if tiny < va then |bGrad b gp| / (√(bsq b) * va * (4 / 3) * (1 / vmax) * ec) else old

/-- The place of element `(n,k,j,i)` in the data of an array with the given sizes (athena_arrays.hpp, `operator()` with
four indices), as an integer. -/
def index4 (nx3 nx2 nx1 : ℕ) (n k j i : ℤ) : ℤ := i + nx1 * (j + nx2 * (k + nx3 * n))

/-- The four elements of `u_cr` that `DefaultOpacity` reads for the gradient along directions 2 and 3 in the branch
with field and streaming (cr/cr.cpp:97, 109), whatever the number of dimensions. -/
def opacityReads (nx3 nx2 nx1 : ℕ) (k j i : ℤ) : List ℤ :=
  [index4 nx3 nx2 nx1 0 k (j + 1) i, index4 nx3 nx2 nx1 0 k (j - 1) i,
   index4 nx3 nx2 nx1 0 (k + 1) j i, index4 nx3 nx2 nx1 0 (k - 1) j i]

end Verif.Cr
