import Verif.Model.Coord

/-!
# Physical source terms

`HydroSourceTerms`: point mass, constant acceleration, self-gravity, shearing box, rotating frame and
orbital advection (src/hydro/srcterms), the default orbital velocities and the conversion of variables
(src/orbital_advection).

Variables of `prim` and `cons`: 0 density, 1 to 3 velocity or momentum, 4 pressure or energy. Real numbers instead of
floating point.
-/
namespace Verif.SrcTerms
open Verif.Grid Verif.Coord Verif.Arr

/-- Input parameters and compile-time options `HydroSourceTerms` depends on: coordinates, `NON_BAROTROPIC_EOS`,
`MAGNETIC_FIELDS_ENABLED`, `SELF_GRAVITY_ENABLED`, `<problem>/GM`, `<hydro>/grav_acc1` to `grav_acc3`,
`<orbital_advection>/Omega0`, `qshear`, `shboxcoord`, `OAorder != 0`, and whether `OrbitalVelocity_` is set. -/
structure Conf where
  c : Sys
  nonBaro : Bool
  mhd : Bool
  selfGravity : Bool
  gm : ℝ
  g1 : ℝ
  g2 : ℝ
  g3 : ℝ
  Omega : ℝ
  q : ℝ
  shbox : ℤ
  oa : Bool
  userVel : Bool

/-- Members of `HydroSourceTerms` set by the constructor: `flag_point_mass_`, `flag_shearing_source_`,
`hydro_sourceterms_defined`. -/
structure Flags where
  pointMass : Bool
  shear : ℕ
  defined : Bool
  deriving DecidableEq

/-- The part of the constructor about `GM` (hydro_srcterms.cpp:34-67): `flag_point_mass_` and whether a source term is
defined; `none` is a fatal error. -/
noncomputable def massFlag (c : Conf) (nx3 : ℤ) : Option (Bool × Bool) :=
  if c.gm ≠ 0 then
    if c.c ≠ .spherical ∧ c.c ≠ .cylindrical then none
    else if c.oa then some (false, true)
    else if c.c = .cylindrical ∧ nx3 > 1 then none
    else some (true, true)
  else some (false, false)

/-- `flag_shearing_source_` (hydro_srcterms.cpp:77-103); `none` is a fatal error. -/
noncomputable def shearFlag (c : Conf) : Option ℕ :=
  if c.oa then (if c.shbox = 1 then some 1 else none)
  else if c.Omega ≠ 0 ∧ c.q ≠ 0 ∧ c.c = .cartesian then some 2
  else if c.Omega ≠ 0 ∧ (c.c = .cylindrical ∨ c.c = .spherical) then some 3
  else some 0

/-- The constructor (hydro_srcterms.cpp:30-111); `none` is a fatal error, `user` is `UserSourceTerm_ != nullptr`. -/
noncomputable def construct (c : Conf) (nx3 : ℤ) (user : Bool) : Option Flags := do
  let (pm, df) ← massFlag c nx3
  let df := if c.g1 ≠ 0 then true else df
  let df := if c.g2 ≠ 0 then true else df
  let df := if c.g3 ≠ 0 then true else df
  let sh ← shearFlag c
  let df := if sh ≠ 0 then true else df
  let df := if c.selfGravity then true else df
  let df := if user then true else df
  some ⟨pm, sh, df⟩

/-- Arrays read: primitive variables, cell-centred field, fluxes, potential, positions, and the orbital
velocity `vKc`, `vKf[0]`, `dvKc1`, `dvKc2`, the first index of which is `k`, or `j` in spherical coordinates. -/
structure Data where
  prim : A4 ℝ
  bcc : A4 ℝ
  F : Flx ℝ
  phi : A3 ℝ
  X : XF
  vKc : ℤ → ℤ → ℝ
  vKf1 : ℤ → ℤ → ℝ
  dvKc1 : ℤ → ℤ → ℝ
  dvKc2 : ℤ → ℤ → ℝ

variable (C : Conf) (d : Dims) (D : Data) (dt : ℝ)

/-- A loop over active cells. -/
def cells (d : Dims) (f : ℤ → ℤ → ℤ → A4 ℝ → A4 ℝ) : A4 ℝ → A4 ℝ :=
  loop d.ks d.ke fun k => loop d.js d.je fun j => loop d.is d.ie fun i => f k j i
/-- A loop over the active cells of the first plane. -/
def plane (d : Dims) (f : ℤ → ℤ → ℤ → A4 ℝ → A4 ℝ) : A4 ℝ → A4 ℝ :=
  loop d.js d.je fun j => loop d.is d.ie fun i => f d.ks j i

/-- `if (NON_BAROTROPIC_EOS) u(IEN,k,j,i) += x`. -/
def addE (k j i : ℤ) (x : ℝ) (u : A4 ℝ) : A4 ℝ := if C.nonBaro then add 4 k j i x u else u

/-- `coord_src1_i_` (cylindrical.cpp:151; spherical_polar.cpp:242). -/
noncomputable def ri : Sys → XF → ℤ → ℝ
  | .cartesian, _, _ => 0
  | .cylindrical, X, i => Cyl.src1_i X i
  | .spherical, X, i => Sph.src1_i X i

/-- `phy_src1_i_`, `phy_src2_i_` (cylindrical.cpp:155, 160; spherical_polar.cpp:246, 248). -/
noncomputable def phy1 : Sys → XF → ℤ → ℝ
  | .spherical, X, i => 1 / x1v X .spherical i ^ 2
  | c, X, i => 1 / (x1v X c i * X.x1.xf i)
@[inherit_doc phy1] noncomputable def phy2 : Sys → XF → ℤ → ℝ
  | .spherical, X, i => phy1 .spherical X i
  | c, X, i => 1 / (x1v X c i * X.x1.xf (i+1))

/-- `PointMass` (pointmass.cpp:25-45). -/
noncomputable def pointMass : A4 ℝ → A4 ℝ := cells d fun k j i u =>
  let den := D.prim (0,k,j,i)
  let src := dt * den * ri C.c D.X i * C.gm / x1v D.X C.c i
  let u := sub 1 k j i src u
  addE C k j i (-(dt * 0.5 * (phy1 C.c D.X i * D.F.x1 (0,k,j,i) * C.gm + phy2 C.c D.X i * D.F.x1 (0,k,j,i+1) * C.gm))) u

/-- One of the three loops of `ConstantAcceleration` (constant_acc.cpp:26-73). -/
def constAcc1 (n : ℤ) (g : ℝ) : A4 ℝ → A4 ℝ := cells d fun k j i u =>
  let src := dt * D.prim (0,k,j,i) * g
  let u := add n k j i src u
  addE C k j i (src * D.prim (n,k,j,i)) u

/-- `ConstantAcceleration` (constant_acc.cpp:20-73). -/
noncomputable def constAcc (u : A4 ℝ) : A4 ℝ :=
  let u := if C.g1 ≠ 0 then constAcc1 C d D dt 1 C.g1 u else u
  let u := if C.g2 ≠ 0 then constAcc1 C d D dt 2 C.g2 u else u
  if C.g3 ≠ 0 then constAcc1 C d D dt 3 C.g3 u else u

/-- `dx1v`, `dx2v`, `dx3v` in Cartesian coordinates (cartesian.cpp:27-66). -/
noncomputable def dxv (f : MeshGen.Faces) (i : ℤ) : ℝ := mid f (i+1) - mid f i

/-- The loops of `SelfGravity` for one direction (self_gravity.cpp:33-46, 50-63, 68-81): `x` is the width, `m`, `p` the
neighbouring cells below and above. -/
noncomputable def selfGrav1 (n : ℤ) (x : ℤ → ℤ → ℤ → ℝ) (Fn : A4 ℝ) (m p : ℤ → ℤ → ℤ → ℤ × ℤ × ℤ) : A4 ℝ → A4 ℝ :=
  cells d fun k j i u =>
    let hdtodx := 0.5 * dt / x k j i
    let dpl := -(D.phi (k,j,i) - D.phi (m k j i))
    let dpr := -(D.phi (p k j i) - D.phi (k,j,i))
    let u := add n k j i (hdtodx * D.prim (0,k,j,i) * (dpl + dpr)) u
    addE C k j i (hdtodx * (Fn (0,k,j,i) * dpl + Fn (0, p k j i) * dpr)) u

/-- `SelfGravity` (self_gravity.cpp:25-94). -/
noncomputable def selfGravity (u : A4 ℝ) : A4 ℝ :=
  let u := selfGrav1 C d D dt 1 (fun _ _ i => dxv D.X.x1 i) D.F.x1 (fun k j i => (k,j,i-1)) (fun k j i => (k,j,i+1)) u
  let u := if d.nx2 > 1 then
    selfGrav1 C d D dt 2 (fun _ j _ => dxv D.X.x2 j) D.F.x2 (fun k j i => (k,j-1,i)) (fun k j i => (k,j+1,i)) u else u
  if d.nx3 > 1 then
    selfGrav1 C d D dt 3 (fun k _ _ => dxv D.X.x3 k) D.F.x3 (fun k j i => (k-1,j,i)) (fun k j i => (k+1,j,i)) u else u

/-- The body of the loops of `ShearingBoxSourceTerms` (shearing_box.cpp:46-65, 70-87): `n` is the direction of the
shear, `IM2` or `IM3`. -/
noncomputable def boxCell (n : ℤ) (k j i : ℤ) (u : A4 ℝ) : A4 ℝ :=
  let den := D.prim (0,k,j,i)
  let qO2 := C.q * C.Omega ^ 2
  let mom1 := den * D.prim (1,k,j,i)
  let xc := x1v D.X C.c i
  let u := add 1 k j i (2 * dt * (C.Omega * (den * D.prim (n,k,j,i)) + qO2 * den * xc)) u
  let u := sub n k j i (2 * dt * C.Omega * mom1) u
  let phic := qO2 * xc ^ 2
  let phil := qO2 * D.X.x1.xf i ^ 2
  let phir := qO2 * D.X.x1.xf (i+1) ^ 2
  addE C k j i (dt * (D.F.x1 (0,k,j,i) * (phic - phil) + D.F.x1 (0,k,j,i+1) * (phir - phic)) / D.X.x1.dxf i) u

/-- `ShearingBoxSourceTerms` (shearing_box.cpp:33-90). -/
noncomputable def shearingBox : A4 ℝ → A4 ℝ :=
  if C.shbox = 1 then cells d (boxCell C D dt 2) else plane d (boxCell C D dt 3)

/-- `RotatingSystemSourceTerms` (rotating_system_srcterms.cpp:24-103), cylindrical. -/
noncomputable def rotCyl (k j i : ℤ) (u : A4 ℝ) : A4 ℝ :=
  let den := D.prim (0,k,j,i)
  let mom1 := den * D.prim (1,k,j,i)
  let ri := Cyl.src1_i D.X i
  let rv := x1v D.X .cylindrical i
  let vc := rv * C.Omega
  let src := vc ^ 2
  let flux_c := 0.5 * (D.F.x1 (0,k,j,i) + D.F.x1 (0,k,j,i+1))
  let u := add 1 k j i (dt * ri * (2 * vc * (den * D.prim (2,k,j,i)) + den * src)) u
  let u := sub 2 k j i (dt * ri * vc * (mom1 + flux_c)) u
  addE C k j i (dt * ri * src * flux_c) u

/-- `RotatingSystemSourceTerms`, spherical (58-99); more than one cell in polar angle. -/
noncomputable def rotSph (k j i : ℤ) (u : A4 ℝ) : A4 ℝ :=
  let cv1 := Sph.src1_j D.X j
  let cv3 := Sph.src3_j D.X j
  let sv := Real.sin (x2v D.X d.nx2 .spherical j)
  let den := D.prim (0,k,j,i)
  let rv := x1v D.X .spherical i
  let ri := Sph.src1_i D.X i
  let vc := rv * sv * C.Omega
  let src := vc ^ 2
  let force := den * ri * (2 * vc * D.prim (3,k,j,i) + src)
  let flux_xc := 0.5 * (D.F.x1 (0,k,j,i+1) + D.F.x1 (0,k,j,i))
  let flux_yc := 0.5 * (D.F.x2 (0,k,j+1,i) + D.F.x2 (0,k,j,i))
  let u := add 1 k j i (dt * force) u
  let u := add 2 k j i (dt * force * cv1) u
  let u := sub 3 k j i (dt * ri * vc * (den * D.prim (1,k,j,i) + flux_xc + cv3 * (den * D.prim (2,k,j,i) + flux_yc))) u
  addE C k j i (dt * src * (flux_xc + cv1 * flux_yc) / rv) u

/-- `RotatingSystemSourceTerms` (rotating_system_srcterms.cpp:24-103); `none` is the fatal error in
spherical coordinates with one cell in polar angle. -/
noncomputable def rotating (u : A4 ℝ) : Option (A4 ℝ) :=
  match C.c with
  | .cartesian => some u
  | .cylindrical => some (cells d (rotCyl C D dt) u)
  | .spherical => if d.nx2 = 1 then none else some (cells d (rotSph C d D dt) u)

/-- `OrbitalAdvectionSourceTerms`, Cartesian, default velocity (orbital_advection_srcterms.cpp:38-64). -/
noncomputable def oaCart (k j i : ℤ) (u : A4 ℝ) : A4 ℝ :=
  let den := D.prim (0,k,j,i)
  let mom1 := den * D.prim (1,k,j,i)
  let vy := D.prim (2,k,j,i)
  let u := add 1 k j i (dt * C.Omega * 2 * (den * vy)) u
  let u := sub 2 k j i (dt * C.Omega * (2 - C.q) * mom1) u
  let rho_v1 := 0.25 * (D.F.x1 (0,k,j,i) + D.F.x1 (0,k,j,i+1)) + 0.5 * mom1
  let temp := -rho_v1 * vy
  let temp := if C.mhd then temp + D.bcc (0,k,j,i) * D.bcc (1,k,j,i) else temp
  addE C k j i (-dt * temp * C.q * C.Omega) u

/-- Cartesian, user-defined velocity (65-122). -/
noncomputable def oaCartUser (k j i : ℤ) (u : A4 ℝ) : A4 ℝ :=
  let den := D.prim (0,k,j,i)
  let dvk_i := D.dvKc1 k i
  let mom1 := den * D.prim (1,k,j,i)
  let vy := D.prim (2,k,j,i)
  let vc := D.vKc k i + C.q * C.Omega * x1v D.X C.c i
  let u := add 1 k j i (dt * 2 * C.Omega * (den * (vy + vc))) u
  let u := sub 2 k j i (dt * (2 * C.Omega + dvk_i) * mom1) u
  let vm := D.vKf1 k i + C.q * C.Omega * D.X.x1.xf i
  let vp := D.vKf1 k (i+1) + C.q * C.Omega * D.X.x1.xf (i+1)
  let flux_m := D.F.x1 (0,k,j,i)
  let flux_p := D.F.x1 (0,k,j,i+1)
  let rho_v1 := 0.25 * (flux_m + flux_p) + 0.5 * mom1
  let temp := -rho_v1 * vy
  let temp := if C.mhd then temp + D.bcc (0,k,j,i) * D.bcc (1,k,j,i) else temp
  let u := addE C k j i (dt * (temp * dvk_i + 0.5 * C.Omega * ((vm + vc) * flux_m + (vc + vp) * flux_p))) u
  if d.nx3 > 1 then
    let dvk_k := D.dvKc2 k i
    if dvk_k ≠ 0 then
      let mom3 := den * D.prim (3,k,j,i)
      let u := sub 2 k j i (dt * dvk_k * mom3) u
      let rho_v3 := 0.25 * (D.F.x3 (0,k+1,j,i) + D.F.x3 (0,k,j,i)) + 0.5 * mom3
      let temp := -rho_v3 * vy
      let u := if C.mhd then addE C k j i (D.bcc (1,k,j,i) * D.bcc (2,k,j,i)) u else u
      addE C k j i (dt * temp * dvk_k) u
    else u
  else u

/-- Cylindrical, default velocity, three dimensions (125-168). -/
noncomputable def oaCyl3 (k j i : ℤ) (u : A4 ℝ) : A4 ℝ :=
  let den := D.prim (0,k,j,i)
  let rv := x1v D.X .cylindrical i
  let ri := Cyl.src1_i D.X i
  let zv := x3v D.X k
  let dv := Real.sqrt (rv ^ 2 + zv ^ 2)
  let vc := Real.sqrt (C.gm / dv) * rv / dv
  let rdok_i := -1.5 * vc * rv / dv ^ 2
  let dvk_k := -1.5 * vc * zv / dv ^ 2
  let mom1 := den * D.prim (1,k,j,i)
  let vp := D.prim (2,k,j,i)
  let mom3 := den * D.prim (3,k,j,i)
  let flux_xc := 0.5 * (D.F.x1 (0,k,j,i+1) + D.F.x1 (0,k,j,i))
  let flux_zc := 0.5 * (D.F.x3 (0,k+1,j,i) + D.F.x3 (0,k,j,i))
  let u := add 1 k j i (2 * dt * vc * ri * (den * vp)) u
  let u := sub 2 k j i (0.5 * dt * ((2 * vc * ri + rdok_i) * (mom1 + flux_xc) + dvk_k * (mom3 + flux_zc))) u
  let src_k := -C.gm * zv / (dv * dv * dv)
  let u := add 3 k j i (dt * src_k * den) u
  let u := addE C k j i (dt * src_k * flux_zc) u
  let temp1 := -0.5 * (flux_xc + mom1) * vp
  let temp2 := -0.5 * (flux_zc + mom3) * vp
  let temp1 := if C.mhd then temp1 + D.bcc (0,k,j,i) * D.bcc (1,k,j,i) else temp1
  let temp2 := if C.mhd then temp2 + D.bcc (1,k,j,i) * D.bcc (2,k,j,i) else temp2
  addE C k j i (dt * (temp1 * rdok_i + temp2 * dvk_k + src_k * flux_zc)) u

/-- Cylindrical, default velocity, two dimensions (169-200). -/
noncomputable def oaCyl2 (k j i : ℤ) (u : A4 ℝ) : A4 ℝ :=
  let den := D.prim (0,k,j,i)
  let rv := x1v D.X .cylindrical i
  let ri := Cyl.src1_i D.X i
  let vc := Real.sqrt (C.gm / rv)
  let rdok_i := -1.5 * vc / rv
  let mom1 := den * D.prim (1,k,j,i)
  let vp := D.prim (2,k,j,i)
  let flux_c := 0.5 * (D.F.x1 (0,k,j,i+1) + D.F.x1 (0,k,j,i))
  let u := add 1 k j i (2 * dt * vc * ri * (den * vp)) u
  let u := sub 2 k j i (dt * (vc * ri + 0.5 * rdok_i) * (mom1 + flux_c)) u
  let temp := -0.5 * (flux_c + mom1) * vp
  let temp := if C.mhd then temp + D.bcc (0,k,j,i) * D.bcc (1,k,j,i) else temp
  addE C k j i (dt * temp * rdok_i) u

/-- Cylindrical, user-defined velocity, two dimensions (202-234). -/
noncomputable def oaCylUser (k j i : ℤ) (u : A4 ℝ) : A4 ℝ :=
  let den := D.prim (0,k,j,i)
  let rv := x1v D.X .cylindrical i
  let ri := Cyl.src1_i D.X i
  let vk := D.vKc k i
  let vc := vk + C.Omega * rv
  let rdok_i := D.dvKc1 k i - vk * ri
  let mom1 := den * D.prim (1,k,j,i)
  let vp := D.prim (2,k,j,i)
  let src := vc ^ 2 - C.gm / rv
  let flux_c := 0.5 * (D.F.x1 (0,k,j,i+1) + D.F.x1 (0,k,j,i))
  let u := add 1 k j i (dt * ri * (2 * vc * (den * vp) + src * den)) u
  let u := sub 2 k j i (dt * (vc * ri + 0.5 * rdok_i) * (mom1 + flux_c)) u
  let temp := -0.5 * (flux_c + mom1) * vp
  let temp := if C.mhd then temp + D.bcc (0,k,j,i) * D.bcc (1,k,j,i) else temp
  addE C k j i (dt * (temp * rdok_i + ri * src * flux_c)) u

/-- Spherical (241-284). -/
noncomputable def oaSph (k j i : ℤ) (u : A4 ℝ) : A4 ℝ :=
  let cv1 := Sph.src1_j D.X j
  let cv3 := Sph.src3_j D.X j
  let sv := Real.sin (x2v D.X d.nx2 .spherical j)
  let den := D.prim (0,k,j,i)
  let rv := x1v D.X .spherical i
  let ri := Sph.src1_i D.X i
  let vk := D.vKc j i
  let vc := vk + C.Omega * rv * sv
  let dvk1 := D.dvKc1 j i
  let dvk2 := D.dvKc2 j i
  let rdok_i := dvk1 - vk * ri
  let sdvk_j := (dvk2 - cv3 * vk) * ri
  let mom1 := den * D.prim (1,k,j,i)
  let mom2 := den * D.prim (2,k,j,i)
  let vp := D.prim (3,k,j,i)
  let src := vc ^ 2
  let grav := C.gm / rv
  let flux_xc := 0.5 * (D.F.x1 (0,k,j,i+1) + D.F.x1 (0,k,j,i))
  let flux_yc := 0.5 * (D.F.x2 (0,k,j+1,i) + D.F.x2 (0,k,j,i))
  let u := add 1 k j i (dt * ri * den * (2 * vc * vp + (src - grav))) u
  let u := add 2 k j i (dt * ri * den * cv1 * (2 * vc * vp + src)) u
  let u := sub 3 k j i (0.5 * dt * (((vc + C.Omega * rv * sv) * ri + dvk1) * (mom1 + flux_xc)
    + ((vc + C.Omega * rv * sv) * cv3 + dvk2) * (mom2 + flux_yc) * ri)) u
  let temp1 := -0.5 * (flux_xc + mom1) * vp
  let temp2 := -0.5 * (flux_yc + mom2) * vp
  let temp1 := if C.mhd then temp1 + D.bcc (0,k,j,i) * D.bcc (2,k,j,i) else temp1
  let temp2 := if C.mhd then temp2 + D.bcc (1,k,j,i) * D.bcc (2,k,j,i) else temp2
  addE C k j i (dt * (temp1 * rdok_i + temp2 * sdvk_j + ((src - grav) * flux_xc + src * cv1 * flux_yc) / rv)) u

/-- `OrbitalAdvectionSourceTerms` (orbital_advection_srcterms.cpp:27-288). -/
noncomputable def orbital (u : A4 ℝ) : A4 ℝ :=
  match C.c with
  | .cartesian => if C.userVel = false then cells d (oaCart C D dt) u else cells d (oaCartUser C d D dt) u
  | .cylindrical =>
    if C.userVel = false then
      if d.nx3 > 1 then cells d (oaCyl3 C D dt) u else plane d (oaCyl2 C D dt) u
    else if d.nx3 = 1 then plane d (oaCylUser C D dt) u
    else u
  | .spherical => cells d (oaSph C d D dt) u

/-- `AddSourceTerms` (hydro_srcterms.cpp:124-161); `user` is `UserSourceTerm`; `none` is a fatal error. -/
noncomputable def addSourceTerms (f : Flags) (user : Option (A4 ℝ → A4 ℝ)) (u : A4 ℝ) : Option (A4 ℝ) := do
  let u := if f.pointMass then pointMass C d D dt u else u
  let u := if C.g1 ≠ 0 ∨ C.g2 ≠ 0 ∨ C.g3 ≠ 0 then constAcc C d D dt u else u
  let u := if C.selfGravity then selfGravity C d D dt u else u
  let u ← if f.shear = 1 then some (orbital C d D dt u)
    else if f.shear = 2 then some (shearingBox C d D dt u)
    else if f.shear = 3 then rotating C d D dt u
    else some u
  match user with
  | some g => some (g u)
  | none => some u

/-! ## Default orbital velocities -/

/-- `CartOrbitalVelocity` etc. (default_orbital_velocity.cpp:31-89). -/
def cartVel (q Omega x : ℝ) : ℝ := -q * Omega * x
@[inherit_doc cartVel] def cartVel_x (q Omega _x : ℝ) : ℝ := -q * Omega
@[inherit_doc cartVel] noncomputable def cylVel2 (gm Omega x : ℝ) : ℝ := Real.sqrt (gm / x) - Omega * x
@[inherit_doc cartVel] noncomputable def cylVel2_r (gm Omega x : ℝ) : ℝ := -0.5 * Real.sqrt (gm / x) / x - Omega
@[inherit_doc cartVel] noncomputable def cylVel3 (gm Omega x z : ℝ) : ℝ :=
  let d := Real.sqrt (x ^ 2 + z ^ 2)
  Real.sqrt (gm / d) * x / d - Omega * x
@[inherit_doc cartVel] noncomputable def cylVel3_r (gm Omega x z : ℝ) : ℝ :=
  let d := Real.sqrt (x ^ 2 + z ^ 2)
  Real.sqrt (gm / d) / d * (1 - 1.5 * (x / d) ^ 2) - Omega
@[inherit_doc cartVel] noncomputable def cylVel3_z (gm x z : ℝ) : ℝ :=
  let d := Real.sqrt (x ^ 2 + z ^ 2)
  (-1.5) * Real.sqrt (gm / d) * x * z / d ^ 2
@[inherit_doc cartVel] noncomputable def sphVel (gm Omega x y : ℝ) : ℝ :=
  if Real.sin y = 0 then 0 else Real.sqrt (gm / (x * Real.sin y)) - Omega * x * Real.sin y
@[inherit_doc cartVel] noncomputable def sphVel_r (gm Omega x y : ℝ) : ℝ :=
  if Real.sin y = 0 then 0 else -0.5 * Real.sqrt (gm / (Real.sin y * x * x * x)) - Omega * Real.sin y
@[inherit_doc cartVel] noncomputable def sphVel_t (gm Omega x y : ℝ) : ℝ :=
  if Real.sin y = 0 then 0 else -0.5 * Real.sqrt (gm / (Real.sin y * x)) * Real.cos y / Real.sin y - Omega * x * Real.cos y

/-! ## Conversion between the orbital and the normal system -/

/-- `w_orb` of one cell (orbital_system_conversion.cpp:47-74); `n` is the orbital direction, 2 or 3. -/
def orbPrim (n : ℕ) (vK : ℝ) (w : ℕ → ℝ) : ℕ → ℝ := Function.update w n (w n + vK)

/-- `u_orb` of one cell (orbital_system_conversion.cpp:79-115). -/
noncomputable def orbCons (nonBaro : Bool) (n : ℕ) (vK : ℝ) (u : ℕ → ℝ) : ℕ → ℝ :=
  let den := u 0
  let m := u n
  let mk := den * vK
  let r := Function.update u n (m + mk)
  if nonBaro then Function.update r 4 (u 4 + mk * (m + 0.5 * mk) / den) else r

/-- The flag `orbital_system_conversion_done` and what is computed for `trans` (orbital_system_conversion.cpp:31-33, 46,
75, 78, 116): new flag, whether the primitive and whether the conserved variables are converted. -/
def convertFlag (done trans : ℕ) : ℕ × Bool × Bool :=
  if done &&& trans > 0 then
    let p : Bool := (done &&& trans) % 2 = 1
    let done := if p then done - 1 else done
    let c : Bool := done &&& trans ≥ 2
    let done := if c then done - 2 else done
    (done, p, c)
  else (done, false, false)

end Verif.SrcTerms
