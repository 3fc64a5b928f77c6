import Verif.Model.Flux
import Verif.Model.Orbital

/-!
# Viscosity and heat conduction
(src/hydro/hydro_diffusion/hydro_diffusion.cpp, viscosity.cpp, conduction.cpp)

Exact arithmetic in an ordered field. The flux arrays are cleared first (`ClearFlux`, hydro_diffusion.cpp:110, 114), every
element is written at most once, so the loops are given in closed form. The anisotropic fluxes are empty functions
(viscosity.cpp:203-206, conduction.cpp:104-107). Coefficients that depend on the state (user functions) are arbitrary
arrays `nu`, `kappa`.
-/
namespace Verif.Diffusion
open Verif.Grid
open Verif.Arr (loop)
variable {K : Type} [Field K] [LinearOrder K]

/-- The arrays of `Coordinates` used: distances of cell centres, scale factors at cell centres (`v`) and faces (`f`), their
derivatives, and `IsPole(j)`. -/
structure Met (K : Type) where
  dx1v : Int → K
  dx2v : Int → K
  dx3v : Int → K
  h2v : Int → K
  h2f : Int → K
  h31v : Int → K
  h31f : Int → K
  h32v : Int → K
  h32f : Int → K
  dh2vd1 : Int → K
  dh31vd1 : Int → K
  dh32vd2 : Int → K
  pole : Int → Bool

/-- The arrays in the three coordinate systems (cartesian.cpp:30-99, cylindrical.cpp:33-93, spherical_polar.cpp:79-137). With
`x1rat == 1.0` the Cartesian version stores `dx1f(i)`, equal to the difference of centres for equal widths. -/
noncomputable def met (c : Coord.Sys) (X : Coord.XF) (nx2 nx3 : ℤ) (pole : ℤ → Bool) : Met ℝ where
  dx1v i := Coord.x1v X c (i+1) - Coord.x1v X c i
  dx2v j := if nx2 = 1 then X.x2.dxf j else Coord.x2v X nx2 c (j+1) - Coord.x2v X nx2 c j
  dx3v k := if nx3 = 1 then X.x3.dxf k else Coord.x3v X (k+1) - Coord.x3v X k
  h2v := Orbital.h2v c X
  h2f := Orbital.h2f c X
  h31v i := match c with
    | .spherical => Coord.x1v X c i
    | _ => 1
  h31f i := match c with
    | .spherical => X.x1.xf i
    | _ => 1
  h32v := Orbital.h32v nx2 c X
  h32f := Orbital.h32f c X
  dh2vd1 _ := match c with
    | .cartesian => 0
    | _ => 1
  dh31vd1 _ := match c with
    | .spherical => 1
    | _ => 0
  dh32vd2 j := match c with
    | .spherical => Real.cos (Coord.x2v X nx2 c j)
    | _ => 0
  pole := pole

/-! ## Heat conduction -/

/-- `ThermalFluxIso` (conduction.cpp:25-96) on cleared arrays; `mag` is `MAGNETIC_FIELDS_ENABLED`, `p` the primitive variables
(`IDN` 0, `IPR` 4). -/
def thermalFlux (d : Dims) (mag : Bool) (M : Met K) (kappa : A3 K) (p : A4 K) : FF K :=
  let g1 : Int := if mag = true then 1 else 0
  let g2 : Int := if mag = true ∧ d.nx2 > 1 then 1 else 0
  let g3 : Int := if mag = true ∧ d.nx3 > 1 then 1 else 0
  { x1f := fun q =>
      let k := q.1; let j := q.2.1; let i := q.2.2
      if d.ks - g3 ≤ k ∧ k ≤ d.ke + g3 ∧ d.js - g2 ≤ j ∧ j ≤ d.je + g2 ∧ d.is ≤ i ∧ i ≤ d.ie + 1 then
        let kappaf := 1 / 2 * (kappa (k, j, i) + kappa (k, j, i - 1))
        let denf := 1 / 2 * (p (0, k, j, i) + p (0, k, j, i - 1))
        let dTdx := (p (4, k, j, i) / p (0, k, j, i) - p (4, k, j, i - 1) / p (0, k, j, i - 1)) / M.dx1v (i - 1)
        0 - kappaf * denf * dTdx
      else 0
    x2f := fun q =>
      let k := q.1; let j := q.2.1; let i := q.2.2
      if d.nx2 > 1 ∧ d.ks - g3 ≤ k ∧ k ≤ d.ke + g3 ∧ d.js ≤ j ∧ j ≤ d.je + 1 ∧ d.is - g1 ≤ i ∧ i ≤ d.ie + g1 then
        let kappaf := 1 / 2 * (kappa (k, j, i) + kappa (k, j - 1, i))
        let denf := 1 / 2 * (p (0, k, j, i) + p (0, k, j - 1, i))
        let dTdy := (p (4, k, j, i) / p (0, k, j, i) - p (4, k, j - 1, i) / p (0, k, j - 1, i)) / M.h2v i / M.dx2v (j - 1)
        0 - kappaf * denf * dTdy
      else 0
    x3f := fun q =>
      let k := q.1; let j := q.2.1; let i := q.2.2
      if d.nx3 > 1 ∧ d.ks ≤ k ∧ k ≤ d.ke + 1 ∧ d.js - g2 ≤ j ∧ j ≤ d.je + g2 ∧ d.is - g1 ≤ i ∧ i ≤ d.ie + g1 then
        let kappaf := 1 / 2 * (kappa (k, j, i) + kappa (k - 1, j, i))
        let denf := 1 / 2 * (p (0, k, j, i) + p (0, k - 1, j, i))
        let dTdz := (p (4, k, j, i) / p (0, k, j, i) - p (4, k - 1, j, i) / p (0, k - 1, j, i)) / M.dx3v (k - 1) / M.h31v i / M.h32v j
        0 - kappaf * denf * dTdz
      else 0 }

/-- `flux(IEN,k,j,i) += x`. -/
def addTo (k j i : Int) (x : K) (f : A4 K) : A4 K := Function.update f (4, k, j, i) (f (4, k, j, i) + x)

/-- `AddDiffusionEnergyFlux` (hydro_diffusion.cpp:129-164). -/
def addEnergyFlux (d : Dims) (S : FF K) : Flx K → Flx K :=
  loop d.ks d.ke fun k => loop d.js d.je fun j => loop d.is d.ie fun i => fun F =>
    let F := { F with x1 := addTo k j i (S.x1f (k, j, i)) F.x1 }
    let F := if i = d.ie then { F with x1 := addTo k j (i + 1) (S.x1f (k, j, i + 1)) F.x1 } else F
    let F := if d.nx2 > 1 then
        let F := { F with x2 := addTo k j i (S.x2f (k, j, i)) F.x2 }
        if j = d.je then { F with x2 := addTo k (j + 1) i (S.x2f (k, j + 1, i)) F.x2 } else F
      else F
    if d.nx3 > 1 then
      let F := { F with x3 := addTo k j i (S.x3f (k, j, i)) F.x3 }
      if k = d.ke then { F with x3 := addTo (k + 1) j i (S.x3f (k + 1, j, i)) F.x3 } else F
    else F

/-! ## Viscosity -/

/-- `FaceXdx` (viscosity.cpp:277-284). -/
def faceXdx (M : Met K) (p : A4 K) (k j i : Int) : K := 2 * (p (1, k, j, i) - p (1, k, j, i-1)) / M.dx1v (i-1)

/-- `FaceXdy` (viscosity.cpp:287-312). -/
def faceXdy (d : Dims) (M : Met K) (p : A4 K) (k j i : Int) : K :=
  if d.nx2 > 1 then
    M.h2f i * (p (2, k, j, i) / M.h2v i - p (2, k, j, i-1) / M.h2v (i-1)) / M.dx1v (i-1)
      + 1 / 2 * ((p (1, k, j+1, i) + p (1, k, j+1, i-1)) - (p (1, k, j-1, i) + p (1, k, j-1, i-1)))
        / M.h2f i / (M.dx2v (j-1) + M.dx2v j)
  else M.h2f i * (p (2, k, j, i) / M.h2v i - p (2, k, j, i-1) / M.h2v (i-1)) / M.dx1v (i-1)

/-- `FaceXdz` (viscosity.cpp:315-339). -/
def faceXdz (d : Dims) (M : Met K) (p : A4 K) (k j i : Int) : K :=
  if d.nx3 > 1 then
    M.h31f i * (p (3, k, j, i) / M.h31v i - p (3, k, j, i-1) / M.h31v (i-1)) / M.dx1v (i-1)
      + 1 / 2 * ((p (1, k+1, j, i) + p (1, k+1, j, i-1)) - (p (1, k-1, j, i) + p (1, k-1, j, i-1)))
        / M.h31f i / M.h32v j / (M.dx3v (k-1) + M.dx3v k)
  else M.h31f i * (p (3, k, j, i) / M.h31v i - p (3, k, j, i-1) / M.h31v (i-1)) / M.dx1v (i-1)

/-- `FaceYdx` (viscosity.cpp:342-363). -/
def faceYdx (d : Dims) (M : Met K) (p : A4 K) (k j i : Int) : K :=
  if d.nx2 > 1 then
    (p (1, k, j, i) - p (1, k, j-1, i)) / M.h2v i / M.dx2v (j-1)
      + M.h2v i * (1 / 2) * ((p (2, k, j, i+1) + p (2, k, j-1, i+1)) / M.h2v (i+1)
        - (p (2, k, j, i-1) + p (2, k, j-1, i-1)) / M.h2v (i-1)) / (M.dx1v (i-1) + M.dx1v i)
  else M.h2v i * (p (2, k, j, i+1) / M.h2v (i+1) - p (2, k, j, i-1) / M.h2v (i-1)) / (M.dx1v (i-1) + M.dx1v i)

/-- `FaceYdy` (viscosity.cpp:366-381). -/
def faceYdy (d : Dims) (M : Met K) (p : A4 K) (k j i : Int) : K :=
  if d.nx2 > 1 then
    2 * (p (2, k, j, i) - p (2, k, j-1, i)) / M.h2v i / M.dx2v (j-1)
      + (p (1, k, j, i) + p (1, k, j-1, i)) / M.h2v i * M.dh2vd1 i
  else 2 * p (1, k, j, i) / M.h2v i * M.dh2vd1 i

/-- `FaceYdz` (viscosity.cpp:384-415). -/
def faceYdz (d : Dims) (M : Met K) (p : A4 K) (k j i : Int) : K :=
  if d.nx3 > 1 then
    M.h32f j * (p (3, k, j, i) / M.h32v j - p (3, k, j-1, i) / M.h32v (j-1)) / M.h2v i / M.dx2v (j-1)
      + 1 / 2 * ((p (2, k+1, j, i) + p (2, k+1, j-1, i)) - (p (2, k-1, j, i) + p (2, k-1, j-1, i)))
        / M.h31v i / (M.dx3v (k-1) + M.dx3v k) / (if M.pole j then 1 else M.h32f j)
  else if d.nx2 > 1 then
    M.h32f j * (p (3, k, j, i) / M.h32v j - p (3, k, j-1, i) / M.h32v (j-1)) / M.h2v i / M.dx2v (j-1)
  else 0

/-- `FaceZdx` (viscosity.cpp:418-438). The first term is not divided by `h31v(i)*h32v(j)`. -/
def faceZdx (d : Dims) (M : Met K) (p : A4 K) (k j i : Int) : K :=
  if d.nx3 > 1 then
    (p (1, k, j, i) - p (1, k-1, j, i)) / M.dx3v (k-1)
      + 1 / 2 * M.h31v i * ((p (3, k, j, i+1) + p (3, k-1, j, i+1)) / M.h31v (i+1)
        - (p (3, k, j, i-1) + p (3, k-1, j, i-1)) / M.h31v (i-1)) / (M.dx1v (i-1) + M.dx1v i)
  else M.h31v i * (p (3, k, j, i+1) / M.h31v (i+1) - p (3, k, j, i-1) / M.h31v (i-1)) / (M.dx1v (i-1) + M.dx1v i)

/-- `FaceZdy` (viscosity.cpp:441-467). -/
def faceZdy (d : Dims) (M : Met K) (p : A4 K) (k j i : Int) : K :=
  if d.nx3 > 1 then
    (p (2, k, j, i) - p (2, k-1, j, i)) / M.h31v i / M.h32v j / M.dx3v (k-1)
      + 1 / 2 * M.h32v j * ((p (3, k, j+1, i) + p (3, k-1, j+1, i)) / M.h32v (j+1)
        - (p (3, k, j-1, i) + p (3, k-1, j-1, i)) / M.h32v (j-1)) / M.h2v i / (M.dx2v (j-1) + M.dx2v j)
  else if d.nx2 > 1 then
    M.h32v j * (p (3, k, j+1, i) / M.h32v (j+1) - p (3, k, j-1, i) / M.h32v (j-1)) / M.h2v i / (M.dx2v (j-1) + M.dx2v j)
  else 0

/-- `FaceZdz` (viscosity.cpp:470-490). -/
def faceZdz (d : Dims) (M : Met K) (p : A4 K) (k j i : Int) : K :=
  if d.nx3 > 1 then
    2 * (p (3, k, j, i) - p (3, k-1, j, i)) / M.dx3v (k-1) / M.h31v i / M.h32v j
      + (p (1, k, j, i) + p (1, k-1, j, i)) * M.dh31vd1 i / M.h31v i
      + (p (2, k, j, i) + p (2, k-1, j, i)) * M.dh32vd2 j / M.h32v j / M.h2v i
  else 2 * p (1, k, j, i) * M.dh31vd1 i / M.h31v i + 2 * p (2, k, j, i) * M.dh32vd2 j / M.h32v j / M.h2v i

/-- `DivVelocity` (viscosity.cpp:217-274) in a cell of its range, which reaches one cell beyond the active ones in each
direction that exists. -/
def divVel (d : Dims) (G : Geom K) (p : A4 K) (k j i : Int) : K :=
  let x := G.a1 (k, j, i+1) * (1 / 2 * (p (1, k, j, i+1) + p (1, k, j, i)))
    - G.a1 (k, j, i) * (1 / 2 * (p (1, k, j, i) + p (1, k, j, i-1)))
  let x := if d.nx2 > 1 then
      x + (G.a2 (k, j+1, i) * (1 / 2 * (p (2, k, j+1, i) + p (2, k, j, i)))
        - G.a2 (k, j, i) * (1 / 2 * (p (2, k, j, i) + p (2, k, j-1, i))))
    else x
  let x := if d.nx3 > 1 then
      x + (G.a3 (k+1, j, i) * (1 / 2 * (p (3, k+1, j, i) + p (3, k, j, i)))
        - G.a3 (k, j, i) * (1 / 2 * (p (3, k, j, i) + p (3, k-1, j, i))))
    else x
  x / G.vol (k, j, i)

/-- The four components written at a face: `flx1`, `flx2`, `flx3`, and with `NON_BAROTROPIC_EOS` the energy flux. -/
def comps (nonBaro : Bool) (n : Int) (f1 f2 f3 e : K) : K :=
  if n = 1 then f1 else if n = 2 then f2 else if n = 3 then f3 else if n = 4 ∧ nonBaro = true then e else 0

/-- What `ViscousFluxIso` reads: `NON_BAROTROPIC_EOS`, `MAGNETIC_FIELDS_ENABLED`, geometry, `nu`, the primitive variables
`p`, and those without the orbital velocity `pi` (equal to `p` without orbital advection, time_integrator.cpp:1932-1937). The
functions `FaceYd*`, `FaceZd*` fill `fx_`, `fy_`, `fz_` for the active columns only; with magnetic fields the next column on
each side is also used, it holds the values `sx`, `sy`, `sz` left from an earlier call. -/
structure Vis (K : Type) where
  nonBaro : Bool
  mag : Bool
  G : Geom K
  M : Met K
  nu : A3 K
  p : A4 K
  pi : A4 K
  sx : A3 K
  sy : A3 K
  sz : A3 K

/-- The columns filled. -/
def col (d : Dims) (old : A3 K) (f : Int → Int → Int → K) (k j i : Int) : K :=
  if d.is ≤ i ∧ i ≤ d.ie then f k j i else old (k, j, i)

/-- Direction 1 of `ViscousFluxIso` (viscosity.cpp:53-72) at a face of the range. -/
def visX1 (d : Dims) (V : Vis K) (n k j i : Int) : K :=
  let nu1 := 1 / 2 * (V.nu (k, j, i) + V.nu (k, j, i-1))
  let denf := 1 / 2 * (V.pi (0, k, j, i) + V.pi (0, k, j, i-1))
  let flx1 := -denf * nu1 * (faceXdx V.M V.pi k j i
    + -(2 / 3) * (1 / 2) * (divVel d V.G V.pi k j i + divVel d V.G V.pi k j (i-1)))
  let flx2 := -denf * nu1 * faceXdy d V.M V.pi k j i
  let flx3 := -denf * nu1 * faceXdz d V.M V.pi k j i
  comps V.nonBaro n flx1 flx2 flx3 (1 / 2 * ((V.p (1, k, j, i-1) + V.p (1, k, j, i)) * flx1
    + (V.p (2, k, j, i-1) + V.p (2, k, j, i)) * flx2 + (V.p (3, k, j, i-1) + V.p (3, k, j, i)) * flx3))

/-- Direction 2 in two and three dimensions (viscosity.cpp:82-106). -/
def visX2 (d : Dims) (V : Vis K) (n k j i : Int) : K :=
  let nu1 := 1 / 2 * (V.nu (k, j, i) + V.nu (k, j-1, i))
  let denf := 1 / 2 * (V.pi (0, k, j-1, i) + V.pi (0, k, j, i))
  let flx1 := -denf * nu1 * col d V.sx (faceYdx d V.M V.pi) k j i
  let flx2 := -denf * nu1 * (col d V.sy (faceYdy d V.M V.pi) k j i
    + -(2 / 3) * (1 / 2) * (divVel d V.G V.pi k (j-1) i + divVel d V.G V.pi k j i))
  let flx3 := -denf * nu1 * col d V.sz (faceYdz d V.M V.pi) k j i
  comps V.nonBaro n flx1 flx2 flx3 (1 / 2 * ((V.p (1, k, j, i) + V.p (1, k, j-1, i)) * flx1
    + (V.p (2, k, j, i) + V.p (2, k, j-1, i)) * flx2 + (V.p (3, k, j, i) + V.p (3, k, j-1, i)) * flx3))

/-- Direction 2 in one dimension (viscosity.cpp:107-137): the value for both faces of the only cell of a column. -/
def visX2one (d : Dims) (V : Vis K) (n i : Int) : K :=
  let k := d.ks; let j := d.js
  let nu1 := V.nu (k, j, i)
  let denf := V.pi (0, k, j, i)
  let flx1 := -denf * nu1 * col d V.sx (faceYdx d V.M V.pi) k j i
  let flx2 := -denf * nu1 * (col d V.sy (faceYdy d V.M V.pi) k j i + -(2 / 3) * divVel d V.G V.pi k j i)
  let flx3 := -denf * nu1 * col d V.sz (faceYdz d V.M V.pi) k j i
  comps V.nonBaro n flx1 flx2 flx3 (V.p (1, k, j, i) * flx1 + V.p (2, k, j, i) * flx2 + V.p (3, k, j, i) * flx3)

/-- Direction 3 in three dimensions (viscosity.cpp:147-171). -/
def visX3 (d : Dims) (V : Vis K) (n k j i : Int) : K :=
  let nu1 := 1 / 2 * (V.nu (k, j, i) + V.nu (k-1, j, i))
  let denf := 1 / 2 * (V.pi (0, k-1, j, i) + V.pi (0, k, j, i))
  let flx1 := -denf * nu1 * col d V.sx (faceZdx d V.M V.pi) k j i
  let flx2 := -denf * nu1 * col d V.sy (faceZdy d V.M V.pi) k j i
  let flx3 := -denf * nu1 * (col d V.sz (faceZdz d V.M V.pi) k j i
    + -(2 / 3) * (1 / 2) * (divVel d V.G V.pi (k-1) j i + divVel d V.G V.pi k j i))
  comps V.nonBaro n flx1 flx2 flx3 (1 / 2 * ((V.p (1, k, j, i) + V.p (1, k-1, j, i)) * flx1
    + (V.p (2, k, j, i) + V.p (2, k-1, j, i)) * flx2 + (V.p (3, k, j, i) + V.p (3, k-1, j, i)) * flx3))

/-- Direction 3 in one and two dimensions (viscosity.cpp:172-198): the value for both faces. -/
def visX3one (d : Dims) (V : Vis K) (n j i : Int) : K :=
  let k := d.ks
  let nu1 := V.nu (k, j, i)
  let denf := V.pi (0, k, j, i)
  let flx1 := -denf * nu1 * col d V.sx (faceZdx d V.M V.pi) k j i
  let flx2 := -denf * nu1 * col d V.sy (faceZdy d V.M V.pi) k j i
  let flx3 := -denf * nu1 * (col d V.sz (faceZdz d V.M V.pi) k j i + -(2 / 3) * divVel d V.G V.pi k j i)
  comps V.nonBaro n flx1 flx2 flx3 (V.p (1, k, j, i) * flx1 + V.p (2, k, j, i) * flx2 + V.p (3, k, j, i) * flx3)

/-- `ViscousFluxIso` (viscosity.cpp:25-201) on cleared arrays. -/
def viscousFlux (d : Dims) (V : Vis K) : Flx K :=
  let g1 : Int := if V.mag = true then 1 else 0
  let g2 : Int := if V.mag = true ∧ d.nx2 > 1 then 1 else 0
  let g3 : Int := if V.mag = true ∧ d.nx3 > 1 then 1 else 0
  { x1 := fun q =>
      let n := q.1; let k := q.2.1; let j := q.2.2.1; let i := q.2.2.2
      if d.ks - g3 ≤ k ∧ k ≤ d.ke + g3 ∧ d.js - g2 ≤ j ∧ j ≤ d.je + g2 ∧ d.is ≤ i ∧ i ≤ d.ie + 1 then visX1 d V n k j i else 0
    x2 := fun q =>
      let n := q.1; let k := q.2.1; let j := q.2.2.1; let i := q.2.2.2
      if d.nx2 > 1 then
        if d.ks - g3 ≤ k ∧ k ≤ d.ke + g3 ∧ d.js ≤ j ∧ j ≤ d.je + 1 ∧ d.is - g1 ≤ i ∧ i ≤ d.ie + g1 then visX2 d V n k j i else 0
      else if k = d.ks ∧ (j = d.js ∨ j = d.je + 1) ∧ d.is - g1 ≤ i ∧ i ≤ d.ie + g1 then visX2one d V n i else 0
    x3 := fun q =>
      let n := q.1; let k := q.2.1; let j := q.2.2.1; let i := q.2.2.2
      if d.nx3 > 1 then
        if d.ks ≤ k ∧ k ≤ d.ke + 1 ∧ d.js - g2 ≤ j ∧ j ≤ d.je + g2 ∧ d.is - g1 ≤ i ∧ i ≤ d.ie + g1 then visX3 d V n k j i else 0
      else if (k = d.ks ∨ k = d.ke + 1) ∧ d.js - g2 ≤ j ∧ j ≤ d.je + g2 ∧ d.is - g1 ≤ i ∧ i ≤ d.ie + g1 then visX3one d V n j i
      else 0 }

/-- `AddDiffusionFlux` (hydro_diffusion.cpp:174-196): whole arrays. -/
def addFlux (d : Dims) (D F : Flx K) : Flx K :=
  ⟨fun p => F.x1 p + D.x1 p, if d.nx2 > 1 then fun p => F.x2 p + D.x2 p else F.x2,
    if d.nx3 > 1 then fun p => F.x3 p + D.x3 p else F.x3⟩

/-! ## The diffusive time step -/

/-- `fac` (hydro_diffusion.cpp:243-249, field_diffusion.cpp:243-253, scalar_diffusion.cpp:175-181). -/
def fac (d : Dims) : K := if d.nx3 > 1 then 1 / 6 else if d.nx2 > 1 then 1 / 4 else 1 / 2

/-- `len(i)`: the least of the widths `CenterWidth1..3` in the directions that exist (hydro_diffusion.cpp:281-288). -/
def least (d : Dims) (w1 w2 w3 : A3 K) (q : Int × Int × Int) : K :=
  let l := w1 q
  let l := if d.nx2 > 1 then min l (w2 q) else l
  if d.nx3 > 1 then min l (w3 q) else l

/-- `HydroDiffusion::NewDiffusionDt` (hydro_diffusion.cpp:237-303) for one process, active when a coefficient is positive
(`on`): `coef` is `nu_t` or `kappa_t`. Ghost columns are included in direction 1 only. -/
def newDt (d : Dims) (on : Bool) (realMax tiny : K) (w1 w2 w3 coef : A3 K) : K :=
  if on = true then
    loop d.ks d.ke (fun k => loop d.js d.je fun j => loop (d.is - d.ng) (d.ie + d.ng) fun i m =>
      min m (least d w1 w2 w3 (k, j, i) ^ 2 * fac d / (coef (k, j, i) + tiny))) realMax
  else realMax

end Verif.Diffusion
