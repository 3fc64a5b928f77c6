import Verif.Model.CT
import Verif.Model.Flux
import Verif.Model.MeshGen
import Verif.Model.Tree
import Mathlib.Analysis.SpecialFunctions.Trigonometric.Basic

/-!
# Cartesian, cylindrical and spherical-polar coordinates

Areas, volumes, edge lengths, centroids and the geometric source terms of the momentum equation.
Real numbers stand for `Real`; the precomputed coefficients are functions of the face positions.
The relativistic metrics are not modelled; the arrays used only by resistivity (`...vc...`) are in Model/Resist.lean.
-/
namespace Verif.Coord
open Verif.Grid Verif.Arr
open Verif.MeshGen (Faces)

/-- The choice of `cartesian.cpp`, `cylindrical.cpp` or `spherical_polar.cpp` at configuration. -/
inductive Sys where
  | cartesian
  | cylindrical
  | spherical
  deriving DecidableEq

/-- `x1f`, `dx1f`, `x2f`, `dx2f`, `x3f`, `dx3f` of `Coordinates`. -/
structure XF where
  x1 : Faces
  x2 : Faces
  x3 : Faces

/-- A direction with one cell (coordinates.cpp:237-241, 310-314): `xmin`, `xmax` of the block. -/
def oneCell (xmin xmax : ℝ) (l : ℤ) (s : Faces) : Faces :=
  ⟨Function.update (Function.update s.xf l xmin) (l + 1) xmax, Function.update s.dxf l (xmax - xmin)⟩

/-- The faces of block `p` of level `L` in the `Coordinates` constructor (coordinates.cpp:95-314; `nc2 > 1`
and `nc3 > 1` are equivalent to more than one cell), with the range of the mesh for directions with one
cell (mesh.cpp:2009-2011, 2036-2038); `s` is the content of the arrays before. -/
noncomputable def blockXF (m : Tree.Mesh) (d : Dims) (D1 D2 D3 : MeshGen.Dir) (s : XF) (L : ℕ) (p : Tree.Pos) : XF where
  x1 := MeshGen.faces D1 (L - m.rootLevel) p.x1 false d.is d.ie s.x1
  x2 := if d.nx2 > 1 then MeshGen.faces D2 (L - m.rootLevel) p.x2 false d.js d.je s.x2
    else oneCell D2.ms.xmin D2.ms.xmax d.js s.x2
  x3 := if d.nx3 > 1 then MeshGen.faces D3 (L - m.rootLevel) p.x3 false d.ks d.ke s.x3
    else oneCell D3.ms.xmin D3.ms.xmax d.ks s.x3

variable (X : XF)

/-! ## Coefficients -/

namespace Cyl
/-- `coord_area3_i_` (cylindrical.cpp:147). -/
noncomputable def area3_i (i : ℤ) : ℝ := 0.5 * (X.x1.xf (i+1) * X.x1.xf (i+1) - X.x1.xf i * X.x1.xf i)
/-- `coord_vol_i_` (cylindrical.cpp:149). -/
noncomputable def vol_i (i : ℤ) : ℝ := area3_i X i
/-- `coord_src1_i_` (cylindrical.cpp:151). -/
noncomputable def src1_i (i : ℤ) : ℝ := X.x1.dxf i / vol_i X i
/-- `coord_src2_i_` (cylindrical.cpp:153). -/
noncomputable def src2_i (i : ℤ) : ℝ := X.x1.dxf i / ((X.x1.xf i + X.x1.xf (i+1)) * vol_i X i)
end Cyl

namespace Sph
/-- `coord_area1_i_` (spherical_polar.cpp:234, 252). -/
def area1_i (i : ℤ) : ℝ := X.x1.xf i * X.x1.xf i
/-- `coord_area2_i_` (spherical_polar.cpp:236). -/
noncomputable def area2_i (i : ℤ) : ℝ := 0.5 * (X.x1.xf (i+1) * X.x1.xf (i+1) - X.x1.xf i * X.x1.xf i)
/-- `coord_area3_i_` (spherical_polar.cpp:238). -/
noncomputable def area3_i (i : ℤ) : ℝ := area2_i X i
/-- `coord_vol_i_` (spherical_polar.cpp:240). -/
noncomputable def vol_i (i : ℤ) : ℝ :=
  1/3 * (X.x1.xf (i+1) * X.x1.xf (i+1) * X.x1.xf (i+1) - X.x1.xf i * X.x1.xf i * X.x1.xf i)
/-- `coord_src1_i_` (spherical_polar.cpp:242). -/
noncomputable def src1_i (i : ℤ) : ℝ := area2_i X i / vol_i X i
/-- `coord_src2_i_` (spherical_polar.cpp:244). -/
noncomputable def src2_i (i : ℤ) : ℝ := X.x1.dxf i / ((X.x1.xf i + X.x1.xf (i+1)) * vol_i X i)
/-- `coord_area1_j_` (spherical_polar.cpp:268, 297). -/
noncomputable def area1_j (j : ℤ) : ℝ := |Real.cos (X.x2.xf j) - Real.cos (X.x2.xf (j+1))|
/-- `coord_area2_j_` (spherical_polar.cpp:270, 287, 298, 305). -/
noncomputable def area2_j (j : ℤ) : ℝ := |Real.sin (X.x2.xf j)|
/-- `coord_vol_j_` (spherical_polar.cpp:272, 301). -/
noncomputable def vol_j (j : ℤ) : ℝ := area1_j X j
/-- `coord_src1_j_` (spherical_polar.cpp:274, 302). -/
noncomputable def src1_j (j : ℤ) : ℝ := (|Real.sin (X.x2.xf (j+1))| - |Real.sin (X.x2.xf j)|) / vol_j X j
/-- `coord_src2_j_` (spherical_polar.cpp:276, 303). -/
noncomputable def src2_j (j : ℤ) : ℝ :=
  (|Real.sin (X.x2.xf (j+1))| - |Real.sin (X.x2.xf j)|) /
    ((|Real.sin (X.x2.xf j)| + |Real.sin (X.x2.xf (j+1))|) * vol_j X j)
/-- `coord_src3_j_` (spherical_polar.cpp:278, 304). -/
noncomputable def src3_j (j : ℤ) : ℝ := (|Real.sin (X.x2.xf (j+1))| - |Real.sin (X.x2.xf j)|) / vol_j X j
end Sph

/-! ## Areas, volumes, edges -/

/-- `GetFace1Area` etc. and `GetCellVolume`, and with the same formulas `Face1Area` etc. and
`CellVolume` (coordinates.cpp:448-497, 536-553; cylindrical.cpp:219-250, 278-293; spherical_polar.cpp:399-442, 479-494). -/
noncomputable def geom : Sys → Geom ℝ
  | .cartesian =>
    { a1 := fun (k, j, _) => X.x2.dxf j * X.x3.dxf k
      a2 := fun (k, _, i) => X.x1.dxf i * X.x3.dxf k
      a3 := fun (_, j, i) => X.x1.dxf i * X.x2.dxf j
      vol := fun (k, j, i) => X.x1.dxf i * X.x2.dxf j * X.x3.dxf k }
  | .cylindrical =>
    { a1 := fun (k, j, i) => X.x1.xf i * X.x2.dxf j * X.x3.dxf k
      a2 := fun (k, _, i) => X.x1.dxf i * X.x3.dxf k
      a3 := fun (_, j, i) => Cyl.area3_i X i * X.x2.dxf j
      vol := fun (k, j, i) => Cyl.vol_i X i * X.x2.dxf j * X.x3.dxf k }
  | .spherical =>
    { a1 := fun (k, j, i) => Sph.area1_i X i * Sph.area1_j X j * X.x3.dxf k
      a2 := fun (k, j, i) => Sph.area2_i X i * Sph.area2_j X j * X.x3.dxf k
      a3 := fun (_, j, i) => Sph.area3_i X i * X.x2.dxf j
      vol := fun (k, j, i) => Sph.vol_i X i * Sph.vol_j X j * X.x3.dxf k }

/-- `GetEdge1Length` etc. (coordinates.cpp:337-385; cylindrical.cpp:174-188;
spherical_polar.cpp:316-347). -/
noncomputable def edges : Sys → EF ℝ
  | .cartesian =>
    { x1e := fun (_, _, i) => X.x1.dxf i
      x2e := fun (_, j, _) => X.x2.dxf j
      x3e := fun (k, _, _) => X.x3.dxf k }
  | .cylindrical =>
    { x1e := fun (_, _, i) => X.x1.dxf i
      x2e := fun (_, j, i) => X.x1.xf i * X.x2.dxf j
      x3e := fun (k, _, _) => X.x3.dxf k }
  | .spherical =>
    { x1e := fun (_, _, i) => X.x1.dxf i
      x2e := fun (_, j, i) => X.x1.xf i * X.x2.dxf j
      x3e := fun (k, j, i) => X.x1.xf i * Sph.area2_j X j * X.x3.dxf k }

/-! ## Centroids -/

/-- `0.5*(x(i+1) + x(i))`. -/
noncomputable def mid (f : Faces) (i : ℤ) : ℝ := 0.5 * (f.xf (i+1) + f.xf i)
/-- `d(r^3/3)/d(r^2/2)`. -/
noncomputable def cyl1 (i : ℤ) : ℝ :=
  2/3 * (X.x1.xf (i+1) ^ 3 - X.x1.xf i ^ 3) / (X.x1.xf (i+1) ^ 2 - X.x1.xf i ^ 2)
/-- `d(sin th - th cos th)/d(-cos th)`. -/
noncomputable def sph2 (j : ℤ) : ℝ :=
  ((Real.sin (X.x2.xf (j+1)) - X.x2.xf (j+1) * Real.cos (X.x2.xf (j+1))) -
    (Real.sin (X.x2.xf j) - X.x2.xf j * Real.cos (X.x2.xf j))) /
    (Real.cos (X.x2.xf j) - Real.cos (X.x2.xf (j+1)))

/-- `x1v` (cartesian.cpp:28; cylindrical.cpp:33-34; spherical_polar.cpp:74-75). -/
noncomputable def x1v : Sys → ℤ → ℝ
  | .cartesian, i => mid X.x1 i
  | .cylindrical, i => cyl1 X i
  | .spherical, i => 0.75 * (X.x1.xf (i+1) ^ 4 - X.x1.xf i ^ 4) / (X.x1.xf (i+1) ^ 3 - X.x1.xf i ^ 3)
/-- `x2v` (cartesian.cpp:41, 45; cylindrical.cpp:44, 48; spherical_polar.cpp:86, 90-92); `nx2` is
`block_size.nx2`. -/
noncomputable def x2v (nx2 : ℤ) : Sys → ℤ → ℝ
  | .spherical, j => if nx2 = 1 then mid X.x2 j else sph2 X j
  | _, j => mid X.x2 j
/-- `x3v` (cartesian.cpp:59, 63; cylindrical.cpp:57, 61; spherical_polar.cpp:101, 105). -/
noncomputable def x3v (k : ℤ) : ℝ := mid X.x3 k

/-- `x1s2`, `x1s3`, `x2s1`, `x2s3` (cartesian.cpp:105-118; cylindrical.cpp:99-114;
spherical_polar.cpp:143-159); `x3s1`, `x3s2` are `x3v`. -/
noncomputable def x1s2 : Sys → ℤ → ℝ
  | .spherical, i => cyl1 X i
  | _, i => mid X.x1 i
@[inherit_doc x1s2] noncomputable def x1s3 : Sys → ℤ → ℝ
  | .cartesian, i => mid X.x1 i
  | _, i => cyl1 X i
@[inherit_doc x1s2] noncomputable def x2s1 (nx2 : ℤ) : Sys → ℤ → ℝ
  | .spherical, j => if nx2 = 1 then mid X.x2 j else sph2 X j
  | _, j => mid X.x2 j
@[inherit_doc x1s2] noncomputable def x2s3 (_ : Sys) (j : ℤ) : ℝ := mid X.x2 j

/-! ## Geometric source terms -/

/-- What the source terms depend on: `NON_BAROTROPIC_EOS`, `GetIsoSoundSpeed()`,
`MAGNETIC_FIELDS_ENABLED`, `!STS_ENABLED && do_hydro_diffusion`, and the arrays `prim`, `bcc`,
`hd.visflx`. -/
structure Src where
  nonBaro : Bool
  cs : ℝ
  mhd : Bool
  vis : Bool
  prim : A4 ℝ
  bcc : A4 ℝ
  visflx : Flx ℝ

/-- `u(n,k,j,i) += x`. -/
def add (n k j i : ℤ) (x : ℝ) (u : A4 ℝ) : A4 ℝ := Function.update u (n, k, j, i) (u (n, k, j, i) + x)
/-- `u(n,k,j,i) -= x`. -/
def sub (n k j i : ℤ) (x : ℝ) (u : A4 ℝ) : A4 ℝ := Function.update u (n, k, j, i) (u (n, k, j, i) - x)

/-- The body of the loops of `AddCoordTermsDivergence` (cylindrical.cpp:311-333). -/
noncomputable def cylCell (S : Src) (dt : ℝ) (F : Flx ℝ) (k j i : ℤ) (u : A4 ℝ) : A4 ℝ :=
  let m := S.prim (0,k,j,i) * S.prim (2,k,j,i) * S.prim (2,k,j,i)
  let m := if S.nonBaro then m + S.prim (4,k,j,i) else m + S.cs * S.cs * S.prim (0,k,j,i)
  let m := if S.mhd then m + 0.5 * (S.bcc (0,k,j,i) ^ 2 - S.bcc (1,k,j,i) ^ 2 + S.bcc (2,k,j,i) ^ 2) else m
  let m := if S.vis then m + 0.5 * (S.visflx.x2 (2,k,j+1,i) + S.visflx.x2 (2,k,j,i)) else m
  let u := add 1 k j i (dt * Cyl.src1_i X i * m) u
  sub 2 k j i (dt * Cyl.src2_i X i * (X.x1.xf i * F.x1 (2,k,j,i) + X.x1.xf (i+1) * F.x1 (2,k,j,i+1))) u

/-- The body of the loops of `AddCoordTermsDivergence` (spherical_polar.cpp:514-577). -/
noncomputable def sphCell (d : Dims) (S : Src) (dt : ℝ) (F : Flx ℝ) (k j i : ℤ) (u : A4 ℝ) : A4 ℝ :=
  let m := S.prim (0,k,j,i) * (S.prim (2,k,j,i) ^ 2 + S.prim (3,k,j,i) ^ 2)
  let m := if S.nonBaro then m + 2 * S.prim (4,k,j,i) else m + 2 * (S.cs * S.cs) * S.prim (0,k,j,i)
  let m := if S.mhd then m + S.bcc (0,k,j,i) ^ 2 else m
  let m := if S.vis then m + 0.5 * (S.visflx.x2 (2,k,j+1,i) + S.visflx.x2 (2,k,j,i))
      + 0.5 * (S.visflx.x3 (3,k+1,j,i) + S.visflx.x3 (3,k,j,i)) else m
  let u := add 1 k j i (dt * Sph.src1_i X i * m) u
  let u := sub 2 k j i (dt * Sph.src2_i X i *
    (Sph.area1_i X i * F.x1 (2,k,j,i) + Sph.area1_i X (i+1) * F.x1 (2,k,j,i+1))) u
  let u := sub 3 k j i (dt * Sph.src2_i X i *
    (Sph.area1_i X i * F.x1 (3,k,j,i) + Sph.area1_i X (i+1) * F.x1 (3,k,j,i+1))) u
  let p := S.prim (0,k,j,i) * S.prim (3,k,j,i) ^ 2
  let p := if S.nonBaro then p + S.prim (4,k,j,i) else p + S.cs * S.cs * S.prim (0,k,j,i)
  let p := if S.mhd then p + 0.5 * (S.bcc (0,k,j,i) ^ 2 + S.bcc (1,k,j,i) ^ 2 - S.bcc (2,k,j,i) ^ 2) else p
  let p := if S.vis then p + 0.5 * (S.visflx.x3 (3,k+1,j,i) + S.visflx.x3 (3,k,j,i)) else p
  let u := add 2 k j i (dt * Sph.src1_i X i * Sph.src1_j X j * p) u
  if d.nx2 > 1 then
    sub 3 k j i (dt * Sph.src1_i X i * Sph.src2_j X j *
      (Sph.area2_j X j * F.x2 (3,k,j,i) + Sph.area2_j X (j+1) * F.x2 (3,k,j+1,i))) u
  else
    let q := S.prim (0,k,j,i) * S.prim (3,k,j,i) * S.prim (2,k,j,i)
    let q := if S.mhd then q - S.bcc (2,k,j,i) * S.bcc (1,k,j,i) else q
    let q := if S.vis then q + 0.5 * (S.visflx.x2 (3,k,j+1,i) + S.visflx.x2 (3,k,j,i)) else q
    sub 3 k j i (dt * Sph.src1_i X i * Sph.src3_j X j * q) u

/-- `AddCoordTermsDivergence(dt, flux, prim, bcc, u)` (coordinates.cpp:756-760, empty, for Cartesian;
cylindrical.cpp:298-338; spherical_polar.cpp:499-583). -/
noncomputable def addCoordTerms (c : Sys) (d : Dims) (S : Src) (dt : ℝ) (F : Flx ℝ) : A4 ℝ → A4 ℝ :=
  match c with
  | .cartesian => id
  | .cylindrical =>
    loop d.ks d.ke fun k => loop d.js d.je fun j => loop d.is d.ie fun i => cylCell X S dt F k j i
  | .spherical =>
    loop d.ks d.ke fun k => loop d.js d.je fun j => loop d.is d.ie fun i => sphCell X d S dt F k j i

/-- One stage of the hydrodynamic update (time_integrator.cpp:1823-1826, `AddFluxDivergence` followed
by the geometric terms with the same weight). -/
noncomputable def stage (c : Sys) (d : Dims) (nv : Nat) (S : Src) (w : ℝ) (F : Flx ℝ) (u : A4 ℝ) : A4 ℝ :=
  addCoordTerms X c d S w F (addFluxDivergence d nv (geom X c) F w u)

end Verif.Coord
