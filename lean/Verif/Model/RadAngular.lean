import Mathlib.Data.Real.Sqrt
import Mathlib.Algebra.BigOperators.Fin
import Mathlib.Logic.Function.Basic

/-!
Explicit angular fluxes of radiation, `CalculateFluxes` and `FluxDivergence` of
nr_radiation/integrators/rad_transport.cpp with the geometry of coordinates/coordinates.cpp and
coordinates/spherical_polar.cpp.  Real numbers for `Real`; one cell and one frequency group.
-/

namespace Verif.RadAngular

open scoped BigOperators

open Classical in
/-- Flux through a face between angles, rad_transport.cpp:389-394 and 448-453: `none` where nothing is
written. -/
noncomputable def faceFlux (c g ql qr : ℝ) : Option ℝ :=
  if g > 0 then some (-c * qr * g) else if g < 0 then some (-c * ql * g) else none

/-- `zeta_flux_`, rad_transport.cpp:385-395 (`npsi == 0`); `old` is what the array held. -/
noncomputable def zetaFlux (c : ℝ) (g ql qr old : ℕ → ℝ) (n : ℕ) : ℝ :=
  (faceFlux c (g n) (ql n) (qr n)).getD (old n)

/-- States at the faces of first order, rad_transport.cpp:360-377 and dc_simple.cpp:140-153: `ql` and
`qr` with the reflected ghost angles, `N` angles. -/
def donorL (I : ℕ → ℝ) (n : ℕ) : ℝ := if n = 0 then I 0 else I (n - 1)

/-- `qr`. -/
def donorR (N : ℕ) (I : ℕ → ℝ) (n : ℕ) : ℝ := if n = N then I (N - 1) else I n

/-- Update of one angle, rad_transport.cpp:792-800 and 809-819. -/
noncomputable def zetaUpdate (tiny wght : ℝ) (area vol F I : ℕ → ℝ) (n : ℕ) : ℝ :=
  max (I n - wght * (area (n + 1) * F (n + 1) - area n * F n) / vol n) tiny

/-- `ZetaArea` for `npsi == 0`, coordinates.cpp:794-797; `cz` is `coszeta_f`. -/
def zetaArea (cz : ℕ → ℝ) (n : ℕ) : ℝ := 1 - cz n * cz n

/-- `len_zeta`, angulargrid.cpp:362-364, which is `AngularVol`, coordinates.cpp:836-839. -/
def lenZeta (cz : ℕ → ℝ) (n : ℕ) : ℝ := cz n - cz (n + 1)

/-- `normalization`, angulargrid.cpp:350. -/
noncomputable def normalization (nzeta : ℕ) : ℝ := 2 * nzeta / Real.sqrt (4 * nzeta * nzeta - 1)

/-- `coszeta_v` in the upper half, angulargrid.cpp:346-356 without `polar_angle`; `norm` is
`normalization`. -/
noncomputable def cosCentre (norm : ℝ) (cz : ℕ → ℝ) (n : ℕ) : ℝ :=
  0.5 * (cz n + cz (n + 1)) * norm

/-- `GetGeometryZeta` of all coordinates but spherical polar, coordinates.cpp:843-850. -/
def geomFlat (_ : ℕ) : ℝ := 1

/-- `x1v`, spherical_polar.cpp:73-75. -/
noncomputable def x1v (r1 r2 : ℝ) : ℝ := 0.75 * (r2 ^ 4 - r1 ^ 4) / (r2 ^ 3 - r1 ^ 3)

/-- `GetGeometryZeta` of spherical polar coordinates, spherical_polar.cpp:775-782. -/
noncomputable def geomSpherical (r1 r2 : ℝ) (_ : ℕ) : ℝ := 1 / x1v r1 r2

/-- Divergence of the radial flux, rad_transport.cpp:716-723 over the volume 754-760, of a direction with
cosine `mu` and uniform radiation `I` in the shell `[r1, r2]` (face areas and volume of
spherical_polar.cpp per solid angle; the flux of uniform radiation is `c mu I`, C99). -/
noncomputable def radialDiv (c mu I r1 r2 : ℝ) : ℝ :=
  (r2 ^ 2 * (c * mu * I) - r1 ^ 2 * (c * mu * I)) / ((r2 ^ 3 - r1 ^ 3) / 3)

/-! ### The second angle -/

/-- One write to `psi_flux_`, rad_transport.cpp:446-453: the index is `n*2*npsi+m` for `m` up to and
including `M = 2*npsi`, so the last face of one row has the slot of the first face of the next. -/
noncomputable def psiWrite (M : ℕ) (c : ℝ) (g ql qr : ℕ → ℕ → ℝ) (n m : ℕ) (a : ℕ → ℝ) : ℕ → ℝ :=
  match faceFlux c (g n m) (ql n m) (qr n m) with
  | some f => Function.update a (n * M + m) f
  | none => a

/-- The loops over all faces, rad_transport.cpp:414-455. -/
noncomputable def psiFill (N M : ℕ) (c : ℝ) (g ql qr : ℕ → ℕ → ℝ) (old : ℕ → ℝ) : ℕ → ℝ :=
  (List.range N).foldl
    (fun a n => (List.range (M + 1)).foldl (fun a m => psiWrite M c g ql qr n m a) a) old

/-- `dflx_ang` from the second angle, rad_transport.cpp:783-792. -/
noncomputable def psiDiv (M : ℕ) (area : ℕ → ℕ → ℝ) (F : ℕ → ℝ) (n m : ℕ) : ℝ :=
  area n (m + 1) * F (n * M + (m + 1)) - area n m * F (n * M + m)

end Verif.RadAngular
