import Verif.Spec.GrTensor
import Mathlib.Analysis.Real.Sqrt

/-!
# General relativistic coordinates: metrics and geometric source terms

coordinates/schwarzschild.cpp, kerr-schild.cpp and gr_user.cpp, one cell at a time, in exact real arithmetic.
The arrays `metric_*`, `coord_src_*` filled by `Initialize` are written as functions of the position of the cell or
face (`r`, `θ`) from which they are computed. Entries of the metric that the files leave alone stay zero, the value
given by `NewAthenaArray`. The types `V4`, `M4` are those of the specification.
-/
namespace Verif.Gr

/-- The ten entries `I00 … I33` of a symmetric array (athena.hpp:180-181). -/
def sym (g00 g01 g02 g03 g11 g12 g13 g22 g23 g33 : ℝ) : M4 :=
  ![![g00, g01, g02, g03], ![g01, g11, g12, g13], ![g02, g12, g22, g23], ![g03, g13, g23, g33]]

/-- Primitive variables `IDN`, `IPR`, `IVX`, `IVY`, `IVZ` of a cell and its magnetic field `IB1`, `IB2`, `IB3`. -/
structure State where
  rho : ℝ
  p : ℝ
  uu1 : ℝ
  uu2 : ℝ
  uu3 : ℝ
  bb1 : ℝ
  bb2 : ℝ
  bb3 : ℝ

/-- The primitive velocity as a vector without time component (used by specifications only). -/
def State.vel (w : State) : V4 := ![0, w.uu1, w.uu2, w.uu3]

/-- The magnetic field as a vector without time component, zero without magnetic fields (used by specifications
only). -/
def State.fld (mhd : Bool) (w : State) : V4 := if mhd then ![0, w.bb1, w.bb2, w.bb3] else 0

/-- Increments of `IEN`, `IM1`, `IM2`, `IM3` in `AddCoordTermsDivergence`. -/
@[ext] structure Src where
  e : ℝ
  m1 : ℝ
  m2 : ℝ
  m3 : ℝ

/-! ## Schwarzschild -/

/-- `metric_cell_i1_` (schwarzschild.cpp:122-123), also `metric_face*_i1_` (lines 213-218). -/
noncomputable def schAlphaSq (m r : ℝ) : ℝ := Real.sqrt (1 - 2*m/r) ^ 2

/-- `CellMetric`, covariant part (schwarzschild.cpp:604-608); `Face1Metric`, `Face2Metric`, `Face3Metric`
(lines 646-650, 688-692, 730-734) are the same at the positions of faces. -/
noncomputable def schMetric (m r sin2 : ℝ) : M4 :=
  sym (-schAlphaSq m r) 0 0 0 (1 / schAlphaSq m r) 0 0 (r^2) 0 (r^2 * sin2)

/-- `CellMetric`, contravariant part (schwarzschild.cpp:609-612). -/
noncomputable def schInverse (m r sin2 : ℝ) : M4 :=
  sym (-1 / schAlphaSq m r) 0 0 0 (schAlphaSq m r) 0 0 (1 / r^2) 0 (1 / (r^2 * sin2))

/-- `RaiseVectorCell` (schwarzschild.cpp:1411-1432). -/
noncomputable def schRaise (m r sin2 : ℝ) (a : V4) : V4 :=
  let g00 := -1 / schAlphaSq m r
  let g11 := schAlphaSq m r
  let g22 := 1 / r^2
  let g33 := 1 / (r^2 * sin2)
  ![g00 * a 0, g11 * a 1, g22 * a 2, g33 * a 3]

/-- `LowerVectorCell` (schwarzschild.cpp:1441-1461). -/
noncomputable def schLower (m r sin2 : ℝ) (a : V4) : V4 :=
  let g_00 := -schAlphaSq m r
  let g_11 := 1 / schAlphaSq m r
  let g_22 := r^2
  let g_33 := r^2 * sin2
  ![g_00 * a 0, g_11 * a 1, g_22 * a 2, g_33 * a 3]

/-- `AddCoordTermsDivergence` for one cell (schwarzschild.cpp:471-571); `mhd` is `MAGNETIC_FIELDS_ENABLED`. -/
noncomputable def schSrc (mhd : Bool) (gam m r sin cos dt : ℝ) (w : State) : Src :=
  let sin2 := sin^2
  let sincos := sin * cos
  let g_00 := schMetric m r sin2 0 0
  let g_11 := schMetric m r sin2 1 1
  let g_22 := schMetric m r sin2 2 2
  let g_33 := schMetric m r sin2 3 3
  let g00 := schInverse m r sin2 0 0
  let g11 := schInverse m r sin2 1 1
  let g22 := schInverse m r sin2 2 2
  let g33 := schInverse m r sin2 3 3
  let alpha := Real.sqrt (-1/g00)
  let r2 := r^2
  let d1_g_00 := -2*m / r2
  let d1_g_11 := -2*m / r2 * g_11^2
  let d1_g_22 := 2 * r
  let d1_g_33 := 2 * r * sin2
  let d2_g_33 := 2 * r2 * sincos
  let uu_sq := g_11*w.uu1*w.uu1 + g_22*w.uu2*w.uu2 + g_33*w.uu3*w.uu3
  let gamma := Real.sqrt (1 + uu_sq)
  let u0 := gamma / alpha
  let u1 := w.uu1
  let u2 := w.uu2
  let u3 := w.uu3
  let u_1 := g_11*u1
  let u_2 := g_22*u2
  let u_3 := g_33*u3
  let b0 := if mhd then u_1*w.bb1 + u_2*w.bb2 + u_3*w.bb3 else 0
  let b1 := if mhd then (w.bb1 + b0 * u1) / u0 else 0
  let b2 := if mhd then (w.bb2 + b0 * u2) / u0 else 0
  let b3 := if mhd then (w.bb3 + b0 * u3) / u0 else 0
  let b_0 := g_00*b0
  let b_1 := g_11*b1
  let b_2 := g_22*b2
  let b_3 := g_33*b3
  let b_sq := if mhd then b_0*b0 + b_1*b1 + b_2*b2 + b_3*b3 else 0
  let wtot := w.rho + gam/(gam-1) * w.p + b_sq
  let ptot := w.p + 1/2*b_sq
  let tt00 := wtot * u0 * u0 + ptot * g00 - b0 * b0
  let tt11 := wtot * u1 * u1 + ptot * g11 - b1 * b1
  let tt22 := wtot * u2 * u2 + ptot * g22 - b2 * b2
  let tt33 := wtot * u3 * u3 + ptot * g33 - b3 * b3
  let s_1 := 1/2 * (d1_g_00*tt00 + d1_g_11*tt11 + d1_g_22*tt22 + d1_g_33*tt33)
  let s_2 := 1/2 * d2_g_33*tt33
  ⟨0, dt * s_1, dt * s_2, 0⟩

/-! ## Kerr-Schild -/

/-- `CellMetric`, covariant part (kerr-schild.cpp:877-902); `Face1Metric`, `Face2Metric`, `Face3Metric`
(lines 924-949, 971-996, 1018-1043) are the same at the positions of faces. -/
noncomputable def ksMetric (m a r sin2 cos2 : ℝ) : M4 :=
  let a2 := a^2
  let r2 := r^2
  let sigma := r2 + a2 * cos2
  sym (-(1 - 2*m*r/sigma)) (2*m*r/sigma) 0 (-2*m*a*r/sigma * sin2) (1 + 2*m*r/sigma) 0
    (-(1 + 2*m*r/sigma) * a * sin2) sigma 0 ((r2 + a2 + 2*m*a2*r/sigma * sin2) * sin2)

/-- `CellMetric`, contravariant part (kerr-schild.cpp:903-908). -/
noncomputable def ksInverse (m a r sin2 cos2 : ℝ) : M4 :=
  let a2 := a^2
  let r2 := r^2
  let delta := r2 - 2*m*r + a2
  let sigma := r2 + a2 * cos2
  sym (-(1 + 2*m*r/sigma)) (2*m*r/sigma) 0 0 (delta/sigma) 0 (a/sigma) (1/sigma) 0 (1 / (sigma * sin2))

/-- `RaiseVectorCell` (kerr-schild.cpp:1793-1830). -/
noncomputable def ksRaise (m a r sin2 cos2 : ℝ) (v : V4) : V4 :=
  let asq := a^2
  let rsq := r^2
  let delta := rsq - 2*m*r + asq
  let sigma := rsq + asq * cos2
  let g00 := -(1 + 2*m*r/sigma)
  let g01 := 2*m*r/sigma
  let g02 := 0
  let g03 := 0
  let g11 := delta/sigma
  let g12 := 0
  let g13 := a/sigma
  let g22 := 1/sigma
  let g23 := 0
  let g33 := 1/(sigma*sin2)
  ![g00*v 0 + g01*v 1 + g02*v 2 + g03*v 3, g01*v 0 + g11*v 1 + g12*v 2 + g13*v 3,
    g02*v 0 + g12*v 1 + g22*v 2 + g23*v 3, g03*v 0 + g13*v 1 + g23*v 2 + g33*v 3]

/-- `LowerVectorCell` (kerr-schild.cpp:1840-1876). -/
noncomputable def ksLower (m a r sin2 cos2 : ℝ) (v : V4) : V4 :=
  let asq := a^2
  let rsq := r^2
  let sigma := rsq + asq * cos2
  let g_00 := -(1 - 2*m*r/sigma)
  let g_01 := 2*m*r/sigma
  let g_02 := 0
  let g_03 := -2*m*a*r/sigma * sin2
  let g_11 := 1 + 2*m*r/sigma
  let g_12 := 0
  let g_13 := -(1 + 2*m*r/sigma) * a * sin2
  let g_22 := sigma
  let g_23 := 0
  let g_33 := (rsq + asq + 2*m*asq*r/sigma * sin2) * sin2
  ![g_00*v 0 + g_01*v 1 + g_02*v 2 + g_03*v 3, g_01*v 0 + g_11*v 1 + g_12*v 2 + g_13*v 3,
    g_02*v 0 + g_12*v 1 + g_22*v 2 + g_23*v 3, g_03*v 0 + g_13*v 1 + g_23*v 2 + g_33*v 3]

/-- `AddCoordTermsDivergence` for one cell (kerr-schild.cpp:738-861). -/
noncomputable def ksSrc (mhd : Bool) (gam m a r sin cos dt : ℝ) (w : State) : Src :=
  let a2 := a^2
  let sin2 := sin^2
  let cos2 := cos^2
  let sincos := sin * cos
  let g := ksMetric m a r sin2 cos2
  let gi := ksInverse m a r sin2 cos2
  let g_00 := g 0 0
  let g_01 := g 0 1
  let g_03 := g 0 3
  let g_11 := g 1 1
  let g_13 := g 1 3
  let g_22 := g 2 2
  let g_33 := g 3 3
  let g00 := gi 0 0
  let g01 := gi 0 1
  let g11 := gi 1 1
  let g13 := gi 1 3
  let g22 := gi 2 2
  let g33 := gi 3 3
  let alpha := Real.sqrt (-1/g00)
  let r2_a2 := r^2 + a2
  let delta := r2_a2 - 2*m * r
  let sigma_sq := (r^2 + a2 * cos2)^2
  let xi := r^2 - a2 * cos2
  let d1_g_00 := -2*m * xi / sigma_sq
  let d1_g_01 := -2*m * xi / sigma_sq
  let d1_g_03 := 2*m * xi / sigma_sq * a * sin2
  let d1_g_11 := -2*m * xi / sigma_sq
  let d1_g_13 := 2*m * xi / sigma_sq * a * sin2
  let d1_g_22 := 2 * r
  let d1_g_33 := 2 * (r - m * xi / sigma_sq * a2 * sin2) * sin2
  let d2_g_00 := 4*m*a2 * r / sigma_sq * sincos
  let d2_g_01 := 4*m*a2 * r / sigma_sq * sincos
  let d2_g_03 := -4*m*a * r * r2_a2 / sigma_sq * sincos
  let d2_g_11 := 4*m*a2 * r / sigma_sq * sincos
  let d2_g_13 := -2 * (1 + 2*m * r * r2_a2 / sigma_sq) * a * sincos
  let d2_g_22 := -2*a2 * sincos
  let d2_g_33 := 2 * (delta + 2*m * r * r2_a2^2 / sigma_sq) * sincos
  let uu_sq := g_11*w.uu1*w.uu1 + 2*g_13*w.uu1*w.uu3 + g_22*w.uu2*w.uu2 + g_33*w.uu3*w.uu3
  let gamma := Real.sqrt (1 + uu_sq)
  let u0 := gamma / alpha
  let u1 := w.uu1 - alpha * gamma * g01
  let u2 := w.uu2
  let u3 := w.uu3
  let u_1 := g_01*u0 + g_11*u1 + g_13*u3
  let u_2 := g_22*u2
  let u_3 := g_03*u0 + g_13*u1 + g_33*u3
  let b0 := if mhd then u_1*w.bb1 + u_2*w.bb2 + u_3*w.bb3 else 0
  let b1 := if mhd then (w.bb1 + b0 * u1) / u0 else 0
  let b2 := if mhd then (w.bb2 + b0 * u2) / u0 else 0
  let b3 := if mhd then (w.bb3 + b0 * u3) / u0 else 0
  let b_0 := g_00*b0 + g_01*b1 + g_03*b3
  let b_1 := g_01*b0 + g_11*b1 + g_13*b3
  let b_2 := g_22*b2
  let b_3 := g_03*b0 + g_13*b1 + g_33*b3
  let b_sq := if mhd then b_0*b0 + b_1*b1 + b_2*b2 + b_3*b3 else 0
  let wtot := w.rho + gam/(gam-1) * w.p + b_sq
  let ptot := w.p + 1/2*b_sq
  let tt00 := wtot * u0 * u0 - b0 * b0 + ptot * g00
  let tt01 := wtot * u0 * u1 - b0 * b1 + ptot * g01
  let tt03 := wtot * u0 * u3 - b0 * b3
  let tt11 := wtot * u1 * u1 - b1 * b1 + ptot * g11
  let tt13 := wtot * u1 * u3 - b1 * b3 + ptot * g13
  let tt22 := wtot * u2 * u2 - b2 * b2 + ptot * g22
  let tt33 := wtot * u3 * u3 - b3 * b3 + ptot * g33
  let s_1 := 1/2 * (d1_g_00*tt00 + 2*d1_g_01*tt01 + 2*d1_g_03*tt03
    + d1_g_11*tt11 + 2*d1_g_13*tt13 + d1_g_22*tt22 + d1_g_33*tt33)
  let s_2 := 1/2 * (d2_g_00*tt00 + 2*d2_g_01*tt01 + 2*d2_g_03*tt03
    + d2_g_11*tt11 + 2*d2_g_13*tt13 + d2_g_22*tt22 + d2_g_33*tt33)
  ⟨0, dt * s_1, dt * s_2, 0⟩

/-! ## User-defined metrics -/

/-- `RaiseVectorCell` (gr_user.cpp:1626-1652) and `LowerVectorCell` (lines 1662-1688): product with the stored
array. -/
def userApply (g : M4) (v : V4) : V4 :=
  ![g 0 0*v 0 + g 0 1*v 1 + g 0 2*v 2 + g 0 3*v 3, g 0 1*v 0 + g 1 1*v 1 + g 1 2*v 2 + g 1 3*v 3,
    g 0 2*v 0 + g 1 2*v 1 + g 2 2*v 2 + g 2 3*v 3, g 0 3*v 0 + g 1 3*v 1 + g 2 3*v 2 + g 3 3*v 3]

/-- The contraction of lines 678-699: the sum over the ten stored entries, less half of the diagonal. -/
noncomputable def userForce (dg tt : M4) : ℝ :=
  (dg 0 0*tt 0 0 + dg 0 1*tt 0 1 + dg 0 2*tt 0 2 + dg 0 3*tt 0 3 + dg 1 1*tt 1 1 + dg 1 2*tt 1 2
    + dg 1 3*tt 1 3 + dg 2 2*tt 2 2 + dg 2 3*tt 2 3 + dg 3 3*tt 3 3)
  - 1/2 * (dg 0 0*tt 0 0 + dg 1 1*tt 1 1 + dg 2 2*tt 2 2 + dg 3 3*tt 3 3)

/-- `AddCoordTermsDivergence` for one cell (gr_user.cpp:582-713): `g`, `gi` are the stored metric and inverse,
`d1`, `d2`, `d3` the stored derivatives, all supplied by the user's function. -/
noncomputable def userSrc (mhd : Bool) (gam : ℝ) (g gi d1 d2 d3 : M4) (dt : ℝ) (w : State) : Src :=
  let alpha := Real.sqrt (-1/gi 0 0)
  let uu_sq := g 1 1*w.uu1*w.uu1 + 2*g 1 2*w.uu1*w.uu2 + 2*g 1 3*w.uu1*w.uu3
    + g 2 2*w.uu2*w.uu2 + 2*g 2 3*w.uu2*w.uu3 + g 3 3*w.uu3*w.uu3
  let gamma := Real.sqrt (1 + uu_sq)
  let u0 := gamma / alpha
  let u1 := w.uu1 - alpha * gamma * gi 0 1
  let u2 := w.uu2 - alpha * gamma * gi 0 2
  let u3 := w.uu3 - alpha * gamma * gi 0 3
  let u_1 := g 0 1*u0 + g 1 1*u1 + g 1 2*u2 + g 1 3*u3
  let u_2 := g 0 2*u0 + g 1 2*u1 + g 2 2*u2 + g 2 3*u3
  let u_3 := g 0 3*u0 + g 1 3*u1 + g 2 3*u2 + g 3 3*u3
  let b0 := if mhd then u_1*w.bb1 + u_2*w.bb2 + u_3*w.bb3 else 0
  let b1 := if mhd then (w.bb1 + b0 * u1) / u0 else 0
  let b2 := if mhd then (w.bb2 + b0 * u2) / u0 else 0
  let b3 := if mhd then (w.bb3 + b0 * u3) / u0 else 0
  let b_0 := g 0 0*b0 + g 0 1*b1 + g 0 2*b2 + g 0 3*b3
  let b_1 := g 0 1*b0 + g 1 1*b1 + g 1 2*b2 + g 1 3*b3
  let b_2 := g 0 2*b0 + g 1 2*b1 + g 2 2*b2 + g 2 3*b3
  let b_3 := g 0 3*b0 + g 1 3*b1 + g 2 3*b2 + g 3 3*b3
  let b_sq := if mhd then b_0*b0 + b_1*b1 + b_2*b2 + b_3*b3 else 0
  let wtot := w.rho + gam/(gam-1) * w.p + b_sq
  let ptot := w.p + 1/2*b_sq
  let tt := sym
    (wtot * u0 * u0 + ptot * gi 0 0 - b0 * b0) (wtot * u0 * u1 + ptot * gi 0 1 - b0 * b1)
    (wtot * u0 * u2 + ptot * gi 0 2 - b0 * b2) (wtot * u0 * u3 + ptot * gi 0 3 - b0 * b3)
    (wtot * u1 * u1 + ptot * gi 1 1 - b1 * b1) (wtot * u1 * u2 + ptot * gi 1 2 - b1 * b2)
    (wtot * u1 * u3 + ptot * gi 1 3 - b1 * b3) (wtot * u2 * u2 + ptot * gi 2 2 - b2 * b2)
    (wtot * u2 * u3 + ptot * gi 2 3 - b2 * b3) (wtot * u3 * u3 + ptot * gi 3 3 - b3 * b3)
  ⟨0, dt * userForce d1 tt, dt * userForce d2 tt, dt * userForce d3 tt⟩

end Verif.Gr
