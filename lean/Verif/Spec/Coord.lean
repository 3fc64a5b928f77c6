import Verif.Model.Coord
import Verif.Spec.FluxMsg
import Verif.Spec.MeshGen
import Mathlib.MeasureTheory.Integral.IntervalIntegral.Basic

/-! # Specification vocabulary for coordinate systems -/
namespace Verif.Coord
open Verif.Grid

/-- Scale factors: a step `dx1`, `dx2`, `dx3` has the lengths `dx1`, `h2 dx2`, `h3 dx3`. -/
def h2 : Sys → ℝ → ℝ → ℝ
  | .cartesian, _, _ => 1
  | .cylindrical, r, _ => r
  | .spherical, r, _ => r
@[inherit_doc h2] noncomputable def h3 : Sys → ℝ → ℝ → ℝ
  | .cartesian, _, _ => 1
  | .cylindrical, _, _ => 1
  | .spherical, r, θ => r * Real.sin θ

/-- Integral over the range of a cell in one direction. -/
noncomputable def over (f : MeshGen.Faces) (i : ℤ) (φ : ℝ → ℝ) : ℝ := ∫ x in (f.xf i)..(f.xf (i+1)), φ x

variable (c : Sys) (X : XF) (k j i : ℤ)

/-- Integral of `φ` over the lower face in each direction, and over the cell. -/
noncomputable def onFace1 (φ : ℝ → ℝ) : ℝ :=
  over X.x3 k fun _ => over X.x2 j fun x2 => φ x2 * (h2 c (X.x1.xf i) x2 * h3 c (X.x1.xf i) x2)
@[inherit_doc onFace1] noncomputable def onFace2 (φ : ℝ → ℝ) : ℝ :=
  over X.x3 k fun _ => over X.x1 i fun x1 => φ x1 * h3 c x1 (X.x2.xf j)
@[inherit_doc onFace1] noncomputable def onFace3 (φ : ℝ → ℝ → ℝ) : ℝ :=
  over X.x2 j fun x2 => over X.x1 i fun x1 => φ x1 x2 * h2 c x1 x2
@[inherit_doc onFace1] noncomputable def inCell (φ : ℝ → ℝ → ℝ → ℝ) : ℝ :=
  over X.x3 k fun x3 => over X.x2 j fun x2 => over X.x1 i fun x1 => φ x1 x2 x3 * (h2 c x1 x2 * h3 c x1 x2)

/-- The face positions of cell `(k, j, i)` increase, the widths are their differences, the radius is
not negative and the polar angle is between `0` and `π`. -/
structure Good : Prop where
  d1 : X.x1.dxf i = X.x1.xf (i+1) - X.x1.xf i
  d2 : X.x2.dxf j = X.x2.xf (j+1) - X.x2.xf j
  d3 : X.x3.dxf k = X.x3.xf (k+1) - X.x3.xf k
  l1 : X.x1.xf i < X.x1.xf (i+1)
  l2 : X.x2.xf j < X.x2.xf (j+1)
  l3 : X.x3.xf k < X.x3.xf (k+1)
  r0 : c ≠ .cartesian → 0 ≤ X.x1.xf i
  t0 : c = .spherical → 0 ≤ X.x2.xf j
  tp : c = .spherical → X.x2.xf (j+1) ≤ Real.pi

/-- All active cells of a block are as above. -/
def GoodBlock (d : Dims) : Prop :=
  ∀ k j i, d.ks ≤ k → k ≤ d.ke → d.js ≤ j → j ≤ d.je → d.is ≤ i → i ≤ d.ie → Good c X k j i

/-! ## Angular momentum about the axis -/

/-- Component of the momentum along the azimuth: `IM2` in cylindrical, `IM3` in spherical
coordinates. -/
def azimuth : Sys → ℤ
  | .cartesian => 0
  | .cylindrical => 2
  | .spherical => 3

/-- Distance from the axis at radius `r` and (in spherical coordinates) sine `s` of the polar angle. -/
def lever : Sys → ℝ → ℝ → ℝ
  | .cartesian, _, _ => 1
  | .cylindrical, r, _ => r
  | .spherical, r, s => r * s

/-- Radius of the middle of a cell, and mean sine of the polar angle of its two faces. -/
noncomputable def rMid : ℝ := (X.x1.xf i + X.x1.xf (i+1)) / 2
@[inherit_doc rMid] noncomputable def sMid : ℝ := (Real.sin (X.x2.xf j) + Real.sin (X.x2.xf (j+1))) / 2

/-- Areas and volumes times the distance from the axis, so that sums of momentum and of momentum
fluxes with this geometry are angular momentum and its fluxes. At an `x1` face the radius is that of
the face, at an `x2` face the polar angle is that of the face. -/
noncomputable def moment : Geom ℝ where
  a1 := fun (k, j, i) => lever c (X.x1.xf i) (sMid X j) * (geom X c).a1 (k, j, i)
  a2 := fun (k, j, i) => lever c (rMid X i) (Real.sin (X.x2.xf j)) * (geom X c).a2 (k, j, i)
  a3 := fun (k, j, i) => lever c (rMid X i) (sMid X j) * (geom X c).a3 (k, j, i)
  vol := fun (k, j, i) => lever c (rMid X i) (sMid X j) * (geom X c).vol (k, j, i)

/-! ## Gas at rest -/

/-- Gas at rest with the gas pressure `P` in every cell. In cylindrical
coordinates there may be a uniform field `b` along the axis, in spherical coordinates no field. -/
structure AtRest (S : Src) (P b : ℝ) : Prop where
  v : ∀ n k j i, 1 ≤ n → n ≤ 3 → S.prim (n, k, j, i) = 0
  p : ∀ k j i, (if S.nonBaro then S.prim (4, k, j, i) else S.cs * S.cs * S.prim (0, k, j, i)) = P
  field : S.mhd = true → ∀ k j i, S.bcc (0, k, j, i) = 0 ∧ S.bcc (1, k, j, i) = 0 ∧ S.bcc (2, k, j, i) = b
  none : S.mhd = false ∨ c = .spherical → b = 0
  vis : S.vis = true → ∀ n k j i, S.visflx.x1 (n, k, j, i) = 0 ∧ S.visflx.x2 (n, k, j, i) = 0 ∧ S.visflx.x3 (n, k, j, i) = 0

/-- The exact fluxes of gas at rest: momentum `n` flows in direction `n` only, at the rate of the total
pressure `P + b²/2`, less the tension `b²` along the field; nothing else flows. -/
structure RestFlux (nv : ℕ) (F : Flx ℝ) (P b : ℝ) : Prop where
  x1 : ∀ n k j i : ℤ, 0 ≤ n → n < nv → F.x1 (n, k, j, i) = if n = 1 then P + b ^ 2 / 2 else 0
  x2 : ∀ n k j i : ℤ, 0 ≤ n → n < nv → F.x2 (n, k, j, i) = if n = 2 then P + b ^ 2 / 2 else 0
  x3 : ∀ n k j i : ℤ, 0 ≤ n → n < nv → F.x3 (n, k, j, i) = if n = 3 then P - b ^ 2 / 2 else 0

/-! ## Stress -/

/-- Mean over a cell. -/
noncomputable def cellMean (φ : ℝ → ℝ → ℝ → ℝ) : ℝ := inCell c X k j i φ / inCell c X k j i fun _ _ _ => 1

/-- Gas pressure, and the component of the viscous stress that carries momentum `b` in direction `a`,
the mean of the values at the two faces. -/
noncomputable def gasPressure (S : Src) : ℝ :=
  if S.nonBaro then S.prim (4, k, j, i) else S.cs ^ 2 * S.prim (0, k, j, i)
@[inherit_doc gasPressure] noncomputable def viscous (S : Src) (a b : ℤ) : ℝ :=
  if a = 1 then (S.visflx.x1 (b, k, j, i) + S.visflx.x1 (b, k, j, i+1)) / 2
  else if a = 2 then (S.visflx.x2 (b, k, j, i) + S.visflx.x2 (b, k, j+1, i)) / 2
  else (S.visflx.x3 (b, k, j, i) + S.visflx.x3 (b, k+1, j, i)) / 2

/-- Stress tensor `ρ v_a v_b + δ_ab (P + B²/2) - B_a B_b` plus the viscous stress. -/
noncomputable def stress (S : Src) (a b : ℤ) : ℝ :=
  S.prim (0, k, j, i) * S.prim (a, k, j, i) * S.prim (b, k, j, i)
  + (if a = b then gasPressure k j i S else 0)
  + (if S.mhd then (if a = b then (S.bcc (0, k, j, i) ^ 2 + S.bcc (1, k, j, i) ^ 2 + S.bcc (2, k, j, i) ^ 2) / 2 else 0)
      - S.bcc (a - 1, k, j, i) * S.bcc (b - 1, k, j, i) else 0)
  + (if S.vis then viscous k j i S a b else 0)

/-- Momentum `n` that flows through the two radial faces of a cell turns with the unit vectors: the
share `dr / (2 r)` of it, per volume. -/
noncomputable def turning (F : Flx ℝ) (n : ℤ) : ℝ :=
  (X.x1.xf (i+1) - X.x1.xf i) / (2 * rMid X i) *
    (((geom X c).a1 (k, j, i) * F.x1 (n, k, j, i) + (geom X c).a1 (k, j, i+1) * F.x1 (n, k, j, i+1)) / (geom X c).vol (k, j, i))

/-! ## Geometry of a whole mesh -/

/-- Face positions `x L i`, face `i` of level `L` counted over the whole mesh: each face is also a face
of the next level. A direction that is not refined has the same faces on all levels. -/
def Lines (on : Bool) (x : ℕ → ℤ → ℝ) : Prop := ∀ L i, x (L + 1) (if on then 2 * i else i) = x L i

/-- Faces with given positions. -/
def ofPos (x : ℤ → ℝ) : MeshGen.Faces := ⟨x, fun i => x (i+1) - x i⟩

/-- Areas and volumes of all cells of all levels. -/
noncomputable def globalGeom (x1 x2 x3 : ℕ → ℤ → ℝ) : FluxMsg.GlobalGeom ℝ :=
  let g := fun L => geom ⟨ofPos (x1 L), ofPos (x2 L), ofPos (x3 L)⟩ c
  ⟨fun L => (g L).a1, fun L => (g L).a2, fun L => (g L).a3, fun L => (g L).vol⟩

/-- The same for `moment`. -/
noncomputable def globalMoment (x1 x2 x3 : ℕ → ℤ → ℝ) : FluxMsg.GlobalGeom ℝ :=
  let g := fun L => moment c ⟨ofPos (x1 L), ofPos (x2 L), ofPos (x3 L)⟩
  ⟨fun L => (g L).a1, fun L => (g L).a2, fun L => (g L).a3, fun L => (g L).vol⟩

/-- One direction of a mesh with `nrb` root blocks and `nx` cells per block. -/
structure DirOf (on : Bool) (nrb : ℕ) (nx ng : ℤ) (D : MeshGen.Dir) : Prop where
  ok : D.Ok
  gen : on = true → D.GenOk
  nrb : D.nrb = nrb
  bnx : (D.bnx : ℤ) = nx
  ng : (D.ng : ℤ) = ng

/-- The three directions of the mesh `m` with blocks of size `d`, in coordinates that make sense: radius
not negative, polar angle between `0` and `π`, and neither of them periodic. -/
structure MeshDirs (m : Tree.Mesh) (d : Dims) (D1 D2 D3 : MeshGen.Dir) : Prop where
  x1 : DirOf true m.nrbx1 d.nx1 d.ng D1
  x2 : DirOf m.f2 m.nrbx2 d.nx2 d.ng D2
  x3 : DirOf m.f3 m.nrbx3 d.nx3 d.ng D3
  r0 : c ≠ .cartesian → 0 ≤ D1.ms.xmin
  t0 : c = .spherical → 0 ≤ D2.ms.xmin
  tp : c = .spherical → D2.ms.xmax ≤ Real.pi
  per1 : c ≠ .cartesian → m.ix1 ≠ .periodic
  per2 : c = .spherical → m.f2 = true → m.ix2 ≠ .periodic

end Verif.Coord
