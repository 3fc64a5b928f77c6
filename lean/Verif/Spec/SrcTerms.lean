import Verif.Model.SrcTerms
import Verif.Spec.Coord

/-! # Specification vocabulary for physical source terms -/
namespace Verif.SrcTerms
open Verif.Grid Verif.Coord

/-- Active cells. -/
def Active (d : Dims) (k j i : ℤ) : Prop := (d.ks ≤ k ∧ k ≤ d.ke) ∧ (d.js ≤ j ∧ j ≤ d.je) ∧ (d.is ≤ i ∧ i ≤ d.ie)

/-- Velocity of a cell times change of its momentum from `u` to `u'`: the work done by the forces. -/
def work (D : Data) (u u' : A4 ℝ) (q : ℤ × ℤ × ℤ) : ℝ :=
  D.prim (1, q) * (u' (1, q) - u (1, q)) + D.prim (2, q) * (u' (2, q) - u (2, q)) + D.prim (3, q) * (u' (3, q) - u (3, q))

/-- The mass flux through the faces of a cell is that of its density and velocity. -/
structure Through (D : Data) (k j i : ℤ) : Prop where
  x1 : ∀ i' ∈ [i, i+1], D.F.x1 (0,k,j,i') = D.prim (0,k,j,i) * D.prim (1,k,j,i)
  x2 : ∀ j' ∈ [j, j+1], D.F.x2 (0,k,j',i) = D.prim (0,k,j,i) * D.prim (2,k,j,i)
  x3 : ∀ k' ∈ [k, k+1], D.F.x3 (0,k',j,i) = D.prim (0,k,j,i) * D.prim (3,k,j,i)

/-- The same gas seen with the velocity `v` added in direction `n`. -/
def boost (n : ℤ) (v : ℤ × ℤ × ℤ → ℝ) (w : A4 ℝ) : A4 ℝ := fun (m, q) => if m = n then w (m, q) + v q else w (m, q)

/-- Velocity of a frame that rotates at `Omega`, at the centre of a cell. -/
noncomputable def frameVel (c : Sys) (X : XF) (nx2 : ℤ) (Omega : ℝ) (q : ℤ × ℤ × ℤ) : ℝ :=
  match c with
  | .cartesian => 0
  | .cylindrical => x1v X c q.2.2 * Omega
  | .spherical => x1v X c q.2.2 * Real.sin (x2v X nx2 c q.2.1) * Omega

/-- Total energy of a cell with magnetic energy `B²/2`: internal energy `e`. -/
noncomputable def totalE (e rho v1 v2 v3 : ℝ) : ℝ := e + rho * (v1 ^ 2 + v2 ^ 2 + v3 ^ 2) / 2

/-- With orbital advection the energy does not contain the orbital motion, and the magnetic stress takes energy from its
shear: the rate `B_n B_y dv_K/dx_n` of it, given the two derivatives `s1`, `s2` of the orbital velocity in the
directions of the field components `b1`, `b2`, with `by` along the orbital motion. -/
def shearPower (mhd : Bool) (b1 b2 by_ s1 s2 : ℝ) : ℝ := if mhd then by_ * (b1 * s1 + b2 * s2) else 0

/-- Circular velocity at distance `r` from the axis and height `z` in the field of a point mass. -/
noncomputable def circular (gm r z : ℝ) : ℝ := Real.sqrt (gm / Real.sqrt (r ^ 2 + z ^ 2)) * r / Real.sqrt (r ^ 2 + z ^ 2)

/-- Pull of a point mass towards the axis times the distance `r` from the axis. -/
noncomputable def pull (gm r z : ℝ) : ℝ := gm * r ^ 2 / Real.sqrt (r ^ 2 + z ^ 2) ^ 3

/-- Height above the midplane; zero without a third dimension. -/
noncomputable def height (d : Dims) (X : XF) (k : ℤ) : ℝ := if d.nx3 > 1 then x3v X k else 0

/-- Velocity, in an inertial frame, of the reference motion the velocities of the code are relative to: rotation of the frame
and, with orbital advection, the orbital motion. The default motion in cylindrical coordinates is circular. -/
noncomputable def refVel (C : Conf) (d : Dims) (D : Data) (q : ℤ × ℤ × ℤ) : ℝ :=
  match C.c with
  | .cartesian => 0
  | .cylindrical =>
    if C.oa then
      if C.userVel then D.vKc q.1 q.2.2 + frameVel C.c D.X d.nx2 C.Omega q
      else circular C.gm (x1v D.X .cylindrical q.2.2) (height d D.X q.1)
    else frameVel C.c D.X d.nx2 C.Omega q
  | .spherical => (if C.oa then D.vKc q.2.1 q.2.2 else 0) + frameVel C.c D.X d.nx2 C.Omega q

/-- Positions of the faces are equally spaced. -/
def Uniform (f : MeshGen.Faces) (h : ℝ) : Prop := ∀ i, f.xf (i+1) - f.xf i = h

/-- The discrete Poisson equation `Δφ = 4πG (ρ - ρ₀)` with second differences in the directions in use. -/
def Poisson (d : Dims) (D : Data) (h1 h2 h3 fourPiG rho0 : ℝ) : Prop := ∀ k j i, Active d k j i →
  (D.phi (k,j,i+1) - 2 * D.phi (k,j,i) + D.phi (k,j,i-1)) / h1 ^ 2
  + (if d.nx2 > 1 then (D.phi (k,j+1,i) - 2 * D.phi (k,j,i) + D.phi (k,j-1,i)) / h2 ^ 2 else 0)
  + (if d.nx3 > 1 then (D.phi (k+1,j,i) - 2 * D.phi (k,j,i) + D.phi (k-1,j,i)) / h3 ^ 2 else 0)
  = fourPiG * (D.prim (0,k,j,i) - rho0)

/-- The potential is periodic with the size of the block, in the directions in use. -/
structure Periodic (d : Dims) (phi : A3 ℝ) : Prop where
  x1 : ∀ k j i, phi (k, j, i + d.nx1) = phi (k, j, i)
  x2 : d.nx2 > 1 → ∀ k j i, phi (k, j + d.nx2, i) = phi (k, j, i)
  x3 : d.nx3 > 1 → ∀ k j i, phi (k + d.nx3, j, i) = phi (k, j, i)

/-- Sum over the active cells. -/
noncomputable def total (d : Dims) (f : ℤ → ℤ → ℤ → ℝ) : ℝ :=
  ∑ k ∈ Finset.Icc d.ks d.ke, ∑ j ∈ Finset.Icc d.js d.je, ∑ i ∈ Finset.Icc d.is d.ie, f k j i

/-- No forces but the point mass, rotation and orbital motion. -/
structure OnlyOrbit (C : Conf) : Prop where
  g1 : C.g1 = 0
  g2 : C.g2 = 0
  g3 : C.g3 = 0
  sg : C.selfGravity = false

/-- No forces but self-gravity. -/
structure OnlyGravity (C : Conf) : Prop where
  g1 : C.g1 = 0
  g2 : C.g2 = 0
  g3 : C.g3 = 0
  gm : C.gm = 0
  oa : C.oa = false
  om : C.Omega = 0
  sg : C.selfGravity = true

end Verif.SrcTerms
