import Verif.Model.RadAngles

/-!
# What a quadrature over directions has to do
-/

namespace Verif.Rad.Spec

/-- `Σ w f(μ)`. -/
def quad (l : List Ray) (f : Ray → ℝ) : ℝ := (l.map fun r => r.w * f r).sum

/-- Isotropic up to second moments: for an isotropic intensity one the energy density is one,
the flux vanishes and the pressure tensor is a third of the unit tensor. -/
structure Isotropic (l : List Ray) : Prop where
  energy : quad l (fun _ => 1) = 1
  flux_x : quad l (fun r => r.x) = 0
  flux_y : quad l (fun r => r.y) = 0
  flux_z : quad l (fun r => r.z) = 0
  pxx : quad l (fun r => r.x * r.x) = 1 / 3
  pyy : quad l (fun r => r.y * r.y) = 1 / 3
  pzz : quad l (fun r => r.z * r.z) = 1 / 3
  pxy : quad l (fun r => r.x * r.y) = 0
  pxz : quad l (fun r => r.x * r.z) = 0
  pyz : quad l (fun r => r.y * r.z) = 0

/-- The same in the plane, where only two components are kept. -/
structure IsotropicPlane (l : List Ray) : Prop where
  energy : quad l (fun _ => 1) = 1
  flux_x : quad l (fun r => r.x) = 0
  flux_y : quad l (fun r => r.y) = 0
  pxx : quad l (fun r => r.x * r.x) = 1 / 3
  pyy : quad l (fun r => r.y * r.y) = 1 / 3
  pxy : quad l (fun r => r.x * r.y) = 0

/-- All directions are unit vectors. -/
def Unit (l : List Ray) : Prop := ∀ r ∈ l, r.x * r.x + r.y * r.y + r.z * r.z = 1

end Verif.Rad.Spec
