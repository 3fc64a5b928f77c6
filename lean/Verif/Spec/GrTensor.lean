import Mathlib.LinearAlgebra.Matrix.NonsingularInverse
import Mathlib.LinearAlgebra.Matrix.Symmetric
import Mathlib.Analysis.SpecialFunctions.Trigonometric.Deriv

/-! # Specification vocabulary for general relativity: metrics, four-velocities, stress-energy

Indices run over `0` (time), `1`, `2`, `3`. Nothing here refers to the model of the code. -/
namespace Verif.Gr

/-- Components of a vector and of a tensor with two indices. -/
abbrev V4 := Fin 4 → ℝ
@[inherit_doc V4] abbrev M4 := Matrix (Fin 4) (Fin 4) ℝ

/-- Scalar product `g_{μν} a^μ b^ν`. -/
def dot (g : M4) (a b : V4) : ℝ := ∑ μ, ∑ ν, g μ ν * a μ * b ν

/-- `g` is symmetric and `gi` is its inverse. -/
structure IsMetric (g gi : M4) : Prop where
  sym : ∀ μ ν, g μ ν = g ν μ
  inv : g * gi = 1

/-- Metric of flat space-time in Cartesian coordinates. -/
def eta : M4 := Matrix.diagonal ![-1, 1, 1, 1]

/-- `u` is the four-velocity whose part orthogonal to the normal of the surfaces of constant time is
`uu` (the normal is proportional to `gi 0`). -/
structure FourVel (g gi : M4) (uu u : V4) : Prop where
  norm : dot g u u = -1
  future : 0 < u 0
  proj : ∀ i, i ≠ 0 → u i = uu i + u 0 * (gi 0 i / gi 0 0)

/-- `b` is the magnetic field in the rest frame of a fluid of four-velocity `u`, when the components
of the field in the coordinates are `B`: `b` is orthogonal to `u`, and `B^i = b^i u^0 - b^0 u^i`. -/
structure FourField (g : M4) (u B b : V4) : Prop where
  orth : dot g b u = 0
  comp : ∀ i, i ≠ 0 → b i * u 0 - b 0 * u i = B i

/-- Stress-energy tensor `T^{μν}` of a fluid of enthalpy `w` (per volume) and pressure `p` with the
field `b`. -/
noncomputable def stress (g gi : M4) (w p : ℝ) (u b : V4) : M4 := fun μ ν =>
  (w + dot g b b) * u μ * u ν + (p + dot g b b / 2) * gi μ ν - b μ * b ν

/-- `T^μ_ν`. -/
def lowerSecond (g T : M4) : M4 := fun μ ν => ∑ l, g ν l * T μ l

/-- Dual of the electromagnetic field tensor, `b^μ u^ν - b^ν u^μ`. -/
def dual (u b : V4) : M4 := fun μ ν => b μ * u ν - b ν * u μ

/-- Force per volume on the momentum `m_k`: one half of `∂_k g_{μν} T^{μν}`. -/
noncomputable def force (dg T : M4) : ℝ := (∑ μ, ∑ ν, dg μ ν * T μ ν) / 2

/-- `E` holds the vectors `t`, `x`, `y`, `z` of an orthonormal frame (one in each column) and `M` the forms dual to
them: `t` points to the future and is normal to the surfaces of constant time, and `y`, `z` are tangent to the surfaces
on which the coordinate `n` is constant, from which `x` points to larger values. -/
structure Frame (g M E : M4) (n : Fin 4) : Prop where
  inv : M * E = 1
  orth : ∀ a b, dot g (fun μ => E μ a) (fun μ => E μ b) = eta a b
  time : ∀ j, j ≠ 0 → M 0 j = 0
  future : 0 < M 0 0
  tangent : E n 2 = 0 ∧ E n 3 = 0
  outward : 0 < E n 1

/-- Rate `dx^n/dt` of a point that moves at the speed `v` with respect to the observer at rest on the surface of constant
time, normal to the surfaces of constant `x^n`. -/
noncomputable def coordSpeed (gi : M4) (n : Fin 4) (v : ℝ) : ℝ :=
  (gi 0 n - v * Real.sqrt (gi 0 n^2 - gi 0 0 * gi n n)) / gi 0 0

/-- Surfaces of constant time are spacelike. -/
structure Spacelike (g gi : M4) : Prop where
  time : gi 0 0 < 0
  pos : ∀ v : V4, v 0 = 0 → v ≠ 0 → 0 < dot g v v

/-! ## Metrics -/

/-- Schwarzschild's metric: `-(1 - 2m/r) dt² + dr²/(1 - 2m/r) + r² (dθ² + sin² θ dφ²)`. -/
noncomputable def schwarzschild (m r θ : ℝ) : M4 :=
  Matrix.diagonal ![-(1 - 2*m/r), 1/(1 - 2*m/r), r^2, r^2 * Real.sin θ ^ 2]

/-- Flat space-time in the spheroidal coordinates of Kerr and Schild,
`-dt² + (dr - a sin² θ dφ)² + Σ (dθ² + sin² θ dφ²)` with `Σ = r² + a² cos² θ`. -/
noncomputable def spheroidal (a r θ : ℝ) : M4 := fun μ ν =>
  -(![1, 0, 0, 0] μ * ![1, 0, 0, 0] ν)
  + ![0, 1, 0, -(a * Real.sin θ ^ 2)] μ * ![0, 1, 0, -(a * Real.sin θ ^ 2)] ν
  + (r^2 + a^2 * Real.cos θ ^ 2) * (![0, 0, 1, 0] μ * ![0, 0, 1, 0] ν)
  + (r^2 + a^2 * Real.cos θ ^ 2) * Real.sin θ ^ 2 * (![0, 0, 0, 1] μ * ![0, 0, 0, 1] ν)

/-- Kerr's metric in the form of Kerr and Schild: the flat metric plus `2 m r / Σ` times the square of
the null form `dt + dr - a sin² θ dφ`. -/
noncomputable def kerr (m a r θ : ℝ) : M4 := fun μ ν =>
  spheroidal a r θ μ ν + 2*m*r/(r^2 + a^2 * Real.cos θ ^ 2)
    * (![1, 1, 0, -(a * Real.sin θ ^ 2)] μ * ![1, 1, 0, -(a * Real.sin θ ^ 2)] ν)

end Verif.Gr
