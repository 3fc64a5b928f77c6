import Verif.Model.SrHydro
import Mathlib.Algebra.BigOperators.Fin

/-!
# Specification of special relativistic hydrodynamics

The four-velocity, the stress-energy tensor of a perfect fluid in flat space-time, and the states to which the
theorems apply.
-/
namespace Verif.Sr

/-- The Minkowski metric, signature `-+++`. -/
def eta (m n : Fin 4) : ℝ := if m = n then (if m = 0 then -1 else 1) else 0

/-- `U` is the four-velocity of `w`: future directed, of square -1, with the given spatial components. -/
structure FourVel (w : Prim) (U : Fin 4 → ℝ) : Prop where
  x : U 1 = w.u1
  y : U 2 = w.u2
  z : U 3 = w.u3
  future : 0 < U 0
  unit : ∑ m, ∑ n, eta m n * U m * U n = -1

/-- Enthalpy per volume of an ideal gas: rest mass, internal energy `p/(gamma-1)` and pressure. -/
noncomputable def enth (gamma : ℝ) (w : Prim) : ℝ := w.rho + w.p / (gamma - 1) + w.p

/-- The stress-energy tensor of a perfect fluid. -/
noncomputable def stress (gamma : ℝ) (w : Prim) (U : Fin 4 → ℝ) (m n : Fin 4) : ℝ :=
  enth gamma w * U m * U n + w.p * eta m n

/-- A gas with positive density and pressure; `gamma ≤ 2` makes the sound speed smaller than that of light. -/
structure Phys (gamma : ℝ) (w : Prim) : Prop where
  gt : 1 < gamma
  le : gamma ≤ 2
  rho : 0 < w.rho
  p : 0 < w.p

/-- The square of the momentum. -/
def msq (q : Cons) : ℝ := q.m1 ^ 2 + q.m2 ^ 2 + q.m3 ^ 2

/-- The momentum does not exceed the limit that `ConservedToPrimitive` sets, a relative distance `10⁻¹²` below the
energy. -/
def Slow (q : Cons) : Prop := msq q ≤ (1 - 1 / 10 ^ 12) * q.e ^ 2

/-- The Lorentz factor of `w` is at most `G`. -/
def LorentzLe (w : Prim) (G : ℝ) : Prop := 1 + w.u1 ^ 2 + w.u2 ^ 2 + w.u3 ^ 2 ≤ G ^ 2

/-- The parameters of a run: floors are positive, the ceiling of the Lorentz factor is at least 1. -/
structure Par.Ok (P : Par) : Prop where
  gamma : 1 < P.gamma
  d : 0 < P.dfloor
  p : 0 < P.pfloor
  g : 1 ≤ P.gammaMax

end Verif.Sr
