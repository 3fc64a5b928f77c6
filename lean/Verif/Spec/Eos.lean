import Verif.Model.Eos

/-!
# Equation of state: vocabulary

What the primitive and conserved variables of a cell mean, written with the physical quantities.
-/
namespace Verif.Eos
variable {K : Type} [Field K] [LinearOrder K]

/-- The cells `kl..ku`, `jl..ju`, `il..iu`. -/
def In (kl ku jl ju il iu : Int) (c : Int × Int × Int) : Prop :=
  (kl ≤ c.1 ∧ c.1 ≤ ku) ∧ (jl ≤ c.2.1 ∧ c.2.1 ≤ ju) ∧ (il ≤ c.2.2 ∧ c.2.2 ≤ iu)

/-- The number of a variable: 0 density, 1 to 3 momentum or velocity, 4 energy or pressure (adiabatic). -/
def IsVar (ad : Bool) (n : Int) : Prop := 0 ≤ n ∧ n ≤ if ad then 4 else 3

/-- Primitive variables `w` and conserved variables `u` describe the same gas, with field `b`: equal
density, momentum = density times velocity, and total energy = internal + kinetic + magnetic. -/
structure Same (gamma : K) (ad mag : Bool) (b w u : Col K) : Prop where
  density : u 0 = w 0
  momentum : ∀ n, 1 ≤ n → n ≤ 3 → u n = w 0 * w n
  energy : ad = true → u 4 = w 4 / (gamma - 1) + w 0 * (w 1 ^ 2 + w 2 ^ 2 + w 3 ^ 2) / 2
    + if mag then (b 0 ^ 2 + b 1 ^ 2 + b 2 ^ 2) / 2 else 0

/-- A physically valid choice of parameters. -/
structure Par.Ok (p : Par K) : Prop where
  gamma : 1 < p.gamma
  dfloor : 0 < p.dfloor
  pfloor : 0 < p.pfloor

/-- Gas pressure of the conserved variables `u` at density `d`. -/
def gasP (gamma d : K) (mag : Bool) (b u : Col K) : K :=
  (gamma - 1) * (u 4 - (u 1 ^ 2 + u 2 ^ 2 + u 3 ^ 2) / (2 * d)
    - if mag then (b 0 ^ 2 + b 1 ^ 2 + b 2 ^ 2) / 2 else 0)

end Verif.Eos
