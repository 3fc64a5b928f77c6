import Verif.Model.Eos

/-!
Conversions for a general equation of state, eos/general/general_hydro.cpp and general_mhd.cpp. The
functions `PresFromRhoEg` and `EgasFromRhoP` are parameters (`pres`, `eg`). Bodies of the loops for one
cell; the loops themselves are those of Model/Eos.lean (`cells`).
-/

namespace Verif.GenEos
open Verif.Eos (Col magP)

/-- `density_floor_`, `energy_floor_`, `pressure_floor_`. -/
structure Par (K : Type) where
  dfloor : K
  efloor : K
  pfloor : K

section
variable {K : Type} [Field K] [LinearOrder K]

/-- The floors in the constructor, general_hydro.cpp:47-55: `e` and `p` are the parameters `efloor`
and `pfloor` if they exist, `tiny` the default, `gamma` the parameter of this name (default 2). -/
def floors (gamma dfloor tiny : K) (e p : Option K) : Par K :=
  match e with
  | some e => ⟨dfloor, e, p.getD (e * (gamma - 1))⟩
  | none => ⟨dfloor, p.getD tiny / (gamma - 1), p.getD tiny⟩

/-- `ConservedToPrimitive`, general_hydro.cpp:82-109, general_mhd.cpp:85-116: new conserved and
primitive variables. -/
def toPrim (q : Par K) (pres : K → K → K) (mag : Bool) (b u w : Col K) : Col K × Col K :=
  let ud := if u 0 > q.dfloor then u 0 else q.dfloor
  let di := 1 / ud
  let ke := 1/2 * di * (u 1 ^ 2 + u 2 ^ 2 + u 3 ^ 2)
  let pb := magP mag b
  let ue := if u 4 - ke - pb > q.efloor then u 4 else q.efloor + ke + pb
  (Function.update (Function.update u 0 ud) 4 ue,
   Function.update (Function.update (Function.update (Function.update (Function.update w 0 ud)
    1 (u 1 * di)) 2 (u 2 * di)) 3 (u 3 * di)) 4 (pres ud (ue - ke - pb)))

/-- `PrimitiveToConserved`, general_hydro.cpp:135-152, general_mhd.cpp:142-164. -/
def toCons (eg : K → K → K) (mag : Bool) (b w u : Col K) : Col K :=
  Function.update (Function.update (Function.update (Function.update (Function.update u 0 (w 0))
    1 (w 1 * w 0)) 2 (w 2 * w 0)) 3 (w 3 * w 0)) 4
    (eg (w 0) (w 4) + 1/2 * (w 0 * (w 1 ^ 2 + w 2 ^ 2 + w 3 ^ 2)
      + if mag then b 0 ^ 2 + b 1 ^ 2 + b 2 ^ 2 else 0))

/-- `ApplyPrimitiveConservedFloors`, general_hydro.cpp:189-207, general_mhd.cpp:214-239: new primitive
and conserved variables. -/
def primConsFloors (q : Par K) (mag : Bool) (b w u : Col K) : Col K × Col K :=
  let wd := if w 0 > q.dfloor then w 0 else q.dfloor
  let ek := 1/2 * wd * (w 1 ^ 2 + w 2 ^ 2 + w 3 ^ 2)
  (Function.update (Function.update w 0 wd) 4 (if w 4 > q.pfloor then w 4 else q.pfloor),
   Function.update (Function.update u 0 wd) 4
    (if w 4 > q.efloor then u 4 else q.efloor + ek + magP mag b))

/-- `PresFromRhoEg` and `EgasFromRhoP` of eos/general/ideal.cpp. -/
def idealPres (gamma : K) (_rho egas : K) : K := (gamma - 1) * egas
/-- See `idealPres`. -/
def idealEg (gamma : K) (_rho pres : K) : K := pres / (gamma - 1)

end

end Verif.GenEos
