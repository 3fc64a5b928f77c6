import Verif.Model.SrRiemann
import Verif.Spec.SrHydro

/-!
# Specification of the relativistic Riemann solvers

Sound waves in a moving gas, the flux of a perfect fluid, and a fan of three waves that satisfies the jump conditions.
-/
namespace Verif.Sr

/-- The square of the sound speed in the frame of the gas. -/
noncomputable def soundSq (gamma : ℝ) (w : Prim) : ℝ := gamma * w.p / enth gamma w

/-- `lam` is the phase speed, along the first axis, of a sound wave in gas with the four-velocity `U`: the wave
`exp(i(x - lam t))` has in the frame of the gas the frequency `om = lam U⁰ - U¹` and the wave number squared
`1 - lam² + om²`, and `om` over the wave number is the sound speed. -/
def Acoustic (csq : ℝ) (U : Fin 4 → ℝ) (lam : ℝ) : Prop :=
  (lam * U 0 - U 1) ^ 2 = csq * (1 - lam ^ 2 + (lam * U 0 - U 1) ^ 2)

/-- The conserved variables: rest mass, energy and momentum per volume. -/
noncomputable def density (gamma : ℝ) (w : Prim) (U : Fin 4 → ℝ) : Cons :=
  ⟨w.rho * U 0, stress gamma w U 0 0, stress gamma w U 0 1, stress gamma w U 0 2, stress gamma w U 0 3⟩

/-- Their fluxes along the first axis. -/
noncomputable def flux (gamma : ℝ) (w : Prim) (U : Fin 4 → ℝ) : Cons :=
  ⟨w.rho * U 1, stress gamma w U 0 1, stress gamma w U 1 1, stress gamma w U 2 1, stress gamma w U 3 1⟩

/-- Conserved variables that belong to a gas of positive density and pressure satisfy this. -/
structure Adm (q : Cons) : Prop where
  d : 0 < q.d
  e : 0 < q.e
  lt : q.d ^ 2 + q.m1 ^ 2 + q.m2 ^ 2 + q.m3 ^ 2 < q.e ^ 2

/-- `sl` and `sr` are the smallest and the largest speed of the sound waves on the two sides. -/
structure Outer (gamma : ℝ) (wl wr : Prim) (Ul Ur : Fin 4 → ℝ) (sl sr : ℝ) : Prop where
  inl : Acoustic (soundSq gamma wl) Ul sl ∨ Acoustic (soundSq gamma wr) Ur sl
  inr : Acoustic (soundSq gamma wl) Ul sr ∨ Acoustic (soundSq gamma wr) Ur sr
  le : ∀ lam, Acoustic (soundSq gamma wl) Ul lam ∨ Acoustic (soundSq gamma wr) Ur lam → sl ≤ lam ∧ lam ≤ sr

/-- The primitives of an array of one interface. -/
def primOf (w : Nat → ℝ) : Prim := ⟨w 0, w 4, w 1, w 2, w 3⟩

/-- Component `n` of the flux along axis `m`: rest mass, momentum, energy. -/
noncomputable def axisFlux (gamma : ℝ) (w : Nat → ℝ) (U : Fin 4 → ℝ) (m : Fin 4) (n : Nat) : ℝ :=
  if n = 0 then w 0 * U m else if n = 4 then stress gamma (primOf w) U 0 m
  else stress gamma (primOf w) U (Fin.ofNat 4 n) m

/-- A solver gives the flux of the gas when both sides are equal, in each of the three directions, provided that `cond`
holds for the energy flux. -/
def Consistent (gamma : ℝ) (solver : Prim → Prim → Cons) (cond : ℝ → Prop) : Prop :=
  ∀ (w old : Nat → ℝ) (U : Fin 4 → ℝ) (m : Fin 4), m ≠ 0 → Phys gamma (primOf w) → FourVel (primOf w) U →
    cond (stress gamma (primOf w) U 0 m) →
    ∀ n, face solver m w w old n = if n < 5 then axisFlux gamma w U m n else old n

/-- Reflection at the face. -/
def Prim.mirror (w : Prim) : Prim := { w with u1 := -w.u1 }

/-- The flux seen after reflection. -/
def Cons.mirror (f : Cons) : Cons := ⟨-f.d, -f.e, f.m1, -f.m2, -f.m3⟩

/-- Flux of a gas moving with the velocity `v` along the first axis, with pressure `P`, whose conserved variables are
`u`: everything is carried along, the pressure acts on the momentum and does work. -/
def carried (v P : ℝ) (u : Cons) : Cons := ⟨v * u.d, v * u.e + P * v, v * u.m1 + P, v * u.m2, v * u.m3⟩

/-- The jump condition across a front of speed `s`. -/
def Jump (s : ℝ) (ul fl ur fr : Cons) : Prop := fr - fl = s • (ur - ul)

/-- The mean flux between two fronts of speeds `sl`, `sr`. -/
noncomputable def meanFlux (sl sr ul ur fl fr : ℝ) : ℝ := (sr * fl - sl * fr + sl * sr * (ur - ul)) / (sr - sl)

/-- `Fe` is zero or larger than the number the code takes for zero. -/
def Clear (tiny Fe : ℝ) : Prop := Fe = 0 ∨ tiny < |Fe|

/-- A fan of three waves with speeds `sl < s < sr` between the states `(Ul, Fl)` and `(Ur, Fr)`: the inner states `ul`,
`ur` move with the speed `s` of the middle wave and have the same pressure `P`, the momentum is the energy flux in
both, and the jump conditions hold at the three waves. -/
structure Fan (Ul Fl Ur Fr : Cons) (sl s sr P : ℝ) (ul ur : Cons) : Prop where
  order : sl < s ∧ s < sr
  causal : -1 < sl ∧ sr < 1
  left : Jump sl Ul Fl ul (carried s P ul)
  right : Jump sr Ur Fr ur (carried s P ur)
  middle : Jump s ul (carried s P ul) ur (carried s P ur)
  ml : ul.m1 = (carried s P ul).e
  mr : ur.m1 = (carried s P ur).e
  dl : 0 < ul.d
  dr : 0 < ur.d

end Verif.Sr
