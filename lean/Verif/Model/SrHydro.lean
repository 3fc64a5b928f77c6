import Verif.Model.Eos
import Mathlib.Analysis.Real.Sqrt

/-!
# Equation of state of special relativistic hydrodynamics

eos/adiabatic_hydro_sr.cpp for one cell and for the loops over cells. The velocities of the primitive variables are
the spatial components of the four-velocity; the speed of light is 1. Exact real arithmetic: the tests
`std::isfinite` fail only for a quotient with divisor zero, so the ones after the iteration (lines 399-401, 407-409,
416-420) always succeed here (the divisors `a` and `gamma` are positive), and the one of line 383 is the test of its
divisor. The magnetised and the general relativistic files are not modelled.
-/
namespace Verif.Sr
open Verif.Grid
open Verif.Eos (Col col putCol cells)

/-- The data members `gamma_`, `density_floor_`, `pressure_floor_`, `gamma_max_` (adiabatic_hydro_sr.cpp:40-47). -/
structure Par where
  gamma : ℝ
  dfloor : ℝ
  pfloor : ℝ
  gammaMax : ℝ

/-- Primitive variables of a cell: `IDN`, `IPR`, `IVX`, `IVY`, `IVZ`. -/
@[ext] structure Prim where
  rho : ℝ
  p : ℝ
  u1 : ℝ
  u2 : ℝ
  u3 : ℝ

/-- Conserved variables of a cell: `IDN`, `IEN`, `IM1`, `IM2`, `IM3`. -/
@[ext] structure Cons where
  d : ℝ
  e : ℝ
  m1 : ℝ
  m2 : ℝ
  m3 : ℝ

/-- The Lorentz factor `std::sqrt(1.0 + SQR(u1) + SQR(u2) + SQR(u3))` (lines 176, 208, 251). -/
noncomputable def lorentz (u1 u2 u3 : ℝ) : ℝ := Real.sqrt (1 + u1 ^ 2 + u2 ^ 2 + u3 ^ 2)

/-- Body of `EquationOfState::PrimitiveToConserved` (adiabatic_hydro_sr.cpp:242-265). -/
noncomputable def toCons (gamma : ℝ) (w : Prim) : Cons :=
  let u0 := lorentz w.u1 w.u2 w.u3
  let wgasU0 := (w.rho + gamma / (gamma - 1) * w.p) * u0
  ⟨w.rho * u0, wgasU0 * u0 - w.p, wgasU0 * w.u1, wgasU0 * w.u2, wgasU0 * w.u3⟩

/-- The end of `ConservedToPrimitive`: the conserved variables of the final primitives
(adiabatic_hydro_sr.cpp:206-214). -/
noncomputable def reCons (gamma : ℝ) (w : Prim) : Cons :=
  let wgas := w.rho + gamma / (gamma - 1) * w.p
  let g := lorentz w.u1 w.u2 w.u3
  ⟨w.rho * g, wgas * g ^ 2 - w.p, wgas * g * w.u1, wgas * g * w.u2, wgas * g * w.u3⟩

/-! ## `ConservedToPrimitiveNormal` -/

/-- `tol`, `pgas_uniform_min`, `a_min` and the distance of `v_sq_max`, `rr_max`, `mm_sq_ee_sq_max` from 1: all `1.0e-12`
(adiabatic_hydro_sr.cpp:72, 330-334). -/
noncomputable def eps : ℝ := 1 / 10 ^ 12

/-- `a`, (NH 5.7) (lines 354-358, 403-404). -/
noncomputable def nhA (ee p : ℝ) : ℝ := max (ee + p) eps

/-- `v_sq`, (NH 5.2) and the limits (lines 363-364, 405-406). -/
noncomputable def nhV (ee mmSq p : ℝ) : ℝ := min (max (mmSq / nhA ee p ^ 2) 0) (1 - eps)

/-- `gamma = std::sqrt(gamma_sq)` (lines 365-366, 407-408). -/
noncomputable def nhGamma (ee mmSq p : ℝ) : ℝ := Real.sqrt (1 / (1 - nhV ee mmSq p))

/-- `pgas_min` (lines 345-346). -/
noncomputable def nhMin (ee : ℝ) : ℝ := max (-ee) eps

/-- Steps 1 and 2: the next pressure from the last one (lines 354-371). -/
noncomputable def nhNext (gamma dd ee mmSq p : ℝ) : ℝ :=
  let gammaSq := 1 / (1 - nhV ee mmSq p)
  let wgas := nhA ee p / gammaSq
  let rho := dd / nhGamma ee mmSq p
  max ((gamma - 1) / gamma * (wgas - rho)) (nhMin ee)

open Classical in
/-- One pass of the loop (lines 352-392) on the array `pgas`; the flag is set by `break`. -/
noncomputable def nhBody (gamma dd ee mmSq : ℝ) (n : Nat) (pgas : Nat → ℝ) : (Nat → ℝ) × Bool :=
  if n % 3 ≠ 2 then
    let pgas' := Function.update pgas ((n + 1) % 3) (nhNext gamma dd ee mmSq (pgas (n % 3)))
    (pgas', decide (pgas' ((n + 1) % 3) > nhMin ee ∧ |pgas' ((n + 1) % 3) - pgas' (n % 3)| < eps))
  else
    let rr := (pgas 2 - pgas 1) / (pgas 1 - pgas 0)
    if pgas 1 - pgas 0 = 0 ∨ |rr| > 1 - eps then (pgas, false)
    else
      let pgas' := Function.update pgas 0 (max (pgas 1 + (pgas 2 - pgas 1) / (1 - rr)) (nhMin ee))
      (pgas', decide (pgas' 0 > nhMin ee ∧ |pgas' 0 - pgas' 2| < eps))

/-- The loop `for (n = 0; n < max_iterations; ++n)` (line 352) with `fuel` passes left: the array and the value of `n`
at its end. -/
noncomputable def nhLoop (gamma dd ee mmSq : ℝ) : Nat → Nat → (Nat → ℝ) → (Nat → ℝ) × Nat
  | 0, n, pgas => (pgas, n)
  | fuel + 1, n, pgas =>
    let r := nhBody gamma dd ee mmSq n pgas
    if r.2 then (r.1, n) else nhLoop gamma dd ee mmSq fuel (n + 1) r.1

/-- `max_iterations` (line 329). -/
def maxIter : Nat := 15

/-- `ConservedToPrimitiveNormal` (adiabatic_hydro_sr.cpp:324-425): the primitives and `*p_gamma_lor`, or nothing if it
returns false. `mmSq` is `mm_vals(0,i)`, which the caller keeps apart from the components. -/
noncomputable def invert (gamma : ℝ) (q : Cons) (mmSq pgasOld : ℝ) : Option (Prim × ℝ) :=
  let r := nhLoop gamma q.d q.e mmSq maxIter 0 (fun _ => max pgasOld (nhMin q.e))
  if r.2 = maxIter then none
  else
    let p := r.1 ((r.2 + 1) % 3)
    let a := nhA q.e p
    let g := nhGamma q.e mmSq p
    some (⟨q.d / g, p, g * (q.m1 / a), g * (q.m2 / a), g * (q.m3 / a)⟩, g)

/-! ## `ConservedToPrimitive` -/

/-- What is passed to the inversion: `normal_dd_`, `normal_ee_`, `normal_mm_(1..3)`, then `normal_mm_(0)`, then
`fixed`. -/
structure Normal where
  q : Cons
  mmSq : ℝ
  fixed : Bool

open Classical in
/-- Lower limits of density and energy, upper limit of the momentum (adiabatic_hydro_sr.cpp:82-119). -/
noncomputable def limits (P : Par) (u : Cons) : Normal :=
  let mmSq := u.m1 ^ 2 + u.m2 ^ 2 + u.m3 ^ 2
  let dd := if u.d < P.dfloor then P.dfloor else u.d
  let eeMin := P.dfloor + P.pfloor / (P.gamma - 1)
  let ee := if u.e < eeMin then eeMin else u.e
  let mmSqMax := (1 - eps) * ee ^ 2
  let fx := decide (u.d < P.dfloor) || decide (u.e < eeMin)
  if mmSq > mmSqMax then
    let f := Real.sqrt (mmSqMax / mmSq)
    ⟨⟨dd, ee, u.m1 * f, u.m2 * f, u.m3 * f⟩, mmSqMax, true⟩
  else ⟨⟨dd, ee, u.m1, u.m2, u.m3⟩, mmSq, fx⟩

/-- The primitives after an inversion: those found, or the fallback state, with the Lorentz factor used by the velocity
ceiling (lines 135-142, 161-167, 175-177). -/
noncomputable def orOld (old : Prim) : Option (Prim × ℝ) → Prim × ℝ
  | some r => r
  | none => (old, lorentz old.u1 old.u2 old.u3)

/-- What the floors add to density and pressure (lines 145-148). -/
noncomputable def rhoAdd (P : Par) (w : Prim) : ℝ := max (P.dfloor - w.rho) 0
/-- See `rhoAdd`. -/
noncomputable def pAdd (P : Par) (w : Prim) : ℝ := max (P.pfloor - w.p) 0

/-- Density and energy for the second inversion (lines 150-153). -/
noncomputable def raise (P : Par) (w : Prim) (g : ℝ) (q : Cons) : Cons :=
  { q with
    d := q.d + rhoAdd P w * g
    e := q.e + ((rhoAdd P w + P.gamma / (P.gamma - 1) * pAdd P w) * g ^ 2 + pAdd P w) }

open Classical in
/-- The first inversion, and the second one if the floors in the coordinate frame act (lines 121-169). The result is
that of the last inversion, and whether `fixed` is set. -/
noncomputable def invertTwice (P : Par) (s : Normal) (old : Prim) : Option (Prim × ℝ) × Bool :=
  match invert P.gamma s.q s.mmSq old.p with
  | none => (none, true)
  | some (w, g) =>
    if rhoAdd P w > 0 ∨ pAdd P w > 0 then (invert P.gamma (raise P w g s.q) s.mmSq old.p, true)
    else (some (w, g), s.fixed)

open Classical in
/-- Velocity ceiling and floors in the fluid frame (lines 171-203); `ok` is `success`. -/
noncomputable def ceil (P : Par) (ok : Bool) (w : Prim) (g : ℝ) : Prim × Bool :=
  let f := Real.sqrt ((P.gammaMax ^ 2 - 1) / (g ^ 2 - 1))
  let v := if g > P.gammaMax then { w with u1 := w.u1 * f, u2 := w.u2 * f, u3 := w.u3 * f } else w
  let x := { v with rho := if v.rho < P.dfloor then P.dfloor else v.rho
                    p := if v.p < P.pfloor then P.pfloor else v.p }
  (if ok then x else ⟨P.dfloor, P.pfloor, 0, 0, 0⟩,
   decide (g > P.gammaMax) || decide (v.rho < P.dfloor) || decide (v.p < P.pfloor))

/-- Body of the loop of `EquationOfState::ConservedToPrimitive` (adiabatic_hydro_sr.cpp:82-216): new conserved and
primitive variables. `w` is what the array `prim` holds before. -/
noncomputable def toPrimCell (P : Par) (u : Cons) (w : Prim) : Cons × Prim :=
  let s := limits P u
  let old : Prim := ⟨max w.rho P.dfloor, max w.p P.pfloor, w.u1, w.u2, w.u3⟩
  let r := invertTwice P s old
  let x := orOld old r.1
  let y := ceil P r.1.isSome x.1 x.2
  (if r.2 || y.2 then reCons P.gamma y.1 else u, y.1)

/-! ## The loops over cells -/

/-- The primitives of a column of an array. -/
def prim (w : Col ℝ) : Prim := ⟨w 0, w 4, w 1, w 2, w 3⟩
/-- The conserved variables of a column of an array. -/
def cons (u : Col ℝ) : Cons := ⟨u 0, u 4, u 1, u 2, u 3⟩
/-- Store primitives. -/
def setPrim (w : Col ℝ) (x : Prim) : Col ℝ :=
  Function.update (Function.update (Function.update (Function.update (Function.update w 0 x.rho) 4 x.p) 1 x.u1) 2 x.u2)
    3 x.u3
/-- Store conserved variables. -/
def setCons (u : Col ℝ) (x : Cons) : Col ℝ :=
  Function.update (Function.update (Function.update (Function.update (Function.update u 0 x.d) 4 x.e) 1 x.m1) 2 x.m2)
    3 x.m3

/-- `EquationOfState::ConservedToPrimitive` (adiabatic_hydro_sr.cpp:67-220) on the arrays `cons`, `prim`. -/
noncomputable def toPrimAll (P : Par) (kl ku jl ju il iu : Int) : A4 ℝ × A4 ℝ → A4 ℝ × A4 ℝ :=
  cells kl ku jl ju il iu fun c s =>
    let r := toPrimCell P (cons (col s.1 c)) (prim (col s.2 c))
    (putCol s.1 c (setCons (col s.1 c) r.1), putCol s.2 c (setPrim (col s.2 c) r.2))

/-- `EquationOfState::PrimitiveToConserved` (adiabatic_hydro_sr.cpp:231-268). -/
noncomputable def toConsAll (P : Par) (prm : A4 ℝ) (kl ku jl ju il iu : Int) : A4 ℝ → A4 ℝ :=
  cells kl ku jl ju il iu fun c s => putCol s c (setCons (col s c) (toCons P.gamma (prim (col prm c))))

/-- `EquationOfState::ApplyPrimitiveFloors` (adiabatic_hydro_sr.cpp:434-444). -/
noncomputable def primFloors (P : Par) (w : Prim) : Prim :=
  { w with rho := if w.rho > P.dfloor then w.rho else P.dfloor, p := if w.p > P.pfloor then w.p else P.pfloor }

end Verif.Sr
