import Mathlib.Data.Real.Basic
import Mathlib.Algebra.BigOperators.Group.Finset.Basic
import Mathlib.Algebra.Order.Group.Abs
import Mathlib.Data.List.FinRange

/-!
# Forward Euler solver of the chemistry module

Model of `src/chemistry/forward_euler.cpp` for one cell, and of the right hand side of
`src/chemistry/network/H2.cpp`.  Arithmetic is real.  A division by zero gives infinity and is
a separate case.
-/

namespace Verif.Chem

/-- Abundances and internal energy density of a cell. -/
structure St (N : ℕ) where
  y : Fin N → ℝ
  e : ℝ

/-- `cfl_cool_sub`, `yfloor`, `nsub_max`, `small_`, `NON_BAROTROPIC_EOS`, and the network. -/
structure Par (N : ℕ) where
  cfl : ℝ
  yfloor : ℝ
  nmax : ℕ
  small : ℝ
  adiab : Bool
  rhs : (Fin N → ℝ) → ℝ → Fin N → ℝ
  edot : (Fin N → ℝ) → ℝ → ℝ

variable {N : ℕ}

open Classical in
/-- `std::abs(x/(d + small_))`; `none` is infinity (or NaN, which `std::min` drops when it is
its second argument). -/
noncomputable def timeOf (x d small : ℝ) : Option ℝ :=
  if d + small = 0 then none else some |x / (d + small)|

/-- `std::min` with infinity. -/
noncomputable def minO : Option ℝ → Option ℝ → Option ℝ
  | none, b => b
  | a, none => a
  | some a, some b => some (min a b)

/-- `Edot`, forward_euler.cpp:103, 137-139: zero, its initial value, for barotropic gas. -/
noncomputable def edotOf (P : Par N) (s : St N) : ℝ := if P.adiab then P.edot s.y s.e else 0

/-- `GetChemTime`, forward_euler.cpp:198-214; the loop starts from no limit instead of species 0. -/
noncomputable def chemTime (P : Par N) (s : St N) : Option ℝ :=
  let t := (List.finRange N).foldl
    (fun t i => minO t (timeOf (max (s.y i) P.yfloor) (P.rhs s.y s.e i) P.small)) none
  if P.adiab then minO t (timeOf s.e (edotOf P s) P.small) else t

/-- `tsub`, forward_euler.cpp:141-142. -/
noncomputable def subStep (P : Par N) (s : St N) (tleft : ℝ) : ℝ :=
  match chemTime P s with
  | none => tleft
  | some t => min (P.cfl * t) tleft

/-- `IntegrateOneSubstep`, forward_euler.cpp:220-229. -/
noncomputable def oneStep (P : Par N) (s : St N) (t : ℝ) : St N :=
  ⟨fun i => s.y i + P.rhs s.y s.e i * t, if P.adiab then s.e + edotOf P s * t else s.e⟩

open Classical in
/-- The loop `while (tnow < tend)`, forward_euler.cpp:133-156; `none` is the error of too many
substeps, `m` is how many are still allowed. -/
noncomputable def cycle (P : Par N) (tend : ℝ) : ℕ → ℝ → ℝ → St N → Option (St N)
  | m, tnow, tleft, s =>
    if tnow < tend then
      let t := subStep P s tleft
      match m with
      | 0 => none
      | m + 1 => cycle P tend m (tnow + t) (tend - (tnow + t)) (oneStep P s t)
    else some s

/-- Conserved variables of a cell: density, momentum, energy, magnetic energy of the cell
centred field (zero without fields), densities of the species. -/
structure Cell (N : ℕ) where
  d : ℝ
  m : Fin 3 → ℝ
  e : ℝ
  pb : ℝ
  s : Fin N → ℝ

/-- Kinetic plus magnetic energy, forward_euler.cpp:121-126. -/
noncomputable def mech (u : Cell N) : ℝ :=
  0.5 * (u.m 0 * u.m 0 + u.m 1 * u.m 1 + u.m 2 * u.m 2) / u.d + u.pb

/-- `ODEWrapper::Integrate` for one cell, forward_euler.cpp:113-172: `time` and `dt` are those
of the mesh; the arguments of the function are not used. -/
noncomputable def integrate (P : Par N) (sfloor time dt : ℝ) (u : Cell N) : Option (Cell N) :=
  let s0 : St N := ⟨fun i => u.s i / u.d, if P.adiab then u.e - mech u else 0⟩
  (cycle P (time + dt) P.nmax time dt s0).map fun s =>
    { u with
      s := fun i => (if s.y i < sfloor then sfloor else s.y i) * u.d
      e := if P.adiab then s.e + mech u else u.e }

/-- `ChemNetwork::RHS` of the H2 network, H2.cpp:96-106, species 0 is H and 1 is H2:
`kcr = 3 xi_cr`, `kgr = 3e-17`, `tu` is the unit of time. -/
noncomputable def h2rhs (kcr kgr nH tu : ℝ) (y : Fin 2 → ℝ) (_ : ℝ) : Fin 2 → ℝ
  | 0 => (-2 * (kgr * nH * y 0) + 2 * (kcr * y 1)) * tu
  | 1 => (kgr * nH * y 0 - kcr * y 1) * tu

end Verif.Chem
