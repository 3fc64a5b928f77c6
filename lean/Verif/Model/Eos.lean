import Verif.Model.Grid
import Verif.Model.CT
import Verif.Model.Reconstruct

/-!
# Equation of state: conversions between conserved and primitive variables, and floors

Non-relativistic adiabatic and isothermal gas, with and without a magnetic field, and passive
scalars. The four files adiabatic_hydro.cpp, adiabatic_mhd.cpp, isothermal_hydro.cpp and
isothermal_mhd.cpp are one model with two switches: `ad` (adiabatic) and `mag` (magnetic field).
Arithmetic is exact, in any ordered field. Not modelled: the relativistic files (special relativity: Model/SrHydro.lean); the general
equation of state in eos/general: Model/GenEos.lean.
-/
namespace Verif.Eos
open Verif.Grid
open Verif.Arr (loop)
open Verif.Recon (Line)

/-- The data members `gamma_`, `density_floor_`, `pressure_floor_`, `scalar_floor_` (eos.hpp:160-165,
adiabatic_hydro.cpp:25-30). -/
structure Par (K : Type) where
  gamma : K
  dfloor : K
  pfloor : K
  sfloor : K

/-- The variables of one cell, indexed as in athena.hpp:120-135: `IDN` 0, `IM1`/`IVX` 1, `IM2`/`IVY` 2,
`IM3`/`IVZ` 3, `IEN`/`IPR` 4; of the field `IB1` 0, `IB2` 1, `IB3` 2. -/
abbrev Col (K : Type) := Int → K

/-- The variables of cell `(k,j,i)`. -/
def col {K : Type} (a : A4 K) (c : Int × Int × Int) : Col K := fun n => a (n, c)
/-- Store the variables of one cell. -/
def putCol {K : Type} (a : A4 K) (c : Int × Int × Int) (u : Col K) : A4 K := fun q => if q.2 = c then u q.1 else a q

section
variable {K : Type} [Field K] [LinearOrder K]

/-- `0.5*(SQR(bcc1) + SQR(bcc2) + SQR(bcc3))` (adiabatic_mhd.cpp:79); absent without field. -/
def magP (mag : Bool) (b : Col K) : K := if mag then 1/2 * (b 0 ^ 2 + b 1 ^ 2 + b 2 ^ 2) else 0

/-- Body of the loop of `EquationOfState::ConservedToPrimitive` for one cell: new conserved and
primitive variables (adiabatic_hydro.cpp:49-75, adiabatic_mhd.cpp:53-86, isothermal_hydro.cpp:42-62,
isothermal_mhd.cpp:48-68). -/
def toPrimCell (p : Par K) (ad mag : Bool) (b u w : Col K) : Col K × Col K :=
  let ud := if u 0 > p.dfloor then u 0 else p.dfloor
  let u1 := Function.update u 0 ud
  let di := 1 / ud
  let w1 := Function.update (Function.update (Function.update (Function.update w 0 ud)
    1 (u 1 * di)) 2 (u 2 * di)) 3 (u 3 * di)
  if ad then
    let gm1 := p.gamma - 1
    let pb := magP mag b
    let ek := 1/2 * di * (u 1 ^ 2 + u 2 ^ 2 + u 3 ^ 2)
    let wp := gm1 * (u 4 - ek - pb)
    (Function.update u1 4 (if wp > p.pfloor then u 4 else p.pfloor / gm1 + ek + pb),
     Function.update w1 4 (if wp > p.pfloor then wp else p.pfloor))
  else (u1, w1)

/-- Body of the loop of `EquationOfState::PrimitiveToConserved` (adiabatic_hydro.cpp:98-115,
adiabatic_mhd.cpp:112-134, isothermal_hydro.cpp:84-97, isothermal_mhd.cpp:91-104). -/
def toConsCell (p : Par K) (ad mag : Bool) (b w u : Col K) : Col K :=
  let u1 := Function.update (Function.update (Function.update (Function.update u 0 (w 0))
    1 (w 1 * w 0)) 2 (w 2 * w 0)) 3 (w 3 * w 0)
  if ad then
    let igm1 := 1 / (p.gamma - 1)
    Function.update u1 4 (w 4 * igm1 + 1/2 * (w 0 * (w 1 ^ 2 + w 2 ^ 2 + w 3 ^ 2)
      + if mag then b 0 ^ 2 + b 1 ^ 2 + b 2 ^ 2 else 0))
  else u1

/-- `ApplyPrimitiveFloors` on the states of one interface (adiabatic_hydro.cpp:133-143,
isothermal_hydro.cpp:115-122). -/
def primFloors (p : Par K) (ad : Bool) (w : Col K) : Col K :=
  let w1 := Function.update w 0 (if w 0 > p.dfloor then w 0 else p.dfloor)
  if ad then Function.update w1 4 (if w 4 > p.pfloor then w 4 else p.pfloor) else w1

/-- `ApplyPrimitiveConservedFloors` (adiabatic_hydro.cpp:149-172, adiabatic_mhd.cpp:176-206,
isothermal_hydro.cpp:129-143): new primitive and conserved variables of a cell. -/
def primConsFloors (p : Par K) (ad mag : Bool) (b w u : Col K) : Col K × Col K :=
  let wd := if w 0 > p.dfloor then w 0 else p.dfloor
  let w1 := Function.update w 0 wd
  let u1 := Function.update u 0 wd
  if ad then
    let ek := 1/2 * wd * (w 1 ^ 2 + w 2 ^ 2 + w 3 ^ 2)
    (Function.update w1 4 (if w 4 > p.pfloor then w 4 else p.pfloor),
     Function.update u1 4 (if w 4 > p.pfloor then u 4 else p.pfloor / (p.gamma - 1) + magP mag b + ek))
  else (w1, u1)

/-- The loop nest over cells used by all conversions. -/
def cells {σ : Type} (kl ku jl ju il iu : Int) (B : Int × Int × Int → σ → σ) : σ → σ :=
  loop kl ku fun k => loop jl ju fun j => loop il iu fun i => B (k, j, i)

/-- `Field::CalculateCellCenteredField` for one cell and one direction: mean of the two face values,
or linear interpolation to the cell centre (field.cpp:139-150). -/
def faceAve (uniform : Bool) (m : Line K) (i : Int) (bl br : K) : K :=
  if uniform then 1/2 * bl + 1/2 * br
  else (m.xf (i+1) - m.xv i) / m.dxf i * bl + (m.xv i - m.xf i) / m.dxf i * br

/-- Mesh data used by `CalculateCellCenteredField`: `uniform_[d]` and the coordinates of each direction. -/
structure Mesh3 (K : Type) where
  uni : Bool × Bool × Bool
  x1 : Line K
  x2 : Line K
  x3 : Line K

/-- `Field::CalculateCellCenteredField` (field.cpp:112-180). -/
def cellField (m : Mesh3 K) (bf : FF K) (kl ku jl ju il iu : Int) : A4 K → A4 K :=
  cells kl ku jl ju il iu fun c bcc =>
    putCol bcc c (Function.update (Function.update (Function.update (col bcc c)
      0 (faceAve m.uni.1 m.x1 c.2.2 (bf.x1f (c.1, c.2.1, c.2.2)) (bf.x1f (c.1, c.2.1, c.2.2 + 1))))
      1 (faceAve m.uni.2.1 m.x2 c.2.1 (bf.x2f (c.1, c.2.1, c.2.2)) (bf.x2f (c.1, c.2.1 + 1, c.2.2))))
      2 (faceAve m.uni.2.2 m.x3 c.1 (bf.x3f (c.1, c.2.1, c.2.2)) (bf.x3f (c.1 + 1, c.2.1, c.2.2))))

/-- Arrays `cons`, `prim`, `bcc`. -/
structure St (K : Type) where
  cons : A4 K
  prim : A4 K
  bcc : A4 K

/-- `EquationOfState::ConservedToPrimitive`: the cell-centred field first (only in the MHD files), then
the loop over cells (adiabatic_hydro.cpp:39-80, adiabatic_mhd.cpp:40-92, isothermal_hydro.cpp:34-66,
isothermal_mhd.cpp:38-71). -/
def toPrim (p : Par K) (ad mag : Bool) (m : Mesh3 K) (bf : FF K) (kl ku jl ju il iu : Int) (s : St K) : St K :=
  let bcc := if mag then cellField m bf kl ku jl ju il iu s.bcc else s.bcc
  cells kl ku jl ju il iu (fun c s =>
    let r := toPrimCell p ad mag (col s.bcc c) (col s.cons c) (col s.prim c)
    { s with cons := putCol s.cons c r.1, prim := putCol s.prim c r.2 }) { s with bcc := bcc }

/-- `EquationOfState::PrimitiveToConserved` (adiabatic_hydro.cpp:89-121, adiabatic_mhd.cpp:102-140,
isothermal_hydro.cpp:75-103, isothermal_mhd.cpp:82-110). -/
def toCons (p : Par K) (ad mag : Bool) (kl ku jl ju il iu : Int) (s : St K) : St K :=
  cells kl ku jl ju il iu (fun c s =>
    { s with cons := putCol s.cons c (toConsCell p ad mag (col s.bcc c) (col s.prim c) (col s.cons c)) }) s

/-- `PassiveScalarConservedToPrimitive` (eos_scalars.cpp:30-58), on the arrays `s` and `r`; `d` is `u(IDN,..)`. -/
def scalarToPrim (p : Par K) (ns : Int) (d : A3 K) (kl ku jl ju il iu : Int) (a : A4 K × A4 K) : A4 K × A4 K :=
  loop 0 (ns - 1) (fun n => cells kl ku jl ju il iu fun c a =>
    let sn := if a.1 (n, c) < p.sfloor * d c then p.sfloor * d c else a.1 (n, c)
    (Function.update a.1 (n, c) sn, Function.update a.2 (n, c) (sn / d c))) a

/-- `PassiveScalarPrimitiveToConserved` (eos_scalars.cpp:127-146). -/
def scalarToCons (ns : Int) (d : A3 K) (r : A4 K) (kl ku jl ju il iu : Int) (s : A4 K) : A4 K :=
  loop 0 (ns - 1) (fun n => cells kl ku jl ju il iu fun c s => Function.update s (n, c) (r (n, c) * d c)) s

/-! ## Fourth-order conversion -/

/-- `Coordinates::Laplacian` (coordinates.cpp:559-590) for one entry; `f2`, `f3` are `nx2 > 1`, `nx3 > 1`. The
code adds the terms of the three directions in separate loops over the same row. -/
def lapAt (f2 f3 : Bool) (m : Mesh3 K) (s : A4 K) (n : Int) (c : Int × Int × Int) : K :=
  (s (n, c.1, c.2.1, c.2.2 - 1) - 2 * s (n, c) + s (n, c.1, c.2.1, c.2.2 + 1)) / (m.x1.dxf c.2.2 * m.x1.dxf c.2.2)
  + (if f2 then (s (n, c.1, c.2.1 - 1, c.2.2) - 2 * s (n, c) + s (n, c.1, c.2.1 + 1, c.2.2))
      / (m.x2.dxf c.2.1 * m.x2.dxf c.2.1) else 0)
  + (if f3 then (s (n, c.1 - 1, c.2.1, c.2.2) - 2 * s (n, c) + s (n, c.1 + 1, c.2.1, c.2.2))
      / (m.x3.dxf c.1 * m.x3.dxf c.1) else 0)

/-- `Coordinates::Laplacian` with `nl = 0`. -/
def laplacian (f2 f3 : Bool) (m : Mesh3 K) (nu : Int) (s : A4 K) (kl ku jl ju il iu : Int) (out : A4 K) : A4 K :=
  loop 0 nu (fun n => cells kl ku jl ju il iu fun c out => Function.update out (n, c) (lapAt f2 f3 m s n c)) out

/-- `x(n,k,j,i) = y(n,k,j,i) + C*l(n,k,j,i)` for all variables and cells. -/
def axpy (nu : Int) (C : K) (y l : A4 K) (kl ku jl ju il iu : Int) (x : A4 K) : A4 K :=
  loop 0 nu (fun n => cells kl ku jl ju il iu fun c x => Function.update x (n, c) (y (n, c) + C * l (n, c))) x

/-- Scratch arrays `u_cc`, `w_cc` and the Laplacian (`scr1_nkji_`) of `Hydro`. -/
structure Scr (K : Type) where
  ucc : A4 K
  wcc : A4 K
  lap : A4 K

/-- `EquationOfState::ConservedToPrimitiveCellAverage` (eos_high_order.cpp:28-97). `NHYDRO` is 5 with and 4 without
energy. The two uses of the scratch Laplacian are separate calls, as in the code. -/
def toPrimAvg (p : Par K) (ad mag : Bool) (f2 f3 : Bool) (m : Mesh3 K) (bf : FF K)
    (kl ku jl ju il iu : Int) (s : St K) (t : Scr K) : St K × Scr K :=
  let nu := if ad then 4 else 3
  let h := m.x1.dxf il
  let C := h * h / 24
  let lap1 := laplacian f2 f3 m nu s.cons kl ku jl ju il iu t.lap
  let ucc := axpy nu (-C) s.cons lap1 kl ku jl ju il iu t.ucc
  let lap2 := laplacian f2 f3 m nu s.prim kl ku jl ju il iu lap1
  let r := toPrim p ad mag m bf kl ku jl ju il iu ⟨ucc, t.wcc, s.bcc⟩
  let prim := axpy nu C r.prim lap2 kl ku jl ju il iu s.prim
  (cells kl ku jl ju il iu (fun c s =>
    let r := primConsFloors p ad mag (col s.bcc c) (col s.prim c) (col s.cons c)
    { s with prim := putCol s.prim c r.1, cons := putCol s.cons c r.2 }) ⟨s.cons, prim, r.bcc⟩,
   ⟨r.cons, r.prim, lap2⟩)

/-- Place of element `r(n,i)` of a four-dimensional array `(n,k,j,i)` with `nx2` and `nx3` entries in the
middle dimensions: `operator()(n,i)` is `pdata_[i + nx1_*n]` (athena_arrays.hpp:130-131), the element with
`(n*nx3 + k)*nx2 + j` equal to the first argument. -/
def at2 (nx2 nx3 n i : Int) : Int × Int × Int × Int := (n / nx2 / nx3, n / nx2 % nx3, n % nx2, i)

/-- `ApplyPassiveScalarFloors` (eos_scalars.cpp:149-163) on a four-dimensional array: it writes `r(n,i)`. -/
def scalarFloor4 (p : Par K) (nx2 nx3 n i : Int) (r : A4 K) : A4 K :=
  Function.update r (at2 nx2 nx3 n i)
    (if r (at2 nx2 nx3 n i) > p.sfloor then r (at2 nx2 nx3 n i) else p.sfloor)

/-- `PassiveScalarConservedToPrimitiveCellAverage` (eos_scalars.cpp:64-122); `ucc` is the density entry left by
`ConservedToPrimitiveCellAverage`; `s`, `r` the scalar arrays and `t` the scratch arrays `s_cc`, `r_cc` and the
Laplacian. `nx2`, `nx3` are the sizes of `r` including ghost cells. -/
def scalarToPrimAvg (p : Par K) (ns nx2 nx3 : Int) (f2 f3 : Bool) (m : Mesh3 K) (d : A3 K)
    (kl ku jl ju il iu : Int) (s r : A4 K) (t : Scr K) : A4 K × Scr K :=
  let nu := ns - 1
  let h := m.x1.dxf il
  let C := h * h / 24
  let lap1 := laplacian f2 f3 m nu s kl ku jl ju il iu t.lap
  let scc := axpy nu (-C) s lap1 kl ku jl ju il iu t.ucc
  let lap2 := laplacian f2 f3 m nu r kl ku jl ju il iu lap1
  let q := scalarToPrim p ns d kl ku jl ju il iu (scc, t.wcc)
  (loop 0 nu (fun n => cells kl ku jl ju il iu fun c r =>
    scalarFloor4 p nx2 nx3 n c.2.2 (Function.update r (n, c) (q.2 (n, c) + C * lap2 (n, c)))) r,
   ⟨q.1, q.2, lap2⟩)

end
end Verif.Eos
