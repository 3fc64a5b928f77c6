import Verif.Model.Flux
import Verif.Model.Reconstruct

/-!
# Passive scalars
(src/scalars/calculate_scalar_fluxes.cpp, src/scalars/scalar_diffusion.cpp, src/eos/eos_scalars.cpp)

Exact arithmetic in an ordered field. The reconstructions are those of `Model/Reconstruct.lean`; PPM fast, WENO and the
fourth-order corrections of the fluxes (`order == 4`) are not modelled. Loops over `n` and `i` that write each element
once are given in closed form.
-/
namespace Verif.Scalars
open Verif.Grid Verif.Recon
open Verif.Arr (loop Mem Arr store)
variable {K : Type} [Field K] [LinearOrder K]

/-- The reconstruction chosen for one direction, with the mesh (`m`), `NWAVE` and the weights it uses. -/
inductive Rec (K : Type)
  | donor
  | plm (mm flat : Bool) (m : Line K) (nwave : Int)
  | ppm (ext uniform curv : Bool) (w : Weights K)

/-- Whether `ApplyPassiveScalarFloors` is called on the interface states (the `else` branch, `order > 2`). -/
def Rec.floors : Rec K → Bool
  | .ppm .. => true
  | _ => false

/-- The work arrays `scr1_ni_`, `scr2_ni_`, `scr3_ni_` of `PiecewiseLinearX1` on entry. -/
abbrev Scratch (K : Type) := Row K × Row K × Row K

/-- The call of the reconstruction in the x1-direction (calculate_scalar_fluxes.cpp:77-89): new `rl_`, `rr_`.
`ns` is `NSCALARS`, `q` the row `r(.,k,j,.)`. -/
def recX1 (R : Rec K) (ns : Nat) (il iu : Int) (s : Scratch K) (q rl rr : Row K) : Row K × Row K :=
  match R with
  | .donor => donorX1 (ns - 1) il iu q rl rr
  | .plm mm flat m nwave => plmX1 nwave mm flat m (ns - 1) il iu q s.1 s.2.1 s.2.2 rl rr
  | .ppm ext uniform curv w => ppmX1 ext uniform curv w (ns - 1) il iu q rl rr

/-- The call in the x2-direction (calculate_scalar_fluxes.cpp:172-184) or the x3-direction (`third`, 287-299); `q c` is the row
`r(.,k,c,.)` or `r(.,c,j,.)`. -/
def recT (third : Bool) (R : Rec K) (ns : Nat) (il iu c : Int) (q : Int → Row K) (rl rr : Row K) : Row K × Row K :=
  match R with
  | .donor => donorT (ns - 1) il iu (q c) rl rr
  | .plm mm flat m _ => if third then plmX3 mm flat m c (ns - 1) il iu q rl rr else plmX2 mm flat m c (ns - 1) il iu q rl rr
  | .ppm ext uniform curv w => ppmT ext uniform (curv && !third) w c (ns - 1) il iu q rl rr

/-- `ApplyPassiveScalarFloors` on a row (eos_scalars.cpp:161-173, called in the loops of
calculate_scalar_fluxes.cpp:90-96, 185-189, 208-213, 300-304, 323-328). -/
def floorRow (on : Bool) (fl : K) (ns : Nat) (il iu : Int) (q : Row K) : Row K := fun n i =>
  if on = true ∧ 0 ≤ n ∧ n ≤ ns - 1 ∧ il ≤ i ∧ i ≤ iu then (if q n i > fl then q n i else fl) else q n i

/-- `ComputeUpwindFlux` (calculate_scalar_fluxes.cpp:399-417). -/
def upwind (ns : Nat) (k j il iu : Int) (rl rr : Row K) (mass : A3 K) (f : A4 K) : A4 K := fun p =>
  if 0 ≤ p.1 ∧ p.1 ≤ ns - 1 ∧ p.2.1 = k ∧ p.2.2.1 = j ∧ il ≤ p.2.2.2 ∧ p.2.2.2 ≤ iu then
    let fluid := mass (k, j, p.2.2.2)
    if fluid ≥ 0 then fluid * rl p.1 p.2.2.2 else fluid * rr p.1 p.2.2.2
  else f p

/-- The arrays `rl_`, `rr_`, `rlb_` and the flux being written. -/
structure Work (K : Type) where
  rl : Row K
  rr : Row K
  rlb : Row K
  f : A4 K

/-- The i-direction (calculate_scalar_fluxes.cpp:60-110) for `order` 1, 2 or 3. -/
def sweepX1 (d : Dims) (ns : Nat) (R : Rec K) (fl : K) (scr : Int → Int → Scratch K) (r : A4 K) (mass : A3 K) :
    Work K → Work K :=
  let jl := if d.nx2 > 1 then d.js - 1 else d.js
  let ju := if d.nx2 > 1 then d.je + 1 else d.je
  let kl := if d.nx2 > 1 ∧ d.nx3 > 1 then d.ks - 1 else d.ks
  let ku := if d.nx2 > 1 ∧ d.nx3 > 1 then d.ke + 1 else d.ke
  loop kl ku fun k => loop jl ju fun j => fun st =>
    let q := recX1 R ns (d.is - 1) (d.ie + 1) (scr k j) (fun n i => r (n, k, j, i)) st.rl st.rr
    let rl := floorRow R.floors fl ns d.is (d.ie + 1) q.1
    let rr := floorRow R.floors fl ns d.is (d.ie + 1) q.2
    { st with rl := rl, rr := rr, f := upwind ns k j d.is (d.ie + 1) rl rr mass st.f }

/-- The j-direction (calculate_scalar_fluxes.cpp:153-232). -/
def sweepX2 (d : Dims) (ns : Nat) (R : Rec K) (fl : K) (r : A4 K) (mass : A3 K) : Work K → Work K :=
  let il := d.is - 1
  let iu := d.ie + 1
  let kl := if d.nx3 > 1 then d.ks - 1 else d.ks
  let ku := if d.nx3 > 1 then d.ke + 1 else d.ke
  loop kl ku fun k => fun st =>
    let q0 := recT false R ns il iu (d.js - 1) (fun j n i => r (n, k, j, i)) st.rl st.rr
    loop d.js (d.je + 1) (fun j => fun st =>
      let q := recT false R ns il iu j (fun j n i => r (n, k, j, i)) st.rlb st.rr
      let rlb := floorRow R.floors fl ns il iu q.1
      let rr := floorRow R.floors fl ns il iu q.2
      { rl := rlb, rlb := st.rl, rr := rr, f := upwind ns k j il iu st.rl rr mass st.f })
      { st with rl := floorRow R.floors fl ns il iu q0.1, rr := q0.2 }

/-- The k-direction (calculate_scalar_fluxes.cpp:273-347). -/
def sweepX3 (d : Dims) (ns : Nat) (R : Rec K) (fl : K) (r : A4 K) (mass : A3 K) : Work K → Work K :=
  let il := d.is - 1
  let iu := d.ie + 1
  loop (d.js - 1) (d.je + 1) fun j => fun st =>
    let q0 := recT true R ns il iu (d.ks - 1) (fun k n i => r (n, k, j, i)) st.rl st.rr
    loop d.ks (d.ke + 1) (fun k => fun st =>
      let q := recT true R ns il iu k (fun k n i => r (n, k, j, i)) st.rlb st.rr
      let rlb := floorRow R.floors fl ns il iu q.1
      let rr := floorRow R.floors fl ns il iu q.2
      { rl := rlb, rlb := st.rl, rr := rr, f := upwind ns k j il iu st.rl rr mass st.f })
      { st with rl := floorRow R.floors fl ns il iu q0.1, rr := q0.2 }

/-- `mass_flux.InitWithShallowSlice(hyd.flux[..], 4, IDN, 1)` (calculate_scalar_fluxes.cpp:50, 158, 278). -/
def massOf (f : A4 K) : A3 K := fun p => f (0, p)

/-- `PassiveScalars::CalculateFluxes(r, order)` (calculate_scalar_fluxes.cpp:41-391) without the diffusive part: the new
`s_flux`. `H` are the fluxes of the hydrodynamic variables, `F0` the old `s_flux`; `a`, `b`, `c` the contents of the work
rows at the start. -/
def calculateFluxes (d : Dims) (ns : Nat) (R1 R2 R3 : Rec K) (fl : K) (scr : Int → Int → Scratch K) (r : A4 K)
    (H F0 : Flx K) (a b c : Row K) : Flx K :=
  let s1 := sweepX1 d ns R1 fl scr r (massOf H.x1) ⟨a, b, c, F0.x1⟩
  let s2 := if d.nx2 > 1 then sweepX2 d ns R2 fl r (massOf H.x2) { s1 with f := F0.x2 } else { s1 with f := F0.x2 }
  let s3 := if d.nx3 > 1 then sweepX3 d ns R3 fl r (massOf H.x3) { s2 with f := F0.x3 } else { s2 with f := F0.x3 }
  ⟨s1.f, s2.f, s3.f⟩

/-! ## Diffusion -/

/-- Distances and scale factors used by the diffusive fluxes: `dx1v`, `dx2v`, `dx3v`, `h2v`, `h31v`, `h32v`. -/
structure Metric (K : Type) where
  dx1v : Int → K
  dx2v : Int → K
  dx3v : Int → K
  h2v : Int → K
  h31v : Int → K
  h32v : Int → K

/-- `DiffusiveFluxIso` (scalar_diffusion.cpp:67-158) on cleared arrays (time_integrator.cpp:2494-2500); `mag` is
`MAGNETIC_FIELDS_ENABLED`, `rho` the array `w(IDN,.,.,.)`. -/
def diffusiveFlux (d : Dims) (ns : Nat) (mag : Bool) (M : Metric K) (nu : K) (r : A4 K) (rho : A3 K) : Flx K :=
  let act : Int → Prop := fun n => 0 ≤ n ∧ n ≤ ns - 1
  let g2 : Int := if mag = true ∧ d.nx2 > 1 then 1 else 0
  let g3 : Int := if mag = true ∧ d.nx3 > 1 then 1 else 0
  let g1 : Int := if mag = true then 1 else 0
  { x1 := fun p =>
      if act p.1 ∧ d.ks - g3 ≤ p.2.1 ∧ p.2.1 ≤ d.ke + g3 ∧ d.js - g2 ≤ p.2.2.1 ∧ p.2.2.1 ≤ d.je + g2 ∧
          d.is ≤ p.2.2.2 ∧ p.2.2.2 ≤ d.ie + 1 then
        let n := p.1; let k := p.2.1; let j := p.2.2.1; let i := p.2.2.2
        0 - nu * (1 / 2 * (rho (k, j, i) + rho (k, j, i - 1))) * ((r (n, k, j, i) - r (n, k, j, i - 1)) / M.dx1v (i - 1))
      else 0
    x2 := fun p =>
      if d.nx2 > 1 ∧ act p.1 ∧ d.ks - g3 ≤ p.2.1 ∧ p.2.1 ≤ d.ke + g3 ∧ d.js ≤ p.2.2.1 ∧ p.2.2.1 ≤ d.je + 1 ∧
          d.is - g1 ≤ p.2.2.2 ∧ p.2.2.2 ≤ d.ie + g1 then
        let n := p.1; let k := p.2.1; let j := p.2.2.1; let i := p.2.2.2
        0 - nu * (1 / 2 * (rho (k, j, i) + rho (k, j - 1, i)))
          * ((r (n, k, j, i) - r (n, k, j - 1, i)) / M.h2v i / M.dx2v (j - 1))
      else 0
    x3 := fun p =>
      if d.nx3 > 1 ∧ act p.1 ∧ d.ks ≤ p.2.1 ∧ p.2.1 ≤ d.ke + 1 ∧ d.js - g2 ≤ p.2.2.1 ∧ p.2.2.1 ≤ d.je + g2 ∧
          d.is - g1 ≤ p.2.2.2 ∧ p.2.2.2 ≤ d.ie + g1 then
        let n := p.1; let k := p.2.1; let j := p.2.2.1; let i := p.2.2.2
        0 - nu * (1 / 2 * (rho (k, j, i) + rho (k - 1, j, i)))
          * ((r (n, k, j, i) - r (n, k - 1, j, i)) / M.dx3v (k - 1) / M.h31v i / M.h32v j)
      else 0 }

/-- `AddDiffusionFluxes` (scalar_diffusion.cpp:36-61). -/
def addDiffusion (d : Dims) (D F : Flx K) : Flx K :=
  ⟨fun p => F.x1 p + D.x1 p, if d.nx2 > 1 then fun p => F.x2 p + D.x2 p else F.x2,
    if d.nx3 > 1 then fun p => F.x3 p + D.x3 p else F.x3⟩

/-! ## Conversion -/

/-- `PassiveScalarConservedToPrimitive` in one cell (eos_scalars.cpp:31-60): the new `s` and `r`; `d` is the density. -/
def consToPrim (fl d s : K) : K × K :=
  let s := if s < fl * d then fl * d else s
  (s, s / d)

/-- `PassiveScalarPrimitiveToConserved` in one cell (eos_scalars.cpp:133-152). -/
def primToCons (r d : K) : K := r * d

/-- `ApplyPassiveScalarFloors(r, n, k, j, i)` (eos_scalars.cpp:161-173): it uses the indices `(n, i)` whatever the rank
of the array. -/
def applyFloor (a : Arr) (fl : K) (n i : Int) (m : Mem K) : Mem K :=
  store m (a.at2 n i) (if m (a.at2 n i) > fl then m (a.at2 n i) else fl)

/-- The last loop of `PassiveScalarConservedToPrimitiveCellAverage` (eos_scalars.cpp:104-121): `val` is
`r_cc + C*laplacian_cc`, `a` the array `r`. -/
def cellAverage (a : Arr) (fl : K) (ns : Nat) (kl ku jl ju il iu : Int) (val : Int → Int → Int → Int → K) : Mem K → Mem K :=
  loop 0 (ns - 1) fun n => loop kl ku fun k => loop jl ju fun j => loop il iu fun i => fun m =>
    applyFloor a fl n i (store m (a.at4 n k j i) (val n k j i))

/-! ## One stage -/

/-- `CalculateHydroFlux`/`CalculateScalarFlux` and the divergence added by `IntegrateHydro`/`IntegrateScalars` with weight
`dt` (time_integrator.cpp:1695-1709, 2329-2342, 1797-1847, 2376-2422) as a function of the pair of `u` and `s`. `fill` is what
the boundary exchange and the boundary functions make of the interior data (ghost cells included), `hyd low` the mass and
other fluxes of the Riemann solver (arbitrary); `low` selects donor cell. The result is the change of `(u, s)` per step. -/
def fluxDivergence (d : Dims) (ns nh : Nat) (R1 R2 R3 : Rec K) (fl : K) (scr : Int → Int → Scratch K) (G : Geom K)
    (F0 : Flx K) (a b c : Row K) (dt : K) (fill : A4 K × A4 K → A4 K × A4 K) (hyd : Bool → A4 K × A4 K → Flx K)
    (low : Bool) (us : A4 K × A4 K) : A4 K × A4 K :=
  let f := fill us
  let r : A4 K := fun p => (consToPrim fl (f.1 (0, p.2)) (f.2 p)).2
  let H := hyd low us
  let S := if low then calculateFluxes d ns .donor .donor .donor fl scr r H F0 a b c
    else calculateFluxes d ns R1 R2 R3 fl scr r H F0 a b c
  (addFluxDivergence d nh G H dt (fun _ => 0), addFluxDivergence d ns G S dt (fun _ => 0))

end Verif.Scalars
