import Verif.Model.Multigrid
import Mathlib.Analysis.SpecialFunctions.Trigonometric.Basic

/-!
# Multigrid solver of self-gravity: isolated boundaries by multipole expansion

`CalculateCenterOfMass`, `CalculateMultipoleCoefficients`, `ScaleMultipoleCoefficients` (multigrid.cpp,
multigrid_driver.cpp) and the boundary functions of mgbval_multipole.cpp. The 25 coefficients are a function on the
index; the sums over threads and ranks are one sum over all MeshBlocks (sums of reals do not depend on the order).
-/
namespace Verif.Mg
open Verif.Arr (loop)
open Verif.Grid (A3)

/-- `MGCoordinates` (multigrid.hpp): positions of cell centres and faces. -/
structure MgCoord where
  x1v : ℤ → ℝ
  x2v : ℤ → ℝ
  x3v : ℤ → ℝ
  x1f : ℤ → ℝ
  x2f : ℤ → ℝ
  x3f : ℤ → ℝ

/-- The finest level of the Multigrid of one MeshBlock: active cells, coordinates, `src_`. -/
structure MpBlock where
  b : Box
  coord : MgCoord
  src : A3 ℝ

/-- `vol` (multigrid.cpp:1081-1082, 1283-1284). -/
def MpBlock.vol (m : MpBlock) : ℝ :=
  (m.coord.x1f (m.b.il + 1) - m.coord.x1f m.b.il) * (m.coord.x2f (m.b.jl + 1) - m.coord.x2f m.b.jl)
    * (m.coord.x3f (m.b.kl + 1) - m.coord.x3f m.b.kl)

/-- `mporder_` (2 or 4), `nodipole_` and `mpo_`, the origin of the expansion. -/
structure MpCfg where
  order : ℕ
  nodipole : Bool
  ox : ℝ
  oy : ℝ
  oz : ℝ

/-- The polynomials in the sums of `Multigrid::CalculateMultipoleCoefficients` (multigrid.cpp:1098-1187, 1223-1268): what
is multiplied by `s` and added to `m0, m1, ...`. -/
noncomputable def mpBasis (order : ℕ) (nodipole : Bool) (x y z : ℝ) : ℕ → ℝ :=
  let z2 := z*z
  let y2 := y*y
  let yz := y*z
  let x2 := x*x
  let xy := x*y
  let zx := z*x
  let r2 := x2 + y2 + z2
  let hx2my2 := 0.5*(x2-y2)
  let x2mty2 := x2-3.0*y2
  let tx2my2 := 3.0*x2-y2
  let fz2mr2 := 5.0*z2-r2
  let sz2mr2 := 7.0*z2-r2
  let sz2mtr2 := 7.0*z2-3.0*r2
  let dipole : ℝ → ℝ := fun v => if nodipole then 0 else v
  let high : ℝ → ℝ := fun v => if order = 4 then v else 0
  fun n => match n with
    | 0 => 1
    | 1 => dipole y
    | 2 => dipole z
    | 3 => dipole x
    | 4 => xy
    | 5 => yz
    | 6 => 3.0*z2-r2
    | 7 => zx
    | 8 => hx2my2
    | 9 => high (y*tx2my2)
    | 10 => high (xy*z)
    | 11 => high (y*fz2mr2)
    | 12 => high (z*(z2-3.0*r2))
    | 13 => high (x*fz2mr2)
    | 14 => high (z*hx2my2)
    | 15 => high (x*x2mty2)
    | 16 => high (xy*hx2my2)
    | 17 => high (yz*tx2my2)
    | 18 => high (xy*sz2mr2)
    | 19 => high (yz*sz2mtr2)
    | 20 => high (35.0*z2*z2-30.0*z2*r2+3.0*r2*r2)
    | 21 => high (zx*sz2mtr2)
    | 22 => high (hx2my2*sz2mr2)
    | 23 => high (zx*x2mty2)
    | 24 => high (0.125*(x2*x2mty2-y2*tx2my2))
    | _ => 0

/-- `Multigrid::CalculateMultipoleCoefficients` (multigrid.cpp:1071-1272): adds the sums over one MeshBlock to `mpcoeff`. -/
noncomputable def MpBlock.moments (m : MpBlock) (cfg : MpCfg) (mpcoeff : ℕ → ℝ) : ℕ → ℝ :=
  let add := loop m.b.kl m.b.ku (fun k => loop m.b.jl m.b.ju fun j => loop m.b.il m.b.iu fun i (c : ℕ → ℝ) =>
    let z := m.coord.x3v k - cfg.oz
    let y := m.coord.x2v j - cfg.oy
    let x := m.coord.x1v i - cfg.ox
    let s := m.src (k, j, i) * m.vol
    fun n => c n + s * mpBasis cfg.order cfg.nodipole x y z n) (fun _ => 0)
  fun n => mpcoeff n + add n

/-- The factors of `ScaleMultipoleCoefficients` (multigrid_driver.cpp:2239-2283). -/
noncomputable def mpScale (order n : ℕ) : ℝ :=
  let c0 := -0.25/Real.pi
  let c1 := -0.25/Real.pi
  let c2 := -0.0625/Real.pi
  let c2a := -0.75/Real.pi
  let c30 := -0.0625/Real.pi
  let c31 := -0.0625*1.5/Real.pi
  let c32 := -0.25*15.0/Real.pi
  let c33 := -0.0625*2.5/Real.pi
  let c40 := -0.0625*0.0625/Real.pi
  let c41 := -0.0625*2.5/Real.pi
  let c42 := -0.0625*5.0/Real.pi
  let c43 := -0.0625*17.5/Real.pi
  let c44 := -0.25*35.0/Real.pi
  let high : ℝ → ℝ := fun v => if order = 4 then v else 1
  match n with
    | 0 => c0
    | 1 => c1
    | 2 => c1
    | 3 => c1
    | 4 => c2a
    | 5 => c2a
    | 6 => c2
    | 7 => c2a
    | 8 => c2a
    | 9 => high c33
    | 10 => high c32
    | 11 => high c31
    | 12 => high c30
    | 13 => high c31
    | 14 => high c32
    | 15 => high c33
    | 16 => high c44
    | 17 => high c43
    | 18 => high c42
    | 19 => high c41
    | 20 => high c40
    | 21 => high c41
    | 22 => high c42
    | 23 => high c43
    | 24 => high c44
    | _ => 1

/-- `MultigridDriver::CalculateMultipoleCoefficients` (multigrid_driver.cpp:2210-2232). -/
noncomputable def mpCoeff (cfg : MpCfg) (bs : List MpBlock) : ℕ → ℝ :=
  let sum := bs.foldl (fun c m => m.moments cfg c) (fun _ => 0)
  fun n => sum n * mpScale cfg.order n

/-- `CalculateCenterOfMass` (multigrid.cpp:1277-1308): adds the sums over one MeshBlock, `(m0, m1, m2, m3)`. -/
def MpBlock.com (m : MpBlock) (c : ℝ × ℝ × ℝ × ℝ) : ℝ × ℝ × ℝ × ℝ :=
  let a := loop m.b.kl m.b.ku (fun k => loop m.b.jl m.b.ju fun j => loop m.b.il m.b.iu fun i (c : ℝ × ℝ × ℝ × ℝ) =>
    let z := m.coord.x3v k
    let y := m.coord.x2v j
    let x := m.coord.x1v i
    let s := m.src (k, j, i) * m.vol
    (c.1 + s, c.2.1 + s*y, c.2.2.1 + s*z, c.2.2.2 + s*x)) (0, 0, 0, 0)
  (c.1 + a.1, c.2.1 + a.2.1, c.2.2.1 + a.2.2.1, c.2.2.2 + a.2.2.2)

/-- `MultigridDriver::CalculateCenterOfMass` (multigrid_driver.cpp:2290-2321): the new `mpo_` (x, y, z). -/
noncomputable def centerOfMass (bs : List MpBlock) : ℝ × ℝ × ℝ :=
  let c := bs.foldl (fun c m => m.com c) (0, 0, 0, 0)
  let im := 1.0 / c.1
  (im * c.2.2.2, im * c.2.1, im * c.2.2.1)

/-- `phis` for `mporder == 2` (mgbval_multipole.cpp:45-54 and the same lines of the other five functions). -/
noncomputable def phis2 (c : ℕ → ℝ) (x y z : ℝ) : ℝ :=
  let x2 := x*x
  let y2 := y*y
  let z2 := z*z
  let xy := x*y
  let yz := y*z
  let zx := z*x
  let r2 := x2 + y2 + z2
  let ir2 := 1.0/r2
  let ir1 := Real.sqrt ir2
  let ir3 := ir2*ir1
  let ir5 := ir3*ir2
  ir1*c 0 + ir3*(c 1*y + c 2*z + c 3*x)
    + ir5*(c 4*xy + c 5*yz + (3.0*z2-r2)*c 6 + c 7*zx + c 8*0.5*(x2-y2))

/-- `phis` for `mporder == 4` (mgbval_multipole.cpp:65-86 and the same lines of the other five functions). -/
noncomputable def phis4 (c : ℕ → ℝ) (x y z : ℝ) : ℝ :=
  let x2 := x*x
  let y2 := y*y
  let z2 := z*z
  let xy := x*y
  let yz := y*z
  let zx := z*x
  let r2 := x2 + y2 + z2
  let ir2 := 1.0/r2
  let ir1 := Real.sqrt ir2
  let ir3 := ir2*ir1
  let ir5 := ir3*ir2
  let ir7 := ir5*ir2
  let ir9 := ir7*ir2
  let hx2my2 := 0.5*(x2-y2)
  let x2mty2 := x2-3.0*y2
  let tx2my2 := 3.0*x2-y2
  ir1*c 0
    + ir3*(c 1*y + c 2*z + c 3*x)
    + ir5*(c 4*xy + c 5*yz + (3.0*z2-r2)*c 6 + c 7*zx + c 8*0.5*(x2-y2))
    + ir7*(y*tx2my2*c 9 + x*x2mty2*c 15
         + xy*z*c 10 + z*hx2my2*c 14
         + (5.0*z2-r2)*(y*c 11 + x*c 13)
         + z*(z2-3.0*r2)*c 12)
    + ir9*(xy*hx2my2*c 16 + 0.125*(x2*x2mty2-y2*tx2my2)*c 24
         + yz*tx2my2*c 17 + zx*x2mty2*c 23
         + (7.0*z2-r2)*(xy*c 18 + hx2my2*c 22)
         + (7.0*z2-3.0*r2)*(yz*c 19 + zx*c 21)
         + (35.0*z2*z2-30.0*z2*r2+3.0*r2*r2)*c 20)

/-- The branch on `mporder`; for other orders the boundary functions do nothing, which `MGGravityDriver` excludes
(mg_gravity.cpp:103-111). -/
noncomputable def phisOf (order : ℕ) (c : ℕ → ℝ) (x y z : ℝ) : ℝ := if order = 2 then phis2 c x y z else phis4 c x y z

/-- `MGMultipoleInnerX1` (mgbval_multipole.cpp:28-87). -/
noncomputable def mpInnerX1 (cfg : MpCfg) (co : MgCoord) (c : ℕ → ℝ) (b : Box) (dst : A3 ℝ) : A3 ℝ :=
  let i := b.il
  let x := co.x1f (b.il) - cfg.ox
  loop b.kl b.ku (fun k => loop b.jl b.ju fun j dst =>
    let z := co.x3v k - cfg.oz
    let y := co.x2v j - cfg.oy
    Function.update dst (k, j, i - 1) (2.0 * phisOf cfg.order c x y z - dst (k, j, i))) dst

/-- `MGMultipoleOuterX1` (mgbval_multipole.cpp:97-156). -/
noncomputable def mpOuterX1 (cfg : MpCfg) (co : MgCoord) (c : ℕ → ℝ) (b : Box) (dst : A3 ℝ) : A3 ℝ :=
  let i := b.iu
  let x := co.x1f (b.iu + 1) - cfg.ox
  loop b.kl b.ku (fun k => loop b.jl b.ju fun j dst =>
    let z := co.x3v k - cfg.oz
    let y := co.x2v j - cfg.oy
    Function.update dst (k, j, i + 1) (2.0 * phisOf cfg.order c x y z - dst (k, j, i))) dst

/-- `MGMultipoleInnerX2` (mgbval_multipole.cpp:167-224). -/
noncomputable def mpInnerX2 (cfg : MpCfg) (co : MgCoord) (c : ℕ → ℝ) (b : Box) (dst : A3 ℝ) : A3 ℝ :=
  let j := b.jl
  let y := co.x2f (b.jl) - cfg.oy
  loop b.kl b.ku (fun k => loop b.il b.iu fun i dst =>
    let z := co.x3v k - cfg.oz
    let x := co.x1v i - cfg.ox
    Function.update dst (k, j - 1, i) (2.0 * phisOf cfg.order c x y z - dst (k, j, i))) dst

/-- `MGMultipoleOuterX2` (mgbval_multipole.cpp:235-292). -/
noncomputable def mpOuterX2 (cfg : MpCfg) (co : MgCoord) (c : ℕ → ℝ) (b : Box) (dst : A3 ℝ) : A3 ℝ :=
  let j := b.ju
  let y := co.x2f (b.ju + 1) - cfg.oy
  loop b.kl b.ku (fun k => loop b.il b.iu fun i dst =>
    let z := co.x3v k - cfg.oz
    let x := co.x1v i - cfg.ox
    Function.update dst (k, j + 1, i) (2.0 * phisOf cfg.order c x y z - dst (k, j, i))) dst

/-- `MGMultipoleInnerX3` (mgbval_multipole.cpp:303-358). -/
noncomputable def mpInnerX3 (cfg : MpCfg) (co : MgCoord) (c : ℕ → ℝ) (b : Box) (dst : A3 ℝ) : A3 ℝ :=
  let k := b.kl
  let z := co.x3f (b.kl) - cfg.oz
  loop b.jl b.ju (fun j => loop b.il b.iu fun i dst =>
    let y := co.x2v j - cfg.oy
    let x := co.x1v i - cfg.ox
    Function.update dst (k - 1, j, i) (2.0 * phisOf cfg.order c x y z - dst (k, j, i))) dst

/-- `MGMultipoleOuterX3` (mgbval_multipole.cpp:370-425). -/
noncomputable def mpOuterX3 (cfg : MpCfg) (co : MgCoord) (c : ℕ → ℝ) (b : Box) (dst : A3 ℝ) : A3 ℝ :=
  let k := b.ku
  let z := co.x3f (b.ku + 1) - cfg.oz
  loop b.jl b.ju (fun j => loop b.il b.iu fun i dst =>
    let y := co.x2v j - cfg.oy
    let x := co.x1v i - cfg.ox
    Function.update dst (k + 1, j, i) (2.0 * phisOf cfg.order c x y z - dst (k, j, i))) dst

end Verif.Mg
