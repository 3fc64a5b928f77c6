import Verif.Model.CT

/-!
# Physical boundary functions
(src/bvals/cc/reflect_cc.cpp, outflow_cc.cpp, polarwedge_cc.cpp, src/bvals/cc/hydro/reflect_hydro.cpp, src/bvals/fc/reflect_fc.cpp,
outflow_fc.cpp, polarwedge_fc.cpp, and `BoundaryValues::ApplyPhysicalBoundaries` in src/bvals/bvals.cpp)

User functions, radiation, cosmic rays and the `vacuum` condition (which no input selects) are not modelled.
-/
namespace Verif.Grid
open Verif.Arr (loop)
variable {K : Type}

/-- `for k for j for i: a(dst) = val(a(src))`. -/
def nest3 (k0 k1 j0 j1 i0 i1 : Int) (dst src : Int → Int → Int → Int × Int × Int) (val : K → K) : A3 K → A3 K :=
  loop k0 k1 fun k => loop j0 j1 fun j => loop i0 i1 fun i => fun a => Function.update a (dst k j i) (val (a (src k j i)))

/-- `for n for k for j for i: a(n,dst) = val(n, a(n,src))`. -/
def nest4 (nu k0 k1 j0 j1 i0 i1 : Int) (dst src : Int → Int → Int → Int × Int × Int) (val : Int → K → K) : A4 K → A4 K :=
  loop 0 nu fun n => loop k0 k1 fun k => loop j0 j1 fun j => loop i0 i1 fun i => fun a =>
    Function.update a (n, dst k j i) (val n (a (n, src k j i)))

/-- Arguments of a boundary function: index ranges of the cells and the number of ghost cells. -/
structure Arg where
  il : Int
  iu : Int
  jl : Int
  ju : Int
  kl : Int
  ku : Int
  ngh : Int

section cc
/-! Cell-centred variables. `val` is the identity in reflect_cc.cpp and outflow_cc.cpp; in reflect_hydro.cpp it negates the velocity normal to
the boundary; in polarwedge_cc.cpp it multiplies by the sign of `flip_across_pole_`. -/
variable (nu : Int) (a : Arg) (val : Int → K → K)
/-- `ReflectInnerX1` (reflect_cc.cpp:22-36, reflect_hydro.cpp:24-48). -/
def ccReflI1 := nest4 nu a.kl a.ku a.jl a.ju 1 a.ngh (fun k j i => (k, j, a.il-i)) (fun k j i => (k, j, a.il+i-1)) val
/-- `ReflectOuterX1` (reflect_cc.cpp:43-57, reflect_hydro.cpp:55-80). -/
def ccReflO1 := nest4 nu a.kl a.ku a.jl a.ju 1 a.ngh (fun k j i => (k, j, a.iu+i)) (fun k j i => (k, j, a.iu-i+1)) val
/-- `ReflectInnerX2` (reflect_cc.cpp:63-77, reflect_hydro.cpp:87-112), `PolarWedgeInnerX2` (polarwedge_cc.cpp:23-38). -/
def ccReflI2 := nest4 nu a.kl a.ku 1 a.ngh a.il a.iu (fun k j i => (k, a.jl-j, i)) (fun k j i => (k, a.jl+j-1, i)) val
/-- `ReflectOuterX2` (reflect_cc.cpp:83-97, reflect_hydro.cpp:119-144), `PolarWedgeOuterX2` (polarwedge_cc.cpp:45-60). -/
def ccReflO2 := nest4 nu a.kl a.ku 1 a.ngh a.il a.iu (fun k j i => (k, a.ju+j, i)) (fun k j i => (k, a.ju-j+1, i)) val
/-- `ReflectInnerX3` (reflect_cc.cpp:103-117, reflect_hydro.cpp:151-176). -/
def ccReflI3 := nest4 nu 1 a.ngh a.jl a.ju a.il a.iu (fun k j i => (a.kl-k, j, i)) (fun k j i => (a.kl+k-1, j, i)) val
/-- `ReflectOuterX3` (reflect_cc.cpp:123-137, reflect_hydro.cpp:183-208). -/
def ccReflO3 := nest4 nu 1 a.ngh a.jl a.ju a.il a.iu (fun k j i => (a.ku+k, j, i)) (fun k j i => (a.ku-k+1, j, i)) val
/-- `OutflowInnerX1` (outflow_cc.cpp:22-36). -/
def ccOutI1 := nest4 nu a.kl a.ku a.jl a.ju 1 a.ngh (fun k j i => (k, j, a.il-i)) (fun k j _ => (k, j, a.il)) (fun (_ : Int) (x : K) => x)
/-- `OutflowOuterX1` (outflow_cc.cpp:43-57). -/
def ccOutO1 := nest4 nu a.kl a.ku a.jl a.ju 1 a.ngh (fun k j i => (k, j, a.iu+i)) (fun k j _ => (k, j, a.iu)) (fun (_ : Int) (x : K) => x)
/-- `OutflowInnerX2` (outflow_cc.cpp:63-77). -/
def ccOutI2 := nest4 nu a.kl a.ku 1 a.ngh a.il a.iu (fun k j i => (k, a.jl-j, i)) (fun k _ i => (k, a.jl, i)) (fun (_ : Int) (x : K) => x)
/-- `OutflowOuterX2` (outflow_cc.cpp:83-97). -/
def ccOutO2 := nest4 nu a.kl a.ku 1 a.ngh a.il a.iu (fun k j i => (k, a.ju+j, i)) (fun k _ i => (k, a.ju, i)) (fun (_ : Int) (x : K) => x)
/-- `OutflowInnerX3` (outflow_cc.cpp:103-117). -/
def ccOutI3 := nest4 nu 1 a.ngh a.jl a.ju a.il a.iu (fun k j i => (a.kl-k, j, i)) (fun _ j i => (a.kl, j, i)) (fun (_ : Int) (x : K) => x)
/-- `OutflowOuterX3` (outflow_cc.cpp:123-137). -/
def ccOutO3 := nest4 nu 1 a.ngh a.jl a.ju a.il a.iu (fun k j i => (a.ku+k, j, i)) (fun _ j i => (a.ku, j, i)) (fun (_ : Int) (x : K) => x)
end cc

section fc
/-! Face-centred field. -/
variable [Field K] (a : Arg)
/-- `ReflectInnerX1` (reflect_fc.cpp:23-53). -/
def fcReflI1 (b : FF K) : FF K where
  x1f := nest3 a.kl a.ku a.jl a.ju 1 a.ngh (fun k j i => (k, j, a.il-i)) (fun k j i => (k, j, a.il+i)) (fun x => -x) b.x1f
  x2f := nest3 a.kl a.ku a.jl (a.ju+1) 1 a.ngh (fun k j i => (k, j, a.il-i)) (fun k j i => (k, j, a.il+i-1)) id b.x2f
  x3f := nest3 a.kl (a.ku+1) a.jl a.ju 1 a.ngh (fun k j i => (k, j, a.il-i)) (fun k j i => (k, j, a.il+i-1)) id b.x3f
/-- `ReflectOuterX1` (reflect_fc.cpp:60-90). -/
def fcReflO1 (b : FF K) : FF K where
  x1f := nest3 a.kl a.ku a.jl a.ju 1 a.ngh (fun k j i => (k, j, a.iu+i+1)) (fun k j i => (k, j, a.iu-i+1)) (fun x => -x) b.x1f
  x2f := nest3 a.kl a.ku a.jl (a.ju+1) 1 a.ngh (fun k j i => (k, j, a.iu+i)) (fun k j i => (k, j, a.iu-i+1)) id b.x2f
  x3f := nest3 a.kl (a.ku+1) a.jl a.ju 1 a.ngh (fun k j i => (k, j, a.iu+i)) (fun k j i => (k, j, a.iu-i+1)) id b.x3f
/-- `ReflectInnerX2` (reflect_fc.cpp:97-125). -/
def fcReflI2 (b : FF K) : FF K where
  x1f := nest3 a.kl a.ku 1 a.ngh a.il (a.iu+1) (fun k j i => (k, a.jl-j, i)) (fun k j i => (k, a.jl+j-1, i)) id b.x1f
  x2f := nest3 a.kl a.ku 1 a.ngh a.il a.iu (fun k j i => (k, a.jl-j, i)) (fun k j i => (k, a.jl+j, i)) (fun x => -x) b.x2f
  x3f := nest3 a.kl (a.ku+1) 1 a.ngh a.il a.iu (fun k j i => (k, a.jl-j, i)) (fun k j i => (k, a.jl+j-1, i)) id b.x3f
/-- `ReflectOuterX2` (reflect_fc.cpp:132-160). -/
def fcReflO2 (b : FF K) : FF K where
  x1f := nest3 a.kl a.ku 1 a.ngh a.il (a.iu+1) (fun k j i => (k, a.ju+j, i)) (fun k j i => (k, a.ju-j+1, i)) id b.x1f
  x2f := nest3 a.kl a.ku 1 a.ngh a.il a.iu (fun k j i => (k, a.ju+j+1, i)) (fun k j i => (k, a.ju-j+1, i)) (fun x => -x) b.x2f
  x3f := nest3 a.kl (a.ku+1) 1 a.ngh a.il a.iu (fun k j i => (k, a.ju+j, i)) (fun k j i => (k, a.ju-j+1, i)) id b.x3f
/-- `ReflectInnerX3` (reflect_fc.cpp:167-195). -/
def fcReflI3 (b : FF K) : FF K where
  x1f := nest3 1 a.ngh a.jl a.ju a.il (a.iu+1) (fun k j i => (a.kl-k, j, i)) (fun k j i => (a.kl+k-1, j, i)) id b.x1f
  x2f := nest3 1 a.ngh a.jl (a.ju+1) a.il a.iu (fun k j i => (a.kl-k, j, i)) (fun k j i => (a.kl+k-1, j, i)) id b.x2f
  x3f := nest3 1 a.ngh a.jl a.ju a.il a.iu (fun k j i => (a.kl-k, j, i)) (fun k j i => (a.kl+k, j, i)) (fun x => -x) b.x3f
/-- `ReflectOuterX3` (reflect_fc.cpp:202-230). -/
def fcReflO3 (b : FF K) : FF K where
  x1f := nest3 1 a.ngh a.jl a.ju a.il (a.iu+1) (fun k j i => (a.ku+k, j, i)) (fun k j i => (a.ku-k+1, j, i)) id b.x1f
  x2f := nest3 1 a.ngh a.jl (a.ju+1) a.il a.iu (fun k j i => (a.ku+k, j, i)) (fun k j i => (a.ku-k+1, j, i)) id b.x2f
  x3f := nest3 1 a.ngh a.jl a.ju a.il a.iu (fun k j i => (a.ku+k+1, j, i)) (fun k j i => (a.ku-k+1, j, i)) (fun x => -x) b.x3f
/-- `OutflowInnerX1` (outflow_fc.cpp:23-51). -/
def fcOutI1 (b : FF K) : FF K where
  x1f := nest3 a.kl a.ku a.jl a.ju 1 a.ngh (fun k j i => (k, j, a.il-i)) (fun k j _ => (k, j, a.il)) id b.x1f
  x2f := nest3 a.kl a.ku a.jl (a.ju+1) 1 a.ngh (fun k j i => (k, j, a.il-i)) (fun k j _ => (k, j, a.il)) id b.x2f
  x3f := nest3 a.kl (a.ku+1) a.jl a.ju 1 a.ngh (fun k j i => (k, j, a.il-i)) (fun k j _ => (k, j, a.il)) id b.x3f
/-- `OutflowOuterX1` (outflow_fc.cpp:58-86). -/
def fcOutO1 (b : FF K) : FF K where
  x1f := nest3 a.kl a.ku a.jl a.ju 1 a.ngh (fun k j i => (k, j, a.iu+i+1)) (fun k j _ => (k, j, a.iu+1)) id b.x1f
  x2f := nest3 a.kl a.ku a.jl (a.ju+1) 1 a.ngh (fun k j i => (k, j, a.iu+i)) (fun k j _ => (k, j, a.iu)) id b.x2f
  x3f := nest3 a.kl (a.ku+1) a.jl a.ju 1 a.ngh (fun k j i => (k, j, a.iu+i)) (fun k j _ => (k, j, a.iu)) id b.x3f
/-- `OutflowInnerX2` (outflow_fc.cpp:93-121). -/
def fcOutI2 (b : FF K) : FF K where
  x1f := nest3 a.kl a.ku 1 a.ngh a.il (a.iu+1) (fun k j i => (k, a.jl-j, i)) (fun k _ i => (k, a.jl, i)) id b.x1f
  x2f := nest3 a.kl a.ku 1 a.ngh a.il a.iu (fun k j i => (k, a.jl-j, i)) (fun k _ i => (k, a.jl, i)) id b.x2f
  x3f := nest3 a.kl (a.ku+1) 1 a.ngh a.il a.iu (fun k j i => (k, a.jl-j, i)) (fun k _ i => (k, a.jl, i)) id b.x3f
/-- `OutflowOuterX2` (outflow_fc.cpp:128-156). -/
def fcOutO2 (b : FF K) : FF K where
  x1f := nest3 a.kl a.ku 1 a.ngh a.il (a.iu+1) (fun k j i => (k, a.ju+j, i)) (fun k _ i => (k, a.ju, i)) id b.x1f
  x2f := nest3 a.kl a.ku 1 a.ngh a.il a.iu (fun k j i => (k, a.ju+j+1, i)) (fun k _ i => (k, a.ju+1, i)) id b.x2f
  x3f := nest3 a.kl (a.ku+1) 1 a.ngh a.il a.iu (fun k j i => (k, a.ju+j, i)) (fun k _ i => (k, a.ju, i)) id b.x3f
/-- `OutflowInnerX3` (outflow_fc.cpp:163-191). -/
def fcOutI3 (b : FF K) : FF K where
  x1f := nest3 1 a.ngh a.jl a.ju a.il (a.iu+1) (fun k j i => (a.kl-k, j, i)) (fun _ j i => (a.kl, j, i)) id b.x1f
  x2f := nest3 1 a.ngh a.jl (a.ju+1) a.il a.iu (fun k j i => (a.kl-k, j, i)) (fun _ j i => (a.kl, j, i)) id b.x2f
  x3f := nest3 1 a.ngh a.jl a.ju a.il a.iu (fun k j i => (a.kl-k, j, i)) (fun _ j i => (a.kl, j, i)) id b.x3f
/-- `OutflowOuterX3` (outflow_fc.cpp:198-226). -/
def fcOutO3 (b : FF K) : FF K where
  x1f := nest3 1 a.ngh a.jl a.ju a.il (a.iu+1) (fun k j i => (a.ku+k, j, i)) (fun _ j i => (a.ku, j, i)) id b.x1f
  x2f := nest3 1 a.ngh a.jl (a.ju+1) a.il a.iu (fun k j i => (a.ku+k, j, i)) (fun _ j i => (a.ku, j, i)) id b.x2f
  x3f := nest3 1 a.ngh a.jl a.ju a.il a.iu (fun k j i => (a.ku+k+1, j, i)) (fun _ j i => (a.ku+1, j, i)) id b.x3f
/-- `PolarWedgeInnerX2` (polarwedge_fc.cpp:23-59); `flip_across_pole_field` is `{false, true, true}` (bvals_interfaces.hpp:97). -/
def fcWedgeI2 (b : FF K) : FF K where
  x1f := nest3 a.kl a.ku 1 a.ngh a.il (a.iu+1) (fun k j i => (k, a.jl-j, i)) (fun k j i => (k, a.jl+j-1, i)) (fun x => 1 * x) b.x1f
  x2f := nest3 a.kl a.ku 0 0 a.il a.iu (fun k _ i => (k, a.jl, i)) (fun k _ i => (k, a.jl, i)) (fun _ => 0)
    (nest3 a.kl a.ku 1 a.ngh a.il a.iu (fun k j i => (k, a.jl-j, i)) (fun k j i => (k, a.jl+j, i)) (fun x => -1 * x) b.x2f)
  x3f := nest3 a.kl (a.ku+1) 1 a.ngh a.il a.iu (fun k j i => (k, a.jl-j, i)) (fun k j i => (k, a.jl+j-1, i)) (fun x => -1 * x) b.x3f
/-- `PolarWedgeOuterX2` (polarwedge_fc.cpp:67-103). -/
def fcWedgeO2 (b : FF K) : FF K where
  x1f := nest3 a.kl a.ku 1 a.ngh a.il (a.iu+1) (fun k j i => (k, a.ju+j, i)) (fun k j i => (k, a.ju-j+1, i)) (fun x => 1 * x) b.x1f
  x2f := nest3 a.kl a.ku 0 0 a.il a.iu (fun k _ i => (k, a.ju+1, i)) (fun k _ i => (k, a.ju+1, i)) (fun _ => 0)
    (nest3 a.kl a.ku 1 a.ngh a.il a.iu (fun k j i => (k, a.ju+j+1, i)) (fun k j i => (k, a.ju-j+1, i)) (fun x => -1 * x) b.x2f)
  x3f := nest3 a.kl (a.ku+1) 1 a.ngh a.il a.iu (fun k j i => (k, a.ju+j, i)) (fun k j i => (k, a.ju-j+1, i)) (fun x => -1 * x) b.x3f
end fc

/-- The boundary conditions a block can have on a side: filled by communication (`block`, `periodic`, `polar`, `shear_periodic`; then
`apply_bndry_fn_` is false), or by a function (bvals.cpp:67-78). -/
inductive BC | comm | reflect | outflow | wedge
deriving DecidableEq, Repr

/-- `BoundaryFace`. -/
inductive Side | i1 | o1 | i2 | o2 | i3 | o3
deriving DecidableEq, Repr

/-- The arrays of a block: primitive variables `w`, field `b`, cell-centred field `bcc`, conserved variables `u`, scalars `r`. -/
structure Blk (K : Type) where
  w : A4 K
  b : FF K
  bcc : A4 K
  u : A4 K
  r : A4 K

/-- What the conversions compute at one cell: `CalculateCellCenteredField` from the six faces of cell `q` (field.cpp:112-190; the weights depend on
the position) and `PrimitiveToConserved` from the primitive variables and `bcc` (the equation of state; its loops treat every cell by itself).
`nu` is `NHYDRO-1`, `ns` is `NSCALARS-1`. -/
structure Conv (K : Type) where
  nu : Int
  ns : Int
  ccf : Int × Int × Int → (K × K) → (K × K) → (K × K) → Int → K
  p2c : (Int → K) → (Int → K) → Int → K

/-- The six faces of cell `(k, j, i)`. -/
def FF.around (b : FF K) (k j i : Int) : (K × K) × (K × K) × (K × K) :=
  ((b.x1f (k, j, i), b.x1f (k, j, i+1)), (b.x2f (k, j, i), b.x2f (k, j+1, i)), (b.x3f (k, j, i), b.x3f (k+1, j, i)))

/-- `CalculateCellCenteredField` on a box. All cells at once: the loops read `b` only. -/
def calcBcc (c : Conv K) (il iu jl ju kl ku : Int) (st : Blk K) : Blk K :=
  { st with bcc := fun q =>
      if (0 ≤ q.1 ∧ q.1 ≤ 2) ∧ (kl ≤ q.2.1 ∧ q.2.1 ≤ ku) ∧ (jl ≤ q.2.2.1 ∧ q.2.2.1 ≤ ju) ∧ (il ≤ q.2.2.2 ∧ q.2.2.2 ≤ iu) then
        let f := st.b.around q.2.1 q.2.2.1 q.2.2.2
        c.ccf q.2 f.1 f.2.1 f.2.2 q.1
      else st.bcc q }

/-- `PrimitiveToConserved` on a box. -/
def primToCons (c : Conv K) (il iu jl ju kl ku : Int) (st : Blk K) : Blk K :=
  { st with u := fun q =>
      if (0 ≤ q.1 ∧ q.1 ≤ c.nu) ∧ (kl ≤ q.2.1 ∧ q.2.1 ≤ ku) ∧ (jl ≤ q.2.2.1 ∧ q.2.2.1 ≤ ju) ∧ (il ≤ q.2.2.2 ∧ q.2.2.2 ≤ iu) then
        c.p2c (fun n => st.w (n, q.2)) (fun n => st.bcc (n, q.2)) q.1
      else st.u q }

variable [Field K]

/-- `-x` for the velocity normal to the boundary (IVX = 1, IVY = 2, IVZ = 3). -/
def negAt (m n : Int) (x : K) : K := if n = m then -x else x
/-- `sign * x` with `flip_across_pole_hydro = {false, false, true, true, false}` (bvals_interfaces.hpp:95). -/
def flipHydro (n : Int) (x : K) : K := (if n = 2 ∨ n = 3 then -1 else 1) * x

/-- `DispatchBoundaryFunctions` (bvals.cpp:666-812) for hydro, field and scalars. `none` is the fatal error for a polar wedge on an x1 or x3
boundary. -/
def dispatch (c : Conv K) (s : Side) (bc : BC) (a : Arg) (st : Blk K) : Option (Blk K) :=
  match s, bc with
  | .i1, .reflect => some { st with w := ccReflI1 c.nu a (negAt 1) st.w, b := fcReflI1 a st.b, r := ccReflI1 c.ns a (fun _ x => x) st.r }
  | .o1, .reflect => some { st with w := ccReflO1 c.nu a (negAt 1) st.w, b := fcReflO1 a st.b, r := ccReflO1 c.ns a (fun _ x => x) st.r }
  | .i2, .reflect => some { st with w := ccReflI2 c.nu a (negAt 2) st.w, b := fcReflI2 a st.b, r := ccReflI2 c.ns a (fun _ x => x) st.r }
  | .o2, .reflect => some { st with w := ccReflO2 c.nu a (negAt 2) st.w, b := fcReflO2 a st.b, r := ccReflO2 c.ns a (fun _ x => x) st.r }
  | .i3, .reflect => some { st with w := ccReflI3 c.nu a (negAt 3) st.w, b := fcReflI3 a st.b, r := ccReflI3 c.ns a (fun _ x => x) st.r }
  | .o3, .reflect => some { st with w := ccReflO3 c.nu a (negAt 3) st.w, b := fcReflO3 a st.b, r := ccReflO3 c.ns a (fun _ x => x) st.r }
  | .i1, .outflow => some { st with w := ccOutI1 c.nu a st.w, b := fcOutI1 a st.b, r := ccOutI1 c.ns a st.r }
  | .o1, .outflow => some { st with w := ccOutO1 c.nu a st.w, b := fcOutO1 a st.b, r := ccOutO1 c.ns a st.r }
  | .i2, .outflow => some { st with w := ccOutI2 c.nu a st.w, b := fcOutI2 a st.b, r := ccOutI2 c.ns a st.r }
  | .o2, .outflow => some { st with w := ccOutO2 c.nu a st.w, b := fcOutO2 a st.b, r := ccOutO2 c.ns a st.r }
  | .i3, .outflow => some { st with w := ccOutI3 c.nu a st.w, b := fcOutI3 a st.b, r := ccOutI3 c.ns a st.r }
  | .o3, .outflow => some { st with w := ccOutO3 c.nu a st.w, b := fcOutO3 a st.b, r := ccOutO3 c.ns a st.r }
  | .i2, .wedge => some { st with w := ccReflI2 c.nu a flipHydro st.w, b := fcWedgeI2 a st.b, r := ccReflI2 c.ns a (fun _ x => 1 * x) st.r }
  | .o2, .wedge => some { st with w := ccReflO2 c.nu a flipHydro st.w, b := fcWedgeO2 a st.b, r := ccReflO2 c.ns a (fun _ x => 1 * x) st.r }
  | _, .wedge => none
  | _, .comm => some st

/-- One side: the boundary function, then `bcc` and `u` in the ghost cells of the side, the box `g` (bvals.cpp:511-528 and so on). The conserved
scalars computed from `r` and `u` are not modelled. -/
def applySide (c : Conv K) (s : Side) (bc : BC) (a g : Arg) (st : Blk K) : Option (Blk K) :=
  if bc = .comm then some st
  else (dispatch c s bc a st).map fun st =>
    primToCons c g.il g.iu g.jl g.ju g.kl g.ku (calcBcc c g.il g.iu g.jl g.ju g.kl g.ku st)

/-- `ApplyPhysicalBoundaries` (bvals.cpp:453-661). -/
def applyPhysicalBoundaries (c : Conv K) (d : Dims) (bc : Side → BC) (st : Blk K) : Option (Blk K) :=
  let bis := d.is - d.ng; let bie := d.ie + d.ng
  let bjs := if bc .i2 = .comm ∧ d.nx2 > 1 then d.js - d.ng else d.js
  let bje := if bc .o2 = .comm ∧ d.nx2 > 1 then d.je + d.ng else d.je
  let bks := if bc .i3 = .comm ∧ d.nx3 > 1 then d.ks - d.ng else d.ks
  let bke := if bc .o3 = .comm ∧ d.nx3 > 1 then d.ke + d.ng else d.ke
  (applySide c .i1 (bc .i1) ⟨d.is, d.ie, bjs, bje, bks, bke, d.ng⟩ ⟨d.is-d.ng, d.is-1, bjs, bje, bks, bke, d.ng⟩ st).bind fun st =>
  (applySide c .o1 (bc .o1) ⟨d.is, d.ie, bjs, bje, bks, bke, d.ng⟩ ⟨d.ie+1, d.ie+d.ng, bjs, bje, bks, bke, d.ng⟩ st).bind fun st =>
  (if d.nx2 > 1 then
    (applySide c .i2 (bc .i2) ⟨bis, bie, d.js, d.je, bks, bke, d.ng⟩ ⟨bis, bie, d.js-d.ng, d.js-1, bks, bke, d.ng⟩ st).bind fun st =>
    applySide c .o2 (bc .o2) ⟨bis, bie, d.js, d.je, bks, bke, d.ng⟩ ⟨bis, bie, d.je+1, d.je+d.ng, bks, bke, d.ng⟩ st
   else some st).bind fun st =>
  if d.nx3 > 1 then
    let bjs := d.js - d.ng; let bje := d.je + d.ng
    (applySide c .i3 (bc .i3) ⟨bis, bie, bjs, bje, d.ks, d.ke, d.ng⟩ ⟨bis, bie, bjs, bje, d.ks-d.ng, d.ks-1, d.ng⟩ st).bind fun st =>
    applySide c .o3 (bc .o3) ⟨bis, bie, bjs, bje, d.ks, d.ke, d.ng⟩ ⟨bis, bie, bjs, bje, d.ke+1, d.ke+d.ng, d.ng⟩ st
  else some st

end Verif.Grid
