import Verif.Model.Coord
import Verif.Model.RiemannMhd
import Verif.Model.Eos

/-!
# Electric field at faces and edges, cell-centred field

The electric field and the weights that `Hydro::CalculateFluxes` leaves at the faces, and `Field::ComputeCornerE`
(Newtonian and special-relativistic branches), in exact arithmetic. Where one loop
of the code writes several arrays at the same place, the model has one loop per array.
-/
namespace Verif.Grid
open Verif.Arr (loop)

/-- `for k in [k0, k1], j in [j0, j1], i in [i0, i1]: a(k,j,i) = f(k,j,i)`. -/
def fill (k0 k1 j0 j1 i0 i1 : ℤ) (f : ℤ → ℤ → ℤ → ℝ) : A3 ℝ → A3 ℝ :=
  loop k0 k1 fun k => loop j0 j1 fun j => loop i0 i1 fun i a => Function.update a (k, j, i) (f k j i)

/-- `e2_x1f`, `e3_x1f`, `e1_x2f`, `e3_x2f`, `e1_x3f`, `e2_x3f` of `Field` (field.hpp:49-51). -/
structure FaceE where
  e2_x1f : A3 ℝ
  e3_x1f : A3 ℝ
  e1_x2f : A3 ℝ
  e3_x2f : A3 ℝ
  e1_x3f : A3 ℝ
  e2_x3f : A3 ℝ

/-- What a Riemann solver writes to `ey`, `ez`, `wct` at a face. -/
structure Solved where
  ey : ℝ
  ez : ℝ
  wct : ℝ

/-- The results of a solver of magnetohydrodynamics with weight `wct` (hlle_mhd.cpp:176-179). -/
def ofFlux (f : Mhd.F) (wct : ℝ) : Solved := ⟨-f.bY, f.bZ, wct⟩

/-- The arrays `CalculateFluxes` writes for the field: face-centred electric field and `wght`. -/
structure FaceOut where
  e : FaceE
  wght : FF ℝ

/-- The calls of `RiemannSolver` in `CalculateFluxes` with a magnetic field (calculate_fluxes.cpp:65-102, 169-223,
299-343); `S a k j i` is the result for direction `a` at face `(k, j, i)`. `order == 4` solves again on the same faces
(not modelled). -/
def calcFaceE (d : Dims) (S : ℕ → ℤ → ℤ → ℤ → Solved) (o : FaceOut) : FaceOut :=
  let jl := if d.nx2 > 1 then d.js - 1 else d.js
  let ju := if d.nx2 > 1 then d.je + 1 else d.je
  let kl := if d.nx2 > 1 then (if d.nx3 = 1 then d.ks else d.ks - 1) else d.ks
  let ku := if d.nx2 > 1 then (if d.nx3 = 1 then d.ke else d.ke + 1) else d.ke
  let put1 := fill kl ku jl ju d.is (d.ie + 1)
  let o := { o with
    e := { o.e with e3_x1f := put1 (fun k j i => (S 1 k j i).ey) o.e.e3_x1f
                    e2_x1f := put1 (fun k j i => (S 1 k j i).ez) o.e.e2_x1f }
    wght := { o.wght with x1f := put1 (fun k j i => (S 1 k j i).wct) o.wght.x1f } }
  let kl := if d.nx3 = 1 then d.ks else d.ks - 1
  let ku := if d.nx3 = 1 then d.ke else d.ke + 1
  let put2 := fill kl ku d.js (d.je + 1) (d.is - 1) (d.ie + 1)
  let o := if d.nx2 > 1 then { o with
    e := { o.e with e1_x2f := put2 (fun k j i => (S 2 k j i).ey) o.e.e1_x2f
                    e3_x2f := put2 (fun k j i => (S 2 k j i).ez) o.e.e3_x2f }
    wght := { o.wght with x2f := put2 (fun k j i => (S 2 k j i).wct) o.wght.x2f } } else o
  let put3 := fill d.ks (d.ke + 1) (d.js - 1) (d.je + 1) (d.is - 1) (d.ie + 1)
  if d.nx3 > 1 then { o with
    e := { o.e with e2_x3f := put3 (fun k j i => (S 3 k j i).ey) o.e.e2_x3f
                    e1_x3f := put3 (fun k j i => (S 3 k j i).ez) o.e.e1_x3f }
    wght := { o.wght with x3f := put3 (fun k j i => (S 3 k j i).wct) o.wght.x3f } } else o

/-- The right-hand sides for `cc_e_` (calculate_corner_e.cpp:82-96, 166-183); `sr` for `RELATIVISTIC_DYNAMICS`.
`GENERAL_RELATIVITY` is not modelled. -/
noncomputable def cellE (sr : Bool) (w bcc : A4 ℝ) (c : ℕ) (k j i : ℤ) : ℝ :=
  let u1 := w (1,k,j,i)
  let u2 := w (2,k,j,i)
  let u3 := w (3,k,j,i)
  let v := if c = 1 then u3 * bcc (1,k,j,i) - u2 * bcc (2,k,j,i)
    else if c = 2 then u1 * bcc (2,k,j,i) - u3 * bcc (0,k,j,i)
    else u2 * bcc (0,k,j,i) - u1 * bcc (1,k,j,i)
  if sr then v / Real.sqrt (1 + u1 ^ 2 + u2 ^ 2 + u3 ^ 2) else v

/-- `(1.0-w)*(ehi - chi) + w*(elo - clo)`. -/
def de (w ehi chi elo clo : ℝ) : ℝ := (1 - w) * (ehi - chi) + w * (elo - clo)

/-- `e1(k,j,i)` (calculate_corner_e.cpp:192-202); `cc` is `cc_e_` for this component. -/
noncomputable def corner1 (F : FaceE) (W : FF ℝ) (cc : A3 ℝ) (k j i : ℤ) : ℝ :=
  let de1_l3 := de (W.x2f (k-1,j,i)) (F.e1_x3f (k,j,i)) (cc (k-1,j,i)) (F.e1_x3f (k,j-1,i)) (cc (k-1,j-1,i))
  let de1_r3 := de (W.x2f (k,j,i)) (F.e1_x3f (k,j,i)) (cc (k,j,i)) (F.e1_x3f (k,j-1,i)) (cc (k,j-1,i))
  let de1_l2 := de (W.x3f (k,j-1,i)) (F.e1_x2f (k,j,i)) (cc (k,j-1,i)) (F.e1_x2f (k-1,j,i)) (cc (k-1,j-1,i))
  let de1_r2 := de (W.x3f (k,j,i)) (F.e1_x2f (k,j,i)) (cc (k,j,i)) (F.e1_x2f (k-1,j,i)) (cc (k-1,j,i))
  0.25 * (de1_l3 + de1_r3 + de1_l2 + de1_r2 + F.e1_x2f (k-1,j,i) + F.e1_x2f (k,j,i) + F.e1_x3f (k,j-1,i) + F.e1_x3f (k,j,i))
/-- `e2(k,j,i)` (calculate_corner_e.cpp:204-214). -/
noncomputable def corner2 (F : FaceE) (W : FF ℝ) (cc : A3 ℝ) (k j i : ℤ) : ℝ :=
  let de2_l3 := de (W.x1f (k-1,j,i)) (F.e2_x3f (k,j,i)) (cc (k-1,j,i)) (F.e2_x3f (k,j,i-1)) (cc (k-1,j,i-1))
  let de2_r3 := de (W.x1f (k,j,i)) (F.e2_x3f (k,j,i)) (cc (k,j,i)) (F.e2_x3f (k,j,i-1)) (cc (k,j,i-1))
  let de2_l1 := de (W.x3f (k,j,i-1)) (F.e2_x1f (k,j,i)) (cc (k,j,i-1)) (F.e2_x1f (k-1,j,i)) (cc (k-1,j,i-1))
  let de2_r1 := de (W.x3f (k,j,i)) (F.e2_x1f (k,j,i)) (cc (k,j,i)) (F.e2_x1f (k-1,j,i)) (cc (k-1,j,i))
  0.25 * (de2_l3 + de2_r3 + de2_l1 + de2_r1 + F.e2_x3f (k,j,i-1) + F.e2_x3f (k,j,i) + F.e2_x1f (k-1,j,i) + F.e2_x1f (k,j,i))
/-- `e3(k,j,i)` (calculate_corner_e.cpp:115-125 and 216-226). -/
noncomputable def corner3 (F : FaceE) (W : FF ℝ) (cc : A3 ℝ) (k j i : ℤ) : ℝ :=
  let de3_l2 := de (W.x1f (k,j-1,i)) (F.e3_x2f (k,j,i)) (cc (k,j-1,i)) (F.e3_x2f (k,j,i-1)) (cc (k,j-1,i-1))
  let de3_r2 := de (W.x1f (k,j,i)) (F.e3_x2f (k,j,i)) (cc (k,j,i)) (F.e3_x2f (k,j,i-1)) (cc (k,j,i-1))
  let de3_l1 := de (W.x2f (k,j,i-1)) (F.e3_x1f (k,j,i)) (cc (k,j,i-1)) (F.e3_x1f (k,j-1,i)) (cc (k,j-1,i-1))
  let de3_r1 := de (W.x2f (k,j,i)) (F.e3_x1f (k,j,i)) (cc (k,j,i)) (F.e3_x1f (k,j-1,i)) (cc (k,j-1,i))
  0.25 * (de3_l1 + de3_r1 + de3_l2 + de3_r2 + F.e3_x2f (k,j,i-1) + F.e3_x2f (k,j,i) + F.e3_x1f (k,j-1,i) + F.e3_x1f (k,j,i))

/-- The scratch array `cc_e_`, one array per component (in two dimensions the third is the only one). -/
structure Scratch where
  c1 : A3 ℝ
  c2 : A3 ℝ
  c3 : A3 ℝ

/-- `FieldDiffusion::AddEMF(e_src, e_des)` over whole arrays (field_diffusion.cpp:119-137). -/
def addEMF (src des : EF ℝ) : EF ℝ :=
  ⟨fun q => des.x1e q + src.x1e q, fun q => des.x2e q + src.x2e q, fun q => des.x3e q + src.x3e q⟩

/-- `if (!STS_ENABLED) if (fdif.field_diffusion_defined) fdif.AddEMF(fdif.e_oa, e)` (calculate_corner_e.cpp:48-49, 232-233). -/
def addDif (dif : Option (EF ℝ)) (e : EF ℝ) : EF ℝ :=
  match dif with
  | some s => addEMF s e
  | none => e

/-- `Field::ComputeCornerE(w, bcc)` (calculate_corner_e.cpp:28-236); `dif` is `fdif.e_oa` if it is added
(`!STS_ENABLED && field_diffusion_defined`), `e` the content of the edge arrays before. -/
noncomputable def computeCornerE (d : Dims) (sr : Bool) (w bcc : A4 ℝ) (F : FaceE) (W : FF ℝ) (dif : Option (EF ℝ))
    (cc : Scratch) (e : EF ℝ) : EF ℝ :=
  if d.nx2 = 1 then
    let x2e := fill d.ks d.ks d.js d.js d.is (d.ie+1) (fun _ _ i => F.e2_x1f (d.ks,d.js,i)) e.x2e
    let x2e := fill (d.ke+1) (d.ke+1) d.js d.js d.is (d.ie+1) (fun _ _ i => F.e2_x1f (d.ks,d.js,i)) x2e
    let x3e := fill d.ks d.ks d.js d.js d.is (d.ie+1) (fun _ _ i => F.e3_x1f (d.ks,d.js,i)) e.x3e
    let x3e := fill d.ks d.ks (d.je+1) (d.je+1) d.is (d.ie+1) (fun _ _ i => F.e3_x1f (d.ks,d.js,i)) x3e
    addDif dif ⟨e.x1e, x2e, x3e⟩
  else if d.nx3 = 1 then
    let c3 := fill d.ks d.ke (d.js-1) (d.je+1) (d.is-1) (d.ie+1) (cellE sr w bcc 3) cc.c3
    let x2e := fill d.ks d.ks d.js d.je d.is (d.ie+1) (fun _ j i => F.e2_x1f (d.ks,j,i)) e.x2e
    let x2e := fill (d.ke+1) (d.ke+1) d.js d.je d.is (d.ie+1) (fun _ j i => F.e2_x1f (d.ks,j,i)) x2e
    let x1e := fill d.ks d.ks d.js (d.je+1) d.is d.ie (fun _ j i => F.e1_x2f (d.ks,j,i)) e.x1e
    let x1e := fill (d.ke+1) (d.ke+1) d.js (d.je+1) d.is d.ie (fun _ j i => F.e1_x2f (d.ks,j,i)) x1e
    let x3e := fill d.ks d.ke d.js (d.je+1) d.is (d.ie+1) (corner3 F W c3) e.x3e
    addDif dif ⟨x1e, x2e, x3e⟩
  else
    let ccr := fill (d.ks-1) (d.ke+1) (d.js-1) (d.je+1) (d.is-1) (d.ie+1)
    let c1 := ccr (cellE sr w bcc 1) cc.c1
    let c2 := ccr (cellE sr w bcc 2) cc.c2
    let c3 := ccr (cellE sr w bcc 3) cc.c3
    let put := fill d.ks (d.ke+1) d.js (d.je+1) d.is (d.ie+1)
    addDif dif ⟨put (corner1 F W c1) e.x1e, put (corner2 F W c2) e.x2e, put (corner3 F W c3) e.x3e⟩

/-- What is left in the arrays from earlier: face arrays, edge arrays, scratch. -/
structure Stale where
  o : FaceOut
  e : EF ℝ
  cc : Scratch

/-- `CalculateFluxes` and `ComputeCornerE` of one stage (time_integrator.cpp:1695-1722). -/
noncomputable def stageE (d : Dims) (sr : Bool) (w bcc : A4 ℝ) (S : ℕ → ℤ → ℤ → ℤ → Solved) (dif : Option (EF ℝ)) (s : Stale) : EF ℝ :=
  let o := calcFaceE d S s.o
  computeCornerE d sr w bcc o.e o.wght dif s.cc s.e

/-! ## Cell-centred field -/

/-- `Reconstruction::uniform_` (reconstruction.cpp:44, 235-240) and the positions `CalculateCellCenteredField` uses
(its loop is `Eos.cellField`); `rat` are `x1rat`, `x2rat`, `x3rat` of the block. -/
noncomputable def fieldMesh (c : Coord.Sys) (nx2 : ℤ) (X : Coord.XF) (rat : ℝ × ℝ × ℝ) : Eos.Mesh3 ℝ where
  uni := (decide (rat.1 = 1), decide (rat.2.1 = 1), decide (rat.2.2 = 1))
  x1 := ⟨X.x1.xf, Coord.x1v X c, X.x1.dxf, fun i => Coord.x1v X c (i+1) - Coord.x1v X c i⟩
  x2 := ⟨X.x2.xf, Coord.x2v X nx2 c, X.x2.dxf, fun j => Coord.x2v X nx2 c (j+1) - Coord.x2v X nx2 c j⟩
  x3 := ⟨X.x3.xf, Coord.x3v X, X.x3.dxf, fun k => Coord.x3v X (k+1) - Coord.x3v X k⟩

end Verif.Grid
