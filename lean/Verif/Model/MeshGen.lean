import Verif.Model.Array
import Mathlib.Analysis.SpecialFunctions.Pow.Real

/-!
# Mesh spacing: logical positions, generators, block ranges and cell faces

One direction at a time; the code repeats the same text for `x1`, `x2`, `x3`. Real numbers stand for
`Real`, so rounding is not modelled.
-/
namespace Verif.MeshGen
open Verif.Arr

/-- The fields of `mesh_size` for one direction (athena.hpp:105-112: `xmin`, `xmax`, `xrat`, `nx`). -/
structure MSize where
  xmin : ℝ
  xmax : ℝ
  rat : ℝ
  nx : ℕ

/-- `ComputeMeshGeneratorX` (mesh.hpp:457-473). `/` on integers is C++ division. -/
noncomputable def meshX (index nrange : ℤ) (sym : Bool) : ℝ :=
  if !sym then (index : ℝ) / (nrange : ℝ)
  else
    let noffset := index - nrange.tdiv 2
    let noffset_ceil := index - (nrange + 1).tdiv 2
    ((noffset + noffset_ceil : ℤ) : ℝ) / (2 * (nrange : ℝ))

/-- `DefaultMeshGeneratorX1/2/3` (mesh.hpp:480-529). -/
noncomputable def defaultGen (x : ℝ) (rs : MSize) : ℝ :=
  let lr : ℝ × ℝ :=
    if rs.rat = 1 then (1 - x, x)
    else
      let ratn := rs.rat ^ (rs.nx : ℝ)
      let rnx := rs.rat ^ (x * rs.nx)
      let lw := (rnx - ratn) / (1 - ratn)
      (lw, 1 - lw)
  rs.xmin * lr.1 + rs.xmax * lr.2

/-- `UniformMeshGeneratorX1/2/3` (mesh.hpp:536-554). -/
noncomputable def uniformGen (x : ℝ) (rs : MSize) : ℝ :=
  1 / 2 * (rs.xmin + rs.xmax) + (x * rs.xmax - x * rs.xmin)

/-- The boundary flags that matter here (athena.hpp: `BoundaryFlag`). -/
inductive BFlag where
  | block
  | reflect
  | polar
  | other (n : ℕ)
  deriving DecidableEq

/-- What a mesh keeps about one direction: `mesh_size`, `MeshGenerator_[dir]`,
`use_uniform_meshgen_fn_[dir]`, the number of root blocks `nrbx`, the cells of a block
(`block_size.nx`), `NGHOST` and the two mesh boundary flags. `mirrorPolar` says whether the
direction also mirrors ghost cells at polar boundaries (coordinates.cpp: only `x2`). -/
structure Dir where
  ms : MSize
  gen : ℝ → MSize → ℝ
  uni : Bool
  nrb : ℕ
  bnx : ℕ
  ng : ℕ
  inner : BFlag
  outer : BFlag
  mirrorPolar : Bool

/-- The generator and the flag chosen by the `Mesh` constructor (mesh.cpp:122-123, 292-303, also
756-771 on restart), without user-enrolled generators. -/
noncomputable def Dir.standard (ms : MSize) (nrb bnx ng : ℕ) (inner outer : BFlag) (mp : Bool) : Dir :=
  if ms.rat ≠ 1 then ⟨ms, defaultGen, false, nrb, bnx, ng, inner, outer, mp⟩
  else ⟨ms, uniformGen, true, nrb, bnx, ng, inner, outer, mp⟩

/-- `block_size.xmin/xmax` and `block_bcs` of a block (`SetBlockSizeAndBoundaries`,
mesh.cpp:1984-2057, for a direction with more than one cell); `lev` is `ll - root_level`. -/
structure Range where
  xmin : ℝ
  xmax : ℝ
  inner : BFlag
  outer : BFlag

noncomputable def blockRange (d : Dir) (lev : ℕ) (lx : ℤ) : Range :=
  let nrbx_ll : ℤ := (d.nrb : ℤ) * 2 ^ lev
  let lo : ℝ × BFlag :=
    if lx = 0 then (d.ms.xmin, d.inner) else (d.gen (meshX lx nrbx_ll d.uni) d.ms, .block)
  let hi : ℝ × BFlag :=
    if lx = nrbx_ll - 1 then (d.ms.xmax, d.outer)
    else (d.gen (meshX (lx + 1) nrbx_ll d.uni) d.ms, .block)
  ⟨lo.1, hi.1, lo.2, hi.2⟩

/-- `x1f` and `dx1f` of `Coordinates`. -/
structure Faces where
  xf : ℤ → ℝ
  dxf : ℤ → ℝ

/-- The condition under which the ghost zone at a boundary is mirrored (coordinates.cpp:149, 155,
215-217, 222-224, 298, 304). -/
def mirrors (d : Dir) (b : BFlag) : Bool := b == .reflect || (d.mirrorPolar && b == .polar)

/-- `x1f(i)` from the generator (coordinates.cpp:97-107, 130-140). -/
noncomputable def genFaces (d : Dir) (lev : ℕ) (lx : ℤ) (coarse : Bool) (il iu : ℤ) (s : Faces) : Faces :=
  let nrootmesh : ℤ := (d.ms.nx : ℤ) * 2 ^ lev
  loop (il - d.ng) (iu + d.ng + 1) (fun i s =>
    let noffset : ℤ := if !coarse then i - il + lx * d.bnx else (i - il) * 2 + lx * d.bnx
    { s with xf := Function.update s.xf i (d.gen (meshX noffset nrootmesh d.uni) d.ms) }) s

/-- `dx1f(i)` (coordinates.cpp:110-112, 129, 144-146). -/
noncomputable def genWidths (d : Dir) (r : Range) (il iu : ℤ) (s : Faces) : Faces :=
  if !d.uni then
    loop (il - d.ng) (iu + d.ng) (fun i s =>
      { s with dxf := Function.update s.dxf i (s.xf (i + 1) - s.xf i) }) s
  else
    let dx := (r.xmax - r.xmin) / ((iu - il + 1 : ℤ) : ℝ)
    loop (il - d.ng) (iu + d.ng) (fun i s => { s with dxf := Function.update s.dxf i dx }) s

/-- Mirrored ghost zone at the inner boundary (coordinates.cpp:149-154). -/
def mirrorInner (d : Dir) (il : ℤ) (s : Faces) : Faces :=
  loop 1 d.ng (fun i s =>
    let dxf := Function.update s.dxf (il - i) (s.dxf (il + i - 1))
    ⟨Function.update s.xf (il - i) (s.xf (il - i + 1) - dxf (il - i)), dxf⟩) s

/-- Mirrored ghost zone at the outer boundary (coordinates.cpp:155-160). -/
def mirrorOuter (d : Dir) (iu : ℤ) (s : Faces) : Faces :=
  loop 1 d.ng (fun i s =>
    let dxf := Function.update s.dxf (iu + i) (s.dxf (iu - i + 1))
    ⟨Function.update s.xf (iu + i + 1) (s.xf (iu + i) + dxf (iu + i)), dxf⟩) s

/-- The faces of one direction in the `Coordinates` constructor (coordinates.cpp:95-160, 162-229,
243-314, for a direction with more than one cell). `il`, `iu` are `is`, `ie`, or `cis`, `cie` in the
coarse buffer (33-43). The check of neighbouring widths only prints a warning and is left out. -/
noncomputable def faces (d : Dir) (lev : ℕ) (lx : ℤ) (coarse : Bool) (il iu : ℤ) (s : Faces) : Faces :=
  let r := blockRange d lev lx
  let s := genFaces d lev lx coarse il iu s
  let s := { s with xf := Function.update (Function.update s.xf il r.xmin) (iu + 1) r.xmax }
  let s := genWidths d r il iu s
  let s := if mirrors d r.inner then mirrorInner d il s else s
  if mirrors d r.outer then mirrorOuter d iu s else s

end Verif.MeshGen
