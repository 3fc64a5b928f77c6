import Verif.Model.MeshGen

/-! # Specification vocabulary for mesh spacing -/
namespace Verif.MeshGen

/-- Position of the `n`-th face, counted from the inner edge of the mesh, of a mesh `lev` levels
finer than the root mesh: `nx` root cells between `xmin` and `xmax`, each root cell `rat` times as
wide as the one before, and finer faces at constant ratio in between. -/
noncomputable def geoFace (ms : MSize) (lev : ℕ) (n : ℤ) : ℝ :=
  let t : ℝ := (n : ℝ) / 2 ^ lev
  ms.xmin + (ms.xmax - ms.xmin) *
    (if ms.rat = 1 then t / ms.nx else (ms.rat ^ t - 1) / (ms.rat ^ (ms.nx : ℝ) - 1))

/-- What the constructor checks or computes about one direction (mesh.cpp:155-198, 231-289), for a
positive ratio. The number of cells of a block need not be even here. -/
structure Dir.Ok (d : Dir) : Prop where
  lt : d.ms.xmin < d.ms.xmax
  rat : 0 < d.ms.rat
  nrb : 0 < d.nrb
  bnx : 0 < d.bnx
  cells : d.ms.nx = d.nrb * d.bnx

/-- A generator, standard or user-enrolled, that increases with the logical position and maps the
ends of the logical interval to the ends of the mesh. -/
structure Dir.GenOk (d : Dir) : Prop where
  mono : StrictMono fun x => d.gen x d.ms
  lo : d.gen (if d.uni then -1 / 2 else 0) d.ms = d.ms.xmin
  hi : d.gen (if d.uni then 1 / 2 else 1) d.ms = d.ms.xmax
  unif : d.uni = true → d.gen = uniformGen

/-- Position at the fraction `q` of the cells of the mesh. -/
noncomputable def Dir.pos (d : Dir) (q : ℝ) : ℝ := d.gen (if d.uni then q - 1 / 2 else q) d.ms

/-- Faces of the block's own level per face of the array: every second one in the coarse buffer. -/
def stride (coarse : Bool) : ℤ := if coarse then 2 else 1

/-- Number, counted from the inner edge of the mesh, of face `i` of a block. -/
def faceNo (d : Dir) (lx : ℤ) (coarse : Bool) (il i : ℤ) : ℤ := stride coarse * (i - il) + lx * d.bnx

/-- `il`, `iu` delimit the cells of the block (meshblock.cpp:60-110). -/
def Dir.Cells (d : Dir) (coarse : Bool) (il iu : ℤ) : Prop := stride coarse * (iu + 1 - il) = d.bnx

/-- The block `(lev, lx)` exists. -/
def Dir.HasBlock (d : Dir) (lev : ℕ) (lx : ℤ) : Prop := 0 ≤ lx ∧ lx < (d.nrb : ℤ) * 2 ^ lev

/-- Face `i` is an active face of the block, or a ghost face on a side that is not mirrored. -/
def Dir.Shown (d : Dir) (lev : ℕ) (lx il iu i : ℤ) : Prop :=
  (il ≤ i ∨ il - d.ng ≤ i ∧ mirrors d (blockRange d lev lx).inner = false) ∧
  (i ≤ iu + 1 ∨ i ≤ iu + 1 + d.ng ∧ mirrors d (blockRange d lev lx).outer = false)

end Verif.MeshGen
