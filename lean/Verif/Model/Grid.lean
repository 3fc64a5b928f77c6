import Verif.Model.Array
import Mathlib.Logic.Function.Basic

/-!
# Index ranges and arrays of a MeshBlock

Arrays on a block are functions of the tuple of indices in the order of `operator()`; writing an
element is `Function.update`.
-/
namespace Verif.Grid
open Verif.Arr (rng loop)

/-- Array with indices `(k, j, i)`. -/
abbrev A3 (K : Type) := Int × Int × Int → K
/-- Array with indices `(n, k, j, i)`. -/
abbrev A4 (K : Type) := Int × Int × Int × Int → K

/-- The indices visited by `for (int i=s; i<=e; i+=2)`. -/
def rng2 (s e : Int) : List Int := (List.range ((e - s + 2) / 2).toNat).map fun (t : Nat) => s + 2 * (t : Int)

/-- Size of a block and `NGHOST`. `nx2 > 1` agrees with `pmy_mesh->f2`, `nx3 > 1` with `f3`
(mesh.cpp:160-220 rejects blocks of fewer than four cells in a direction the mesh extends in). -/
structure Dims where
  ng : Int
  nx1 : Int
  nx2 : Int
  nx3 : Int
deriving DecidableEq, Repr

namespace Dims
variable (d : Dims)
/-- `is`, `ie`, `js`, `je`, `ks`, `ke` (meshblock.cpp:62-90). -/
def is : Int := d.ng
@[inherit_doc is] def ie : Int := d.ng + d.nx1 - 1
@[inherit_doc is] def js : Int := if d.nx2 > 1 then d.ng else 0
@[inherit_doc is] def je : Int := if d.nx2 > 1 then d.ng + d.nx2 - 1 else 0
@[inherit_doc is] def ks : Int := if d.nx3 > 1 then d.ng else 0
@[inherit_doc is] def ke : Int := if d.nx3 > 1 then d.ng + d.nx3 - 1 else 0
end Dims

/-- Face areas and cell volumes: `Face1Area(k,j,..)(i)`, `Face2Area`, `Face3Area`, `CellVolume`
(coordinates.hpp:82-110). -/
structure Geom (K : Type) where
  a1 : A3 K
  a2 : A3 K
  a3 : A3 K
  vol : A3 K

/-- Fluxes `flux[X1DIR]`, `flux[X2DIR]`, `flux[X3DIR]`. -/
structure Flx (K : Type) where
  x1 : A4 K
  x2 : A4 K
  x3 : A4 K

end Verif.Grid
