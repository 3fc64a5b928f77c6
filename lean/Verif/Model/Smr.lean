import Verif.Model.Tree
import Mathlib.Order.Defs.LinearOrder

/-!
# Static refinement regions (src/mesh/mesh.cpp:346-482)

Positions of block faces are values of an ordered type `α`; `X i` stands for
`MeshGenerator_[dir](ComputeMeshGeneratorX(i, lxmax, ...), mesh_size)`.
-/
namespace Verif.Tree

/-- `for (i=start; i<n; i++) { if (found(i+1)) break; }` with `fuel = n - start` iterations left. -/
def scan (found : Nat → Bool) : (fuel : Nat) → Nat → Nat
  | 0, i => i
  | f + 1, i => if found (i + 1) then i else scan found f (i + 1)

/-- `lx1min`, `lx1max` of a region `[lo, hi]` before the parity adjustment (mesh.cpp:401-412). -/
def rawRange {α : Type} [LinearOrder α] (X : Nat → α) (n : Nat) (lo hi : α) : Nat × Nat :=
  let a := scan (fun i => decide (lo < X i)) n 0
  (a, scan (fun i => decide (hi ≤ X i)) (n - a) a)

/-- `for (i=lx1min; i<lx1max; i+=2)` after `if (lx1min % 2 == 1) lx1min--;` and
`if (lx1max % 2 == 0) lx1max++;` (mesh.cpp:413-414, 454). -/
def visited (r : Nat × Nat) : List Nat :=
  let a := if r.1 % 2 = 1 then r.1 - 1 else r.1
  let b := if r.2 % 2 = 0 then r.2 + 1 else r.2
  (List.range ((b + 1 - a) / 2)).map (fun k => a + 2 * k)

/-- One `<refinement>` block of the input file: bounds and `ref_lev + root_level`. -/
structure Region (α : Type) where
  lev : Nat
  lo1 : α
  hi1 : α
  lo2 : α
  hi2 : α
  lo3 : α
  hi3 : α

/-- Locations passed to `AddMeshBlock` for a region (mesh.cpp:396-480); `Xd L i` is the position of
face `i` at level `L`. -/
def regionLocs {α : Type} [LinearOrder α] (m : Mesh) (X1 X2 X3 : Nat → Nat → α) (r : Region α) : List Pos :=
  let is := visited (rawRange (X1 r.lev) (m.nmax1 r.lev) r.lo1 r.hi1)
  let js := if m.f2 then visited (rawRange (X2 r.lev) (m.nmax2 r.lev) r.lo2 r.hi2) else [0]
  let ks := if m.f3 then visited (rawRange (X3 r.lev) (m.nmax3 r.lev) r.lo3 r.hi3) else [0]
  ks.flatMap fun k => js.flatMap fun j => is.map fun i => ⟨i, j, k⟩

/-- The calls of `AddMeshBlock` for one region (mesh.cpp:452-480). -/
def addRegion {α : Type} [LinearOrder α] (m : Mesh) (X1 X2 X3 : Nat → Nat → α) (r : Region α) (s : St) :
    Option St :=
  (regionLocs m X1 X2 X3 r).foldlM (fun s q => addMeshBlock m r.lev q s) s

/-- The loop over the input blocks (mesh.cpp:346-482). -/
def addRegions {α : Type} [LinearOrder α] (m : Mesh) (X1 X2 X3 : Nat → Nat → α) (rs : List (Region α))
    (s : St) : Option St :=
  rs.foldlM (fun s r => addRegion m X1 X2 X3 r s) s

end Verif.Tree
