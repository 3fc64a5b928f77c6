import Verif.Spec.Tree
import Verif.Model.Smr

/-! # Specification vocabulary for static refinement regions -/
namespace Verif.Tree

/-- Face positions of one direction: they increase with the index, and every second face of level
`L+1` is a face of level `L`. -/
structure Faces {α : Type} [LinearOrder α] (X : Nat → Nat → α) : Prop where
  mono : ∀ L i j, i ≤ j → X L i ≤ X L j
  refine : ∀ L i, X (L + 1) (2 * i) = X L i

/-- What the constructor checks about one direction of a region (mesh.cpp:372-393), and in addition
that the region does not degenerate to a point at the upper edge of the mesh. -/
structure BoundsOk {α : Type} [LinearOrder α] (X : Nat → Nat → α) (root n : Nat) (lo hi : α) : Prop where
  le : lo ≤ hi
  hi : hi ≤ X root n
  lt : lo < X root n

structure RegionOk {α : Type} [LinearOrder α] (m : Mesh) (X1 X2 X3 : Nat → Nat → α) (r : Region α) :
    Prop where
  lev : m.rootLevel < r.lev
  b1 : BoundsOk X1 m.rootLevel m.nrbx1 r.lo1 r.hi1
  b2 : m.f2 = true → BoundsOk X2 m.rootLevel m.nrbx2 r.lo2 r.hi2
  b3 : m.f3 = true → BoundsOk X3 m.rootLevel m.nrbx3 r.lo3 r.hi3

/-- The block `(L, p)` overlaps the region in every active direction. -/
structure Overlaps {α : Type} [LinearOrder α] (m : Mesh) (X1 X2 X3 : Nat → Nat → α) (r : Region α)
    (L : Nat) (p : Pos) : Prop where
  o1 : X1 L p.x1 < r.hi1 ∧ r.lo1 < X1 L (p.x1 + 1)
  o2 : m.f2 = true → X2 L p.x2 < r.hi2 ∧ r.lo2 < X2 L (p.x2 + 1)
  o3 : m.f3 = true → X3 L p.x3 < r.hi3 ∧ r.lo3 < X3 L (p.x3 + 1)

end Verif.Tree
