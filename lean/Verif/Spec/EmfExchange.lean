import Verif.Model.EmfExchange
import Verif.Model.CT
import Mathlib.Algebra.BigOperators.Group.Finset.Basic

/-!
# Edges of the mesh and the blocks around them
-/

namespace Verif.Emf.Spec

open Verif.Grid (Dims)

/-- Block `l` has the edge of the mesh with component `c` and indices `(K, J, I)` counted over the
whole mesh: along the edge it is one of its cells, across the edge one of its faces. -/
def Holds (d : Dims) (c : Fin 3) (g : Int × Int × Int) (l : Loc) : Prop :=
  (d.nx1 * l.1 ≤ g.2.2 ∧ g.2.2 ≤ d.nx1 * l.1 + d.nx1 - (if c = 0 then 1 else 0)) ∧
  (d.nx2 * l.2.1 ≤ g.2.1 ∧ g.2.1 ≤ d.nx2 * l.2.1 + d.nx2 - (if c = 1 then 1 else 0)) ∧
  (d.nx3 * l.2.2 ≤ g.1 ∧ g.1 ≤ d.nx3 * l.2.2 + d.nx3 - (if c = 2 then 1 else 0))

/-- Its place in the arrays of block `l`. -/
def place (d : Dims) (c : Fin 3) (g : Int × Int × Int) (l : Loc) : Pos :=
  (c, g.1 - d.nx3 * l.2.2 + d.ks, g.2.1 - d.nx2 * l.2.1 + d.js, g.2.2 - d.nx1 * l.1 + d.is)

/-- Block `l` has the face of the mesh with normal `c` and indices `(K, J, I)`. -/
def HoldsFace (d : Dims) (c : Fin 3) (g : Int × Int × Int) (l : Loc) : Prop :=
  (d.nx1 * l.1 ≤ g.2.2 ∧ g.2.2 ≤ d.nx1 * l.1 + d.nx1 - (if c = 0 then 0 else 1)) ∧
  (d.nx2 * l.2.1 ≤ g.2.1 ∧ g.2.1 ≤ d.nx2 * l.2.1 + d.nx2 - (if c = 1 then 0 else 1)) ∧
  (d.nx3 * l.2.2 ≤ g.1 ∧ g.1 ≤ d.nx3 * l.2.2 + d.nx3 - (if c = 2 then 0 else 1))

/-- The array of a field on faces by the normal. -/
def face {K : Type} (b : Grid.FF K) : Fin 3 → Grid.A3 K := ![b.x1f, b.x2f, b.x3f]

/-- Blocks have the same number on every face that they share; `b l` the numbers of block `l`. -/
def FacesAgree {K : Type} (d : Dims) (M : Mesh) (b : Loc → Grid.FF K) : Prop :=
  ∀ c g l l', M l = true → M l' = true → HoldsFace d c g l → HoldsFace d c g l' →
    face (b l) c (place d c g l).2 = face (b l') c (place d c g l').2

/-- The same for edges. -/
def EdgesAgree {K : Type} (d : Dims) (M : Mesh) (e : Loc → EField K) : Prop :=
  ∀ c g l l', M l = true → M l' = true → Holds d c g l → Holds d c g l' →
    e l (place d c g l) = e l' (place d c g l')

/-- Fields on edges as the arrays that `Field::CT` reads. -/
def arrays {K : Type} (e : EField K) : Grid.EF K :=
  ⟨fun q => e (0, q), fun q => e (1, q), fun q => e (2, q)⟩

end Verif.Emf.Spec
