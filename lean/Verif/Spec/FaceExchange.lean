import Verif.Model.FaceExchange
import Verif.Spec.EmfExchange

/-! Vocabulary for the exchange of face-centered fields. -/

namespace Verif.FaceEx.Spec

open Verif.Grid (Dims)
open Verif.Emf (Pos Loc Mesh)
open Verif.Emf.Spec (HoldsFace place)

/-- Blocks have the same number on every face that they share. -/
def Agree {K : Type} (d : Dims) (M : Mesh) (b : Loc → Faces K) : Prop :=
  ∀ c g l l', M l = true → M l' = true → HoldsFace d c g l → HoldsFace d c g l' →
    b l (place d c g l) = b l' (place d c g l')

/-- The face is in the arrays of block `l`, within `ng` cells of its active cells. -/
def Within (d : Dims) (c : Fin 3) (g : Int × Int × Int) (l : Loc) : Prop :=
  (d.nx1 * l.1 - d.ng ≤ g.2.2 ∧
    g.2.2 ≤ d.nx1 * l.1 + d.nx1 + d.ng - (if c = 0 then 0 else 1)) ∧
  (d.nx2 * l.2.1 - d.ng ≤ g.2.1 ∧
    g.2.1 ≤ d.nx2 * l.2.1 + d.nx2 + d.ng - (if c = 1 then 0 else 1)) ∧
  (d.nx3 * l.2.2 - d.ng ≤ g.1 ∧
    g.1 ≤ d.nx3 * l.2.2 + d.nx3 + d.ng - (if c = 2 then 0 else 1))

/-- Between two there is no gap. -/
def Convex (A : Int → Bool) : Prop :=
  ∀ a b c, a ≤ b → b ≤ c → A a = true → A c = true → A b = true

/-- The blocks that exist form a box (possibly infinite: periodic boundaries). -/
def IsBox (M : Mesh) : Prop :=
  ∃ A B C : Int → Bool, Convex A ∧ Convex B ∧ Convex C ∧ ∀ l, M l = (A l.1 && B l.2.1 && C l.2.2)

end Verif.FaceEx.Spec
