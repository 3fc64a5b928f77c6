import Verif.Model.Exchange
import Verif.Props.Neighbors
import Mathlib.Logic.Relation

/-! Vocabulary for the properties of the exchange of boundary data. -/
namespace Verif.Exchange

/-- Two processes exchange messages. -/
def Linked {B Ch R : Type} (n : Net B Ch R) (a b : R) : Prop :=
  ∃ c, n.proc c = a ∧ n.proc (n.peer c) = b

/-- All processes are linked, over others. -/
def Connected {B Ch R : Type} (n : Net B Ch R) : Prop :=
  ∀ a b, Relation.ReflTransGen (Linked n) a b

/-- The entries of all neighbour lists of a mesh: block and entry. -/
def MeshChannel (m : Tree.Mesh) (ml : Bool) (t : Tree.Tree) : Type :=
  { x : Int × Tree.Entry // Tree.HasEntry m ml t x.1 x.2 }

/-- The network of a mesh whose blocks are distributed by `rank`: entry `e` of block `g` sends to
receive buffer `e.targetid` of block `e.gid`, and receives into buffer `e.bufid` of its own. -/
structure IsMeshNet {R : Type} (m : Tree.Mesh) (ml : Bool) (t : Tree.Tree) (rank : Int → R)
    (n : Net Int (MeshChannel m ml t) R) : Prop where
  own : ∀ c, n.own c = c.1.1
  rank : n.rank = rank
  gid : ∀ c, (n.peer c).1.1 = c.1.2.gid
  buf : ∀ c, ((n.peer c).1.2.bufid : Int) = c.1.2.targetid

end Verif.Exchange
