import Verif.Model.History

/-! What the columns of a history file mean. -/

namespace Verif.Hst.Spec

open Verif.Grid (Dims)

variable {K : Type} [Field K]

/-- Density of a quantity in a cell. -/
def density (u : Cell K) : Q → K
  | .mass => u.d
  | .mom a => u.m a
  | .ke a => (u.m a) ^ 2 / (2 * u.d)
  | .totE => u.e
  | .gravE => u.d * u.phi / 2
  | .me a => (u.b a) ^ 2 / 2
  | .scalar n => u.s n
  | .chemRad n => u.ir n
  | .rad a => u.rad a
  | .radNu f a => u.radNu f a
  | .cr a => u.cr a
  | _ => 0

/-- The total of a quantity over the active cells of a block: the sum of volume times density. -/
def blockTotal (b : Block K) (q : Q) : K :=
  ((Arr.rng b.d.ks b.d.ke).map fun k => ((Arr.rng b.d.js b.d.je).map fun j =>
    ((Arr.rng b.d.is b.d.ie).map fun i => b.vol k j i * density (b.cell k j i) q).sum).sum).sum

/-- The total over all blocks. -/
def total (bs : List (Block K)) (q : Q) : K := (bs.map fun b => blockTotal b q).sum

/-- Value of a user-defined output over all blocks. -/
def UserValue [LinearOrder K] (op : Op) (f : Block K → K) (bs : List (Block K)) (v : K) : Prop :=
  match op with
  | .sum => v = (bs.map f).sum
  | .max => (∃ b ∈ bs, f b = v) ∧ ∀ b ∈ bs, f b ≤ v
  | .min => (∃ b ∈ bs, f b = v) ∧ ∀ b ∈ bs, v ≤ f b

/-- Configurations in which the columns do not run into each other: not radiation of the chemistry
together with radiation or cosmic rays, and no frequency groups. -/
def Good (c : Cfg) : Prop :=
  (c.chem = none ∨ (c.rad = none ∧ c.cr = false)) ∧ (c.rad = none ∨ c.rad = some 1)

/-- What a column holds according to its label. -/
def Holds [LinearOrder K] (c : Cfg) (time dt : K) (fs : ℕ → Option (Block K → K))
    (bs : List (Block K)) (v : K) : Q → Prop
  | .time => v = time
  | .dt => v = dt
  | .user n => ∀ op f, c.user[n]? = some op → fs n = some f → UserValue op f bs v
  | q => v = total bs q

end Verif.Hst.Spec
