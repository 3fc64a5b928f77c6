import Verif.Model.Refine
import Verif.Spec.Flux
import Mathlib.Algebra.BigOperators.Group.Finset.Basic
import Mathlib.Data.Int.Interval
import Mathlib.Data.Finset.Prod

/-! # Coarse cells and the fine cells they consist of: vocabulary -/
namespace Verif.Grid
open Finset

/-- A range of coarse cells; in a direction the mesh does not have the only index is 0. -/
structure Box where
  si : Int
  ei : Int
  sj : Int
  ej : Int
  sk : Int
  ek : Int

/-- Coarse cell `(k, j, i)` lies in the range. -/
structure Box.Has (d : Dims) (b : Box) (k j i : Int) : Prop where
  i : b.si ≤ i ∧ i ≤ b.ei
  j : if 1 < d.nx2 then b.sj ≤ j ∧ j ≤ b.ej else j = 0
  k : if 1 < d.nx3 then b.sk ≤ k ∧ k ≤ b.ek else k = 0

/-- The fine indices of a coarse index in the second and third direction: two, or one if the mesh does not have the direction. -/
def Dims.jj (d : Dims) (cj : Int) : Finset Int := Icc (d.fj cj) (if 1 < d.nx2 then d.fj cj + 1 else d.fj cj)
@[inherit_doc Dims.jj] def Dims.kk (d : Dims) (ck : Int) : Finset Int := Icc (d.fk ck) (if 1 < d.nx3 then d.fk ck + 1 else d.fk ck)
/-- The two fine indices of a coarse index in the first direction. -/
def Dims.ii (d : Dims) (ci : Int) : Finset Int := Icc (d.fi ci) (d.fi ci + 1)

/-- The 8, 4 or 2 fine cells in a coarse cell. -/
def fines (d : Dims) (ck cj ci : Int) : Finset (Int × Int × Int) := d.kk ck ×ˢ d.jj cj ×ˢ d.ii ci

variable {K : Type} [Field K] [LinearOrder K]

/-- The centre of each coarse cell is the centre of volume of its fine cells, as on a uniform Cartesian mesh and in the
curvilinear coordinate systems, whose `x1v` etc. are centres of volume. -/
structure Centred (d : Dims) (G : Geom K) (C F : Crd K) (k j i : Int) : Prop where
  x1 : ∑ c ∈ fines d k j i, G.vol c * (F.x1v c.2.2 - C.x1v i) = 0
  x2 : 1 < d.nx2 → ∑ c ∈ fines d k j i, G.vol c * (F.x2v c.2.1 - C.x2v j) = 0
  x3 : 1 < d.nx3 → ∑ c ∈ fines d k j i, G.vol c * (F.x3v c.1 - C.x3v k) = 0

/-- In one direction, the two fine centres `F f`, `F (f+1)` of coarse cell `i` are within a third of the distances to the
neighbouring coarse centres (on a uniform mesh it is a quarter). -/
structure Third (C F : Int → K) (i f : Int) : Prop where
  m : 0 < C i - C (i-1)
  p : 0 < C (i+1) - C i
  lo : ∀ a, f ≤ a → a ≤ f + 1 → -((C i - C (i-1)) / 3) ≤ F a - C i
  hi : ∀ a, f ≤ a → a ≤ f + 1 → F a - C i ≤ (C (i+1) - C i) / 3

/-- A uniform Cartesian mesh, coarse and fine: faces at equal distances, every second fine face is a coarse one, centres in the
middle (cartesian.cpp:42-100), equal volumes. -/
structure Uniform (d : Dims) (G : Geom K) (C F : Crd K) (h1 h2 h3 o1 o2 o3 v : K) : Prop where
  pos : 0 < h1 ∧ 0 < h2 ∧ 0 < h3
  f1 : ∀ i : Int, F.x1v i = o1 + h1 * (i + 1/2)
  f2 : ∀ j : Int, F.x2v j = o2 + h2 * (j + 1/2)
  f3 : ∀ k : Int, F.x3v k = o3 + h3 * (k + 1/2)
  c1 : ∀ i : Int, C.x1v i = o1 + h1 * (d.fi i + 1)
  c2 : ∀ j : Int, C.x2v j = o2 + h2 * (d.fj j + 1)
  c3 : ∀ k : Int, C.x3v k = o3 + h3 * (d.fk k + 1)
  vol : ∀ c, G.vol c = v

end Verif.Grid
