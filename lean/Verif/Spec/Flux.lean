import Verif.Model.Flux
import Mathlib.Algebra.BigOperators.Group.Finset.Basic
import Mathlib.Algebra.BigOperators.Ring.Finset
import Mathlib.Data.Int.Interval

/-!
# Conservation: vocabulary

`content`: volume integral over the active cells of a block. `outflow`: area-weighted flux leaving a
block through one of its six faces. Faces are numbered 0..5 (inner_x1, outer_x1, inner_x2, ...); the
cells of a face have two coordinates `(y, x)`, the remaining ones of `(k, j, i)` in that order.
-/
namespace Verif.Grid
variable {K : Type} [Field K]

/-- Block sizes the mesh admits: a direction is either absent (one cell) or has a positive even
number of cells, absent directions are the last ones. -/
structure Dims.Ok (d : Dims) : Prop where
  x1 : 0 < d.nx1 ∧ d.nx1 % 2 = 0
  x2 : d.nx2 = 1 ∨ (1 < d.nx2 ∧ d.nx2 % 2 = 0)
  x3 : d.nx3 = 1 ∨ (1 < d.nx3 ∧ d.nx3 % 2 = 0)
  ord : 1 < d.nx3 → 1 < d.nx2

open Finset in
/-- Volume integral of variable `n` over the active cells. -/
def content (d : Dims) (G : Geom K) (u : A4 K) (n : Int) : K :=
  ∑ k ∈ Icc d.ks d.ke, ∑ j ∈ Icc d.js d.je, ∑ i ∈ Icc d.is d.ie, G.vol (k, j, i) * u (n, k, j, i)

/-- The opposite face. -/
def opp (f : Nat) : Nat := if f % 2 = 0 then f + 1 else f - 1

/-- Ranges of the face coordinates. -/
def ylo (d : Dims) (f : Nat) : Int := if f < 4 then d.ks else d.js
@[inherit_doc ylo] def yhi (d : Dims) (f : Nat) : Int := if f < 4 then d.ke else d.je
@[inherit_doc ylo] def xlo (d : Dims) (f : Nat) : Int := if f < 2 then d.js else d.is
@[inherit_doc ylo] def xhi (d : Dims) (f : Nat) : Int := if f < 2 then d.je else d.ie
/-- Numbers of cells in the face coordinates. -/
def ny (d : Dims) (f : Nat) : Int := if f < 4 then d.nx3 else d.nx2
@[inherit_doc ny] def nx (d : Dims) (f : Nat) : Int := if f < 2 then d.nx2 else d.nx1

/-- Index of the cell face `(y, x)` of a block face in the arrays of its direction. -/
def faceIdx (d : Dims) (f : Nat) (y x : Int) : Int × Int × Int :=
  if f = 0 then (y, x, d.is) else if f = 1 then (y, x, d.ie + 1)
  else if f = 2 then (y, d.js, x) else if f = 3 then (y, d.je + 1, x)
  else if f = 4 then (d.ks, y, x) else (d.ke + 1, y, x)

/-- Area of, and flux through, a cell face. -/
def faceArea (d : Dims) (G : Geom K) (f : Nat) (y x : Int) : K :=
  (if f < 2 then G.a1 else if f < 4 then G.a2 else G.a3) (faceIdx d f y x)
@[inherit_doc faceArea] def faceFlux (d : Dims) (F : Flx K) (f : Nat) (n y x : Int) : K :=
  (if f < 2 then F.x1 else if f < 4 then F.x2 else F.x3) (n, faceIdx d f y x)

/-- Faces that exist in the dimensions of the problem. -/
def Active (d : Dims) (f : Nat) : Prop :=
  f < 2 ∨ (2 ≤ f ∧ f < 4 ∧ 1 < d.nx2) ∨ (4 ≤ f ∧ f < 6 ∧ 1 < d.nx3)
instance (d : Dims) (f : Nat) : Decidable (Active d f) := by unfold Active; infer_instance

open Finset in
/-- Amount of variable `n` leaving the block per unit time through a rectangle of a face. -/
def outflowOn (d : Dims) (G : Geom K) (F : Flx K) (n : Int) (f : Nat) (y0 y1 x0 x1 : Int) : K :=
  (if f % 2 = 0 then -1 else 1) *
    ∑ y ∈ Icc y0 y1, ∑ x ∈ Icc x0 x1, faceArea d G f y x * faceFlux d F f n y x

/-- The same for the whole face; zero for faces that do not exist. -/
def outflow (d : Dims) (G : Geom K) (F : Flx K) (n : Int) (f : Nat) : K :=
  if Active d f then outflowOn d G F n f (ylo d f) (yhi d f) (xlo d f) (xhi d f) else 0

/-! ## Several blocks -/

/-- What is on the other side of a block face: the edge of the domain, a block of the same level,
the finer blocks by position, or a coarser block with the position of this block on its face. -/
inductive Link (B : Type) where
  | edge
  | same (b : B)
  | finer (c : Nat → Nat → B)
  | coarser (b : B) (f1 f2 : Nat)

/-- Positions of finer blocks on a face that exist in the dimensions of the problem. -/
def Slot (d : Dims) (f f1 f2 : Nat) : Prop :=
  f1 < 2 ∧ f2 < 2 ∧ (f1 = 0 ∨ 1 < nx d f) ∧ (f2 = 0 ∨ 1 < ny d f)
instance (d : Dims) (f f1 f2 : Nat) : Decidable (Slot d f f1 f2) := by unfold Slot; infer_instance

/-- Neighbour relations are mutual. -/
structure Mutual {B : Type} (d : Dims) (link : B → Nat → Link B) : Prop where
  same : ∀ b f b', Active d f → link b f = .same b' → link b' (opp f) = .same b
  finer : ∀ b f c, Active d f → link b f = .finer c →
    ∀ f1 f2, Slot d f f1 f2 → link (c f1 f2) (opp f) = .coarser b f1 f2
  coarser : ∀ b f b' f1 f2, Active d f → link b f = .coarser b' f1 f2 →
    ∃ c, link b' (opp f) = .finer c ∧ Slot d f f1 f2 ∧ c f1 f2 = b

/-- The one or two fine indices covered by coarse index `x`: `s` is the first index of the fine block and `lo` the
first coarse index it covers. -/
def kids (two : Prop) [Decidable two] (s lo x : Int) : List Int :=
  if two then [s + 2 * (x - lo), s + 2 * (x - lo) + 1] else [s]

/-- First and last face coordinates of the part of a face covered by the finer block at `(f1, f2)`. -/
def subY (d : Dims) (f f2 : Nat) : Int × Int :=
  if f2 = 0 then (ylo d f, yhi d f - ny d f / 2) else (ylo d f + ny d f / 2, yhi d f)
@[inherit_doc subY] def subX (d : Dims) (f f1 : Nat) : Int × Int :=
  if f1 = 0 then (xlo d f, xhi d f - nx d f / 2) else (xlo d f + nx d f / 2, xhi d f)

/-- Sum over the fine cell faces covered by the coarse cell face `(y, x)`, for the finer block at
`(f1, f2)`. -/
def kidSum (d : Dims) (f f1 f2 : Nat) (y x : Int) (g : Int → Int → K) : K :=
  ((kids (1 < ny d f) (ylo d f) (subY d f f2).1 y).map fun y' =>
    ((kids (1 < nx d f) (xlo d f) (subX d f f1).1 x).map fun x' => g y' x').sum).sum

/-- The geometry of a coarse block (face `f`) and of the finer block at `(f1, f2)` fits: every coarse
cell face is the union of the fine ones, and its area is not zero (at a pole all blocks have the same level,
bvals_base.cpp:520-535). -/
def AreasFit (d : Dims) (Gc Gf : Geom K) (f f1 f2 : Nat) : Prop :=
  ∀ y x, (subY d f f2).1 ≤ y → y ≤ (subY d f f2).2 → (subX d f f1).1 ≤ x → x ≤ (subX d f f1).2 →
    faceArea d Gc f y x = kidSum d f f1 f2 y x (faceArea d Gf (opp f)) ∧
    kidSum d f f1 f2 y x (faceArea d Gf (opp f)) ≠ 0

/-- The receive buffer for face `f` holds what a finer block (geometry `Gf`, fluxes `Ff`) has sent. -/
def BufOf (d : Dims) (nl nu : Int) (Gf : Geom K) (Ff : Flx K) (f : Nat) (buf : Nat → K) : Prop :=
  ∀ (p : Nat) (v : K), (loadToCoarser d nl nu Gf Ff (opp f))[p]? = some v → buf p = v

/-- Two blocks of the same level use the same flux through their common face. -/
def FluxesAgree (d : Dims) (G G' : Geom K) (F F' : Flx K) (n : Int) (f : Nat) : Prop :=
  ∀ y x, ylo d f ≤ y → y ≤ yhi d f → xlo d f ≤ x → x ≤ xhi d f →
    faceArea d G f y x * faceFlux d F f n y x = faceArea d G' (opp f) y x * faceFlux d F' (opp f) n y x

end Verif.Grid
