import Verif.Model.FluxMsg
import Verif.Spec.Flux
import Verif.Spec.Ghost

/-! Flux correction on a mesh: vocabulary. -/
namespace Verif.FluxMsg
open Verif.Grid Verif.Tree
variable {K : Type} [Field K]

/-- The entry lies at face `f` (0 to 5: inner x1, outer x1, inner x2, ...) of the block. -/
def AtFace (f : Nat) (a : NI) : Prop :=
  (a.ox1, a.ox2, a.ox3) = if f = 0 then (-1, 0, 0) else if f = 1 then (1, 0, 0)
    else if f = 2 then (0, -1, 0) else if f = 3 then (0, 1, 0) else if f = 4 then (0, 0, -1) else (0, 0, 1)
instance (f : Nat) (a : NI) : Decidable (AtFace f a) := by unfold AtFace; infer_instance

/-- Face `f` of block `(L, p)` lies on the boundary of the mesh and that boundary is not periodic. -/
def OnBoundary (m : Mesh) (L : Nat) (p : Pos) (f : Nat) : Prop :=
  if f = 0 then p.x1 = 0 ∧ m.ix1 ≠ .periodic else if f = 1 then p.x1 + 1 = m.nmax1 L ∧ m.ix1 ≠ .periodic
  else if f = 2 then p.x2 = 0 ∧ m.ix2 ≠ .periodic else if f = 3 then p.x2 + 1 = m.nmax2 L ∧ m.ix2 ≠ .periodic
  else if f = 4 then p.x3 = 0 ∧ m.ix3 ≠ .periodic else p.x3 + 1 = m.nmax3 L ∧ m.ix3 ≠ .periodic
instance (m : Mesh) (L : Nat) (p : Pos) (f : Nat) : Decidable (OnBoundary m L p f) := by
  unfold OnBoundary; infer_instance

/-- What a neighbour list has at one of the faces of a block of level `L`. -/
inductive FaceList (d : Dims) (L f : Nat) (es : List Entry) : Prop
  /-- one block of the same or of the coarser level -/
  | one (e : Entry) (he : e ∈ es) (hf : AtFace f e.ni) (hl : e.level = L ∨ e.level + 1 = L)
      (h0 : e.ni.fi1 = 0 ∧ e.ni.fi2 = 0) (hu : ∀ e' ∈ es, AtFace f e'.ni → e' = e)
  /-- a finer block at every position -/
  | many (hl : ∀ e ∈ es, AtFace f e.ni → e.level = L + 1 ∧ Slot d f e.ni.fi1 e.ni.fi2)
      (hs : ∀ f1 f2, Slot d f f1 f2 → ∃ e ∈ es, AtFace f e.ni ∧ e.ni.fi1 = f1 ∧ e.ni.fi2 = f2)

/-- All blocks have sent: the receive buffers hold the values loaded by the neighbours. Buffers are
found as in `CopyFluxCorrectionBufferSameProcess` (bvals_var.cpp:129-141), by the `gid` and the
`targetid` of the entry. `nbrs g` is the neighbour list of block `g`, `recv g b` its buffer `b`. -/
def Delivered (m : Mesh) (t : Tree) (d : Dims) (nl nu : Int) (G : Int → Geom K) (F : Int → Flx K)
    (nbrs : Int → List Entry) (recv : Int → Nat → Nat → K) : Prop :=
  ∀ L p g, (L, p, g) ∈ meshBlocks m t → ∀ e ∈ sends L (nbrs g), ∀ (i : Nat) (v : K),
    (loadToCoarser d nl nu (G g) (F g) (faceId e.ni))[i]? = some v → recv e.gid e.targetid.toNat i = v

/-- Sum over the blocks of a mesh. -/
def blockSum (m : Mesh) (t : Tree) (X : Nat → Pos → Int → K) : K :=
  ((meshBlocks m t).map fun b => X b.1 b.2.1 b.2.2).sum

/-- Position of block `p` on the face of a coarser neighbour, given the face `f` at which it touches:
the parities of the two coordinates along the face. -/
def position (f : Nat) (p : Pos) : Nat × Nat :=
  if f < 2 then (p.x2 % 2, p.x3 % 2) else if f < 4 then (p.x1 % 2, p.x3 % 2) else (p.x1 % 2, p.x2 % 2)

/-! ## Geometry of a whole mesh -/

/-- Areas of cell faces and cell volumes by level and number of the cell, counted over the whole mesh,
`(k, j, i)`. -/
structure GlobalGeom (K : Type) where
  a1 : Nat → A3 K
  a2 : Nat → A3 K
  a3 : Nat → A3 K
  vol : Nat → A3 K

/-- The cells of the next level in cell `x`. -/
def parts (on : Bool) (x : Int) : List Int := if on then [2 * x, 2 * x + 1] else [x]

/-- Periodic boundaries are the same surface. -/
structure GlobalGeom.Wraps (A : GlobalGeom K) (m : Mesh) (d : Dims) : Prop where
  p1 : m.ix1 = .periodic → ∀ L k j, A.a1 L (k, j, 0) = A.a1 L (k, j, m.nmax1 L * d.nx1)
  p2 : m.f2 = true → m.ix2 = .periodic → ∀ L k i, A.a2 L (k, 0, i) = A.a2 L (k, m.nmax2 L * d.nx2, i)
  p3 : m.f3 = true → m.ix3 = .periodic → ∀ L j i, A.a3 L (0, j, i) = A.a3 L (m.nmax3 L * d.nx3, j, i)

/-- The geometry fits together: a cell face is the union of the faces of the next level it contains,
and periodic boundaries are the same surface. -/
structure GlobalGeom.Nested (A : GlobalGeom K) (m : Mesh) (d : Dims) : Prop extends A.Wraps m d where
  n1 : ∀ L k j i, A.a1 L (k, j, i) =
    ((parts m.f3 k).map fun k' => ((parts m.f2 j).map fun j' => A.a1 (L + 1) (k', j', 2 * i)).sum).sum
  n2 : m.f2 = true → ∀ L k j i, A.a2 L (k, j, i) =
    ((parts m.f3 k).map fun k' => ((parts true i).map fun i' => A.a2 (L + 1) (k', 2 * j, i')).sum).sum
  n3 : m.f3 = true → ∀ L k j i, A.a3 L (k, j, i) =
    ((parts m.f2 j).map fun j' => ((parts true i).map fun i' => A.a3 (L + 1) (2 * k, j', i')).sum).sum

/-- The geometry of block `(L, p)`. -/
def localGeom (d : Dims) (A : GlobalGeom K) (L : Nat) (p : Pos) : Geom K :=
  let idx := fun (c : Int × Int × Int) =>
    (p.x3 * d.nx3 + (c.1 - d.ks), p.x2 * d.nx2 + (c.2.1 - d.js), p.x1 * d.nx1 + (c.2.2 - d.is))
  ⟨fun c => A.a1 L (idx c), fun c => A.a2 L (idx c), fun c => A.a3 L (idx c), fun c => A.vol L (idx c)⟩

end Verif.FluxMsg
