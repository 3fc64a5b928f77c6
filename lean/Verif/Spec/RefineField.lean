import Verif.Model.RefineField
import Verif.Spec.Refine
import Verif.Spec.CT

/-! # Coarse faces and the fine faces they consist of: vocabulary -/
namespace Verif.Grid
open Finset
variable {K : Type} [Field K] [LinearOrder K]

/-- The fine x1, x2, x3 faces that make up coarse face `(k, j, i)`. -/
def faces1 (d : Dims) (k j i : Int) : Finset (Int × Int × Int) := d.kk k ×ˢ d.jj j ×ˢ {d.fi i}
@[inherit_doc faces1] def faces2 (d : Dims) (k j i : Int) : Finset (Int × Int × Int) := d.kk k ×ˢ {d.fj j} ×ˢ d.ii i
@[inherit_doc faces1] def faces3 (d : Dims) (k j i : Int) : Finset (Int × Int × Int) := {d.fk k} ×ˢ d.jj j ×ˢ d.ii i

/-- Magnetic flux through a coarse face, summed over its fine faces. -/
def flux1 (d : Dims) (G : Geom K) (b : A3 K) (k j i : Int) : K := ∑ f ∈ faces1 d k j i, G.a1 f * b f
@[inherit_doc flux1] def flux2 (d : Dims) (G : Geom K) (b : A3 K) (k j i : Int) : K := ∑ f ∈ faces2 d k j i, G.a2 f * b f
@[inherit_doc flux1] def flux3 (d : Dims) (G : Geom K) (b : A3 K) (k j i : Int) : K := ∑ f ∈ faces3 d k j i, G.a3 f * b f

/-- Net flux out of coarse cell `(k, j, i)`, summed over the fine faces on its surface. -/
def outFine (d : Dims) (G : Geom K) (b : FF K) (k j i : Int) : K :=
  (flux1 d G b.x1f k j (i+1) - flux1 d G b.x1f k j i) +
  (if 1 < d.nx2 then flux2 d G b.x2f k (j+1) i - flux2 d G b.x2f k j i else 0) +
  (if 1 < d.nx3 then flux3 d G b.x3f (k+1) j i - flux3 d G b.x3f k j i else 0)

/-- Coarse areas are sums of fine areas. -/
structure AreasAdd (d : Dims) (G Gc : Geom K) : Prop where
  a1 : ∀ k j i, Gc.a1 (k, j, i) = ∑ f ∈ faces1 d k j i, G.a1 f
  a2 : ∀ k j i, Gc.a2 (k, j, i) = ∑ f ∈ faces2 d k j i, G.a2 f
  a3 : ∀ k j i, Gc.a3 (k, j, i) = ∑ f ∈ faces3 d k j i, G.a3 f

/-- What interpolation on x1 faces needs. With `fluxinterp_` in three dimensions, only that the code does not divide by zero; without, that
the centre of the coarse face is the centre of area of the fine ones (as on a uniform Cartesian mesh). -/
structure Fit1 (d : Dims) (flux : Bool) (G Gc : Geom K) (C F : Crd K) (k j i : Int) : Prop where
  x2 : (flux = false ∨ ¬ 1 < d.nx3) → 1 < d.nx2 → ∑ f ∈ faces1 d k j i, G.a1 f * (F.x2s1 f.2.1 - C.x2s1 j) = 0
  x3 : flux = false → 1 < d.nx3 → ∑ f ∈ faces1 d k j i, G.a1 f * (F.x3s1 f.1 - C.x3s1 k) = 0
  area : flux = true → 1 < d.nx3 → Gc.a1 (k, j, i) ≠ 0
@[inherit_doc Fit1] structure Fit2 (d : Dims) (flux : Bool) (tiny : K) (G Gc : Geom K) (C F : Crd K) (k j i : Int) : Prop where
  x1 : (flux = false ∨ ¬ 1 < d.nx3) → ∑ f ∈ faces2 d k j i, G.a2 f * (F.x1s2 f.2.2 - C.x1s2 i) = 0
  x3 : flux = false → 1 < d.nx3 → ∑ f ∈ faces2 d k j i, G.a2 f * (F.x3s2 f.1 - C.x3s2 k) = 0
  area : flux = true → 1 < d.nx3 → Gc.a2 (k, j, i) + tiny ≠ 0
@[inherit_doc Fit1] structure Fit3 (d : Dims) (flux : Bool) (G Gc : Geom K) (C F : Crd K) (k j i : Int) : Prop where
  x1 : (flux = false ∨ ¬ 1 < d.nx3) → ∑ f ∈ faces3 d k j i, G.a3 f * (F.x1s3 f.2.2 - C.x1s3 i) = 0
  x2 : (flux = false ∨ ¬ 1 < d.nx3) → 1 < d.nx2 → ∑ f ∈ faces3 d k j i, G.a3 f * (F.x2s3 f.2.1 - C.x2s3 j) = 0
  area : flux = true → 1 < d.nx3 → Gc.a3 (k, j, i) ≠ 0

/-- What the interpolation inside a coarse cell needs: it divides by the areas of the fine faces inside, and in three dimensions by sums of
squared lengths. -/
structure FitIn (d : Dims) (G : Geom K) (len : EF K) (F : Crd K) (k j i : Int) : Prop where
  a1 : ∀ k' ∈ d.kk k, ∀ j' ∈ d.jj j, G.a1 (k', j', d.fi i + 1) ≠ 0
  a2 : 1 < d.nx2 → ∀ k' ∈ d.kk k, ∀ i' ∈ d.ii i, G.a2 (k', d.fj j + 1, i') ≠ 0
  a3 : 1 < d.nx3 → ∀ j' ∈ d.jj j, ∀ i' ∈ d.ii i, G.a3 (d.fk k + 1, j', i') ≠ 0
  s : 1 < d.nx3 →
    let s1 := (F.dx1f (d.fi i) + F.dx1f (d.fi i + 1)) ^ 2
    let s2 := (len.x2e (d.fk k + 1, d.fj j, d.fi i + 1) + len.x2e (d.fk k + 1, d.fj j + 1, d.fi i + 1)) ^ 2
    let s3 := (len.x3e (d.fk k, d.fj j + 1, d.fi i + 1) + len.x3e (d.fk k + 1, d.fj j + 1, d.fi i + 1)) ^ 2
    s2 + s3 ≠ 0 ∧ s1 + s3 ≠ 0 ∧ s1 + s2 ≠ 0

/-- Coarse cell `(k, j, i)` of range `b` has on each of its faces that prolongation skips (`s`) the flux of the coarse field: the block that owns
the face has put it there. -/
structure Given (d : Dims) (G Gc : Geom K) (s : Skip) (b : Box) (coarse fine : FF K) (k j i : Int) : Prop where
  i1 : s.i1 = true → i = b.si → flux1 d G fine.x1f k j i = Gc.a1 (k, j, i) * coarse.x1f (k, j, i)
  o1 : s.o1 = true → i = b.ei → flux1 d G fine.x1f k j (i+1) = Gc.a1 (k, j, i+1) * coarse.x1f (k, j, i+1)
  i2 : s.i2 = true → 1 < d.nx2 → j = b.sj → flux2 d G fine.x2f k j i = Gc.a2 (k, j, i) * coarse.x2f (k, j, i)
  o2 : s.o2 = true → 1 < d.nx2 → j = b.ej → flux2 d G fine.x2f k (j+1) i = Gc.a2 (k, j+1, i) * coarse.x2f (k, j+1, i)
  i3 : s.i3 = true → 1 < d.nx3 → k = b.sk → flux3 d G fine.x3f k j i = Gc.a3 (k, j, i) * coarse.x3f (k, j, i)
  o3 : s.o3 = true → 1 < d.nx3 → k = b.ek → flux3 d G fine.x3f (k+1) j i = Gc.a3 (k+1, j, i) * coarse.x3f (k+1, j, i)

/-- `Fit1`, `Fit2`, `Fit3` on all faces of coarse cell `(k, j, i)` and `FitIn` inside. -/
structure FitCell (d : Dims) (flux : Bool) (tiny : K) (G Gc : Geom K) (len : EF K) (C F : Crd K) (k j i : Int) : Prop where
  m1 : Fit1 d flux G Gc C F k j i
  p1 : Fit1 d flux G Gc C F k j (i+1)
  m2 : 1 < d.nx2 → Fit2 d flux tiny G Gc C F k j i
  p2 : 1 < d.nx2 → Fit2 d flux tiny G Gc C F k (j+1) i
  m3 : 1 < d.nx3 → Fit3 d flux G Gc C F k j i
  p3 : 1 < d.nx3 → Fit3 d flux G Gc C F (k+1) j i
  inside : FitIn d G len F k j i

/-- A uniform Cartesian mesh, as seen from the faces: cell sizes `h`, origin `o`, fine areas `a`, and the centres of the coarse cells between
the centres of their fine cells. -/
structure UniformF (d : Dims) (G : Geom K) (C F : Crd K) (h1 h2 h3 o1 o2 o3 a1 a2 a3 : K) : Prop where
  f12 : ∀ i : Int, F.x1s2 i = o1 + h1 * (i + 1/2)
  f13 : ∀ i : Int, F.x1s3 i = o1 + h1 * (i + 1/2)
  f21 : ∀ i : Int, F.x2s1 i = o2 + h2 * (i + 1/2)
  f23 : ∀ i : Int, F.x2s3 i = o2 + h2 * (i + 1/2)
  f31 : ∀ i : Int, F.x3s1 i = o3 + h3 * (i + 1/2)
  f32 : ∀ i : Int, F.x3s2 i = o3 + h3 * (i + 1/2)
  c12 : ∀ i : Int, C.x1s2 i = o1 + h1 * (d.fi i + 1)
  c13 : ∀ i : Int, C.x1s3 i = o1 + h1 * (d.fi i + 1)
  c21 : ∀ i : Int, C.x2s1 i = o2 + h2 * (d.fj i + 1)
  c23 : ∀ i : Int, C.x2s3 i = o2 + h2 * (d.fj i + 1)
  c31 : ∀ i : Int, C.x3s1 i = o3 + h3 * (d.fk i + 1)
  c32 : ∀ i : Int, C.x3s2 i = o3 + h3 * (d.fk i + 1)
  a1 : ∀ f, G.a1 f = a1
  a2 : ∀ f, G.a2 f = a2
  a3 : ∀ f, G.a3 f = a3

end Verif.Grid
