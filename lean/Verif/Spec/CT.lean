import Verif.Model.CT

/-! # Divergence of a face-centred field: vocabulary -/
namespace Verif.Grid
variable {K : Type} [Field K]

/-- Magnetic flux out of cell `(k, j, i)` through its x1, x2, x3 faces. -/
def out1 (G : Geom K) (b : FF K) (k j i : Int) : K :=
  G.a1 (k, j, i+1) * b.x1f (k, j, i+1) - G.a1 (k, j, i) * b.x1f (k, j, i)
@[inherit_doc out1] def out2 (G : Geom K) (b : FF K) (k j i : Int) : K :=
  G.a2 (k, j+1, i) * b.x2f (k, j+1, i) - G.a2 (k, j, i) * b.x2f (k, j, i)
@[inherit_doc out1] def out3 (G : Geom K) (b : FF K) (k j i : Int) : K :=
  G.a3 (k+1, j, i) * b.x3f (k+1, j, i) - G.a3 (k, j, i) * b.x3f (k, j, i)

/-- Net magnetic flux out of the cell in the dimensions of the problem: the divergence of `b` times the
volume of the cell. -/
def divB (d : Dims) (G : Geom K) (b : FF K) (k j i : Int) : K :=
  out1 G b k j i + (if 1 < d.nx2 then out2 G b k j i else 0) + (if 1 < d.nx3 then out3 G b k j i else 0)

/-- Net flux through all six faces, whatever the dimension of the problem. -/
def divB6 (G : Geom K) (b : FF K) (k j i : Int) : K := out1 G b k j i + out2 G b k j i + out3 G b k j i

/-- Line integral of the electric field along an edge. -/
def EF.line1 (e len : EF K) (k j i : Int) : K := len.x1e (k, j, i) * e.x1e (k, j, i)
@[inherit_doc EF.line1] def EF.line2 (e len : EF K) (k j i : Int) : K := len.x2e (k, j, i) * e.x2e (k, j, i)
@[inherit_doc EF.line1] def EF.line3 (e len : EF K) (k j i : Int) : K := len.x3e (k, j, i) * e.x3e (k, j, i)

/-- What the boundary code provides at a pole, for the row of faces `j`: the faces have no area, the edges around the pole
have no length, and the electric field along the axis is the same seen from all azimuths. -/
structure AtPole (d : Dims) (G : Geom K) (len e : EF K) (j : Int) : Prop where
  area : ∀ k i, G.a2 (k, j, i) = 0
  around : ∀ k i, len.x3e (k, j, i) = 0
  along : 1 < d.nx3 → ∀ k i, d.ks ≤ k → k ≤ d.ke → d.is ≤ i → i ≤ d.ie → e.line1 len (k+1) j i = e.line1 len k j i

end Verif.Grid
