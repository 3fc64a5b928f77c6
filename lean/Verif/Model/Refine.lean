import Verif.Model.CT
import Mathlib.Algebra.Order.Field.Basic

/-!
# Restriction and prolongation (src/mesh/mesh_refinement.cpp)

Exact arithmetic in an ordered field. The overloads for radiation (190-266, 620-766), which have the variable index last,
are not modelled. Scratch arrays of areas and volumes (`fvol_`, `sarea_x1_`, ...) that are filled just before use are
replaced by what they are filled with; the one array that is not always filled, `sarea_x2_[.][0]` in
`RestrictFieldX2`, is kept.
-/
namespace Verif.Grid
open Verif.Arr (loop)

/-- Coordinate arrays of `Coordinates` (coordinates.hpp:52-70): cell centres `x1v`, the positions `x1s2` etc. of the centres of the faces,
and `dx1f`. -/
structure Crd (K : Type) where
  x1v : Int → K
  x2v : Int → K
  x3v : Int → K
  x1s2 : Int → K
  x1s3 : Int → K
  x2s1 : Int → K
  x2s3 : Int → K
  x3s1 : Int → K
  x3s2 : Int → K
  dx1f : Int → K

namespace Dims
variable (d : Dims)
/-- `cis`, `cie`, `cjs`, `cje`, `cks`, `cke` (meshblock.cpp:93-100). -/
def cis : Int := d.ng
@[inherit_doc cis] def cie : Int := d.cis + d.nx1 / 2 - 1
@[inherit_doc cis] def cjs : Int := if d.nx2 > 1 then d.ng else 0
@[inherit_doc cis] def cje : Int := if d.nx2 > 1 then d.cjs + d.nx2 / 2 - 1 else 0
@[inherit_doc cis] def cks : Int := if d.nx3 > 1 then d.ng else 0
@[inherit_doc cis] def cke : Int := if d.nx3 > 1 then d.cks + d.nx3 / 2 - 1 else 0

/-- Fine index of a coarse index: `(ci - pmb->cis)*2 + pmb->is` and so on. -/
def fi (ci : Int) : Int := (ci - d.cis) * 2 + d.is
@[inherit_doc fi] def fj (cj : Int) : Int := (cj - d.cjs) * 2 + d.js
@[inherit_doc fi] def fk (ck : Int) : Int := (ck - d.cks) * 2 + d.ks
end Dims

/-- Assignments to array elements, in order. -/
def writes {P K : Type} [DecidableEq P] (l : List (P × K)) (st : P → K) : P → K :=
  l.foldl (fun st x => Function.update st x.1 x.2) st

variable {K : Type} [Field K] [LinearOrder K]

/-- `SIGN(x)` (defs.hpp.in:151). -/
def sign (x : K) : K := if x < 0 then -1 else 1

/-- The limited gradient: `gm=(c - m)/dxm; gp=(p - c)/dxp; 0.5*(SIGN(gm)+SIGN(gp))*min(|gm|,|gp|)`
(mesh_refinement.cpp:511-525 and everywhere below). -/
def slope (m c p dxm dxp : K) : K :=
  let gm := (c - m) / dxm
  let gp := (p - c) / dxp
  (1 / 2) * (sign gm + sign gp) * min |gm| |gp|

/-- `RestrictCellCenteredValues` (mesh_refinement.cpp:116-184); `G` is the fine geometry. -/
def restrictCC (d : Dims) (G : Geom K) (fine : A4 K) (sn en csi cei csj cej csk cek : Int) : A4 K → A4 K :=
  if d.nx3 > 1 then
    loop sn en fun n => loop csk cek fun ck => loop csj cej fun cj => loop csi cei fun ci => fun coarse =>
      let k := d.fk ck; let j := d.fj cj; let i := d.fi ci
      let tvol := ((G.vol (k, j, i) + G.vol (k, j+1, i)) + (G.vol (k, j, i+1) + G.vol (k, j+1, i+1)))
                + ((G.vol (k+1, j, i) + G.vol (k+1, j+1, i)) + (G.vol (k+1, j, i+1) + G.vol (k+1, j+1, i+1)))
      Function.update coarse (n, ck, cj, ci) (
        (((fine (n, k, j, i) * G.vol (k, j, i) + fine (n, k, j+1, i) * G.vol (k, j+1, i))
          + (fine (n, k, j, i+1) * G.vol (k, j, i+1) + fine (n, k, j+1, i+1) * G.vol (k, j+1, i+1)))
         + ((fine (n, k+1, j, i) * G.vol (k+1, j, i) + fine (n, k+1, j+1, i) * G.vol (k+1, j+1, i))
          + (fine (n, k+1, j, i+1) * G.vol (k+1, j, i+1) + fine (n, k+1, j+1, i+1) * G.vol (k+1, j+1, i+1)))) / tvol)
  else if d.nx2 > 1 then
    loop sn en fun n => loop csj cej fun cj => loop csi cei fun ci => fun coarse =>
      let j := d.fj cj; let i := d.fi ci
      let tvol := (G.vol (0, j, i) + G.vol (0, j+1, i)) + (G.vol (0, j, i+1) + G.vol (0, j+1, i+1))
      Function.update coarse (n, 0, cj, ci) (
        ((fine (n, 0, j, i) * G.vol (0, j, i) + fine (n, 0, j+1, i) * G.vol (0, j+1, i))
          + (fine (n, 0, j, i+1) * G.vol (0, j, i+1) + fine (n, 0, j+1, i+1) * G.vol (0, j+1, i+1))) / tvol)
  else
    loop sn en fun n => loop csi cei fun ci => fun coarse =>
      let i := d.fi ci
      let tvol := G.vol (d.ks, d.js, i) + G.vol (d.ks, d.js, i+1)
      Function.update coarse (n, 0, 0, ci)
        ((fine (n, d.ks, d.js, i) * G.vol (d.ks, d.js, i) + fine (n, d.ks, d.js, i+1) * G.vol (d.ks, d.js, i+1)) / tvol)

/-- `ProlongateCellCenteredValues` (mesh_refinement.cpp:464-608); `C` are the coarse coordinates (`pcoarsec`), `F` the fine ones. -/
def prolongCC (d : Dims) (C F : Crd K) (coarse : A4 K) (sn en si ei sj ej sk ek : Int) : A4 K → A4 K :=
  if d.nx3 > 1 then
    loop sn en fun n => loop sk ek fun k => loop sj ej fun j => loop si ei fun i =>
      let fk := d.fk k; let fj := d.fj j; let fi := d.fi i
      let dx1m := C.x1v i - C.x1v (i-1); let dx1p := C.x1v (i+1) - C.x1v i
      let dx2m := C.x2v j - C.x2v (j-1); let dx2p := C.x2v (j+1) - C.x2v j
      let dx3m := C.x3v k - C.x3v (k-1); let dx3p := C.x3v (k+1) - C.x3v k
      let dx1fm := C.x1v i - F.x1v fi; let dx1fp := F.x1v (fi+1) - C.x1v i
      let dx2fm := C.x2v j - F.x2v fj; let dx2fp := F.x2v (fj+1) - C.x2v j
      let dx3fm := C.x3v k - F.x3v fk; let dx3fp := F.x3v (fk+1) - C.x3v k
      let ccval := coarse (n, k, j, i)
      let gx1c := slope (coarse (n, k, j, i-1)) ccval (coarse (n, k, j, i+1)) dx1m dx1p
      let gx2c := slope (coarse (n, k, j-1, i)) ccval (coarse (n, k, j+1, i)) dx2m dx2p
      let gx3c := slope (coarse (n, k-1, j, i)) ccval (coarse (n, k+1, j, i)) dx3m dx3p
      writes [((n, fk, fj, fi), ccval - (gx1c*dx1fm + gx2c*dx2fm + gx3c*dx3fm)),
              ((n, fk, fj, fi+1), ccval + (gx1c*dx1fp - gx2c*dx2fm - gx3c*dx3fm)),
              ((n, fk, fj+1, fi), ccval - (gx1c*dx1fm - gx2c*dx2fp + gx3c*dx3fm)),
              ((n, fk, fj+1, fi+1), ccval + (gx1c*dx1fp + gx2c*dx2fp - gx3c*dx3fm)),
              ((n, fk+1, fj, fi), ccval - (gx1c*dx1fm + gx2c*dx2fm - gx3c*dx3fp)),
              ((n, fk+1, fj, fi+1), ccval + (gx1c*dx1fp - gx2c*dx2fm + gx3c*dx3fp)),
              ((n, fk+1, fj+1, fi), ccval - (gx1c*dx1fm - gx2c*dx2fp - gx3c*dx3fp)),
              ((n, fk+1, fj+1, fi+1), ccval + (gx1c*dx1fp + gx2c*dx2fp + gx3c*dx3fp))]
  else if d.nx2 > 1 then
    loop sn en fun n => loop sj ej fun j => loop si ei fun i =>
      let fk := d.ks; let fj := d.fj j; let fi := d.fi i
      let dx1m := C.x1v i - C.x1v (i-1); let dx1p := C.x1v (i+1) - C.x1v i
      let dx2m := C.x2v j - C.x2v (j-1); let dx2p := C.x2v (j+1) - C.x2v j
      let dx1fm := C.x1v i - F.x1v fi; let dx1fp := F.x1v (fi+1) - C.x1v i
      let dx2fm := C.x2v j - F.x2v fj; let dx2fp := F.x2v (fj+1) - C.x2v j
      let ccval := coarse (n, 0, j, i)
      let gx1c := slope (coarse (n, 0, j, i-1)) ccval (coarse (n, 0, j, i+1)) dx1m dx1p
      let gx2c := slope (coarse (n, 0, j-1, i)) ccval (coarse (n, 0, j+1, i)) dx2m dx2p
      writes [((n, fk, fj, fi), ccval - (gx1c*dx1fm + gx2c*dx2fm)),
              ((n, fk, fj, fi+1), ccval + (gx1c*dx1fp - gx2c*dx2fm)),
              ((n, fk, fj+1, fi), ccval - (gx1c*dx1fm - gx2c*dx2fp)),
              ((n, fk, fj+1, fi+1), ccval + (gx1c*dx1fp + gx2c*dx2fp))]
  else
    loop sn en fun n => loop si ei fun i =>
      let fk := d.ks; let fj := d.js; let fi := d.fi i
      let dx1m := C.x1v i - C.x1v (i-1); let dx1p := C.x1v (i+1) - C.x1v i
      let dx1fm := C.x1v i - F.x1v fi; let dx1fp := F.x1v (fi+1) - C.x1v i
      let ccval := coarse (n, 0, 0, i)
      let gx1c := slope (coarse (n, 0, 0, i-1)) ccval (coarse (n, 0, 0, i+1)) dx1m dx1p
      writes [((n, fk, fj, fi), ccval - gx1c*dx1fm),
              ((n, fk, fj, fi+1), ccval + gx1c*dx1fp)]

end Verif.Grid
