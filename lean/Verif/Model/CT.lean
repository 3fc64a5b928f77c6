import Verif.Model.Grid
import Mathlib.Algebra.Field.Defs

/-!
# Constrained transport (src/field/ct.cpp)

Exact arithmetic in a field.
-/
namespace Verif.Grid
open Verif.Arr (loop)
variable {K : Type} [Field K]

/-- `FaceField` (athena.hpp:120-130). -/
structure FF (K : Type) where
  x1f : A3 K
  x2f : A3 K
  x3f : A3 K

/-- `EdgeField` (athena.hpp:133-143), used for the electric field `e` and for the edge lengths
`Edge1Length(k,j,..)(i)`, `Edge2Length`, `Edge3Length`. -/
structure EF (K : Type) where
  x1e : A3 K
  x2e : A3 K
  x3e : A3 K

/-- `for (int i=s; i<=e; ++i) b(k,j,i) -= (wght/area(i))*c(i)`. -/
def subRow (k j s e : Int) (wght : K) (area : A3 K) (c : Int → K) : A3 K → A3 K :=
  loop s e fun i b => Function.update b (k, j, i) (b (k, j, i) - (wght / area (k, j, i)) * c i)
/-- The same with `+=`. -/
def addRow (k j s e : Int) (wght : K) (area : A3 K) (c : Int → K) : A3 K → A3 K :=
  loop s e fun i b => Function.update b (k, j, i) (b (k, j, i) + (wght / area (k, j, i)) * c i)

/-- Update of `b_out.x1f` (ct.cpp:39-63). -/
def ctB1 (d : Dims) (G : Geom K) (len e : EF K) (wght : K) : A3 K → A3 K :=
  loop d.ks d.ke fun k => loop d.js d.je fun j => fun b =>
    if d.nx2 > 1 then
      let b := subRow k j d.is (d.ie+1) wght G.a1 (fun i =>
        len.x3e (k, j+1, i) * e.x3e (k, j+1, i) - len.x3e (k, j, i) * e.x3e (k, j, i)) b
      if d.nx3 > 1 then
        addRow k j d.is (d.ie+1) wght G.a1 (fun i =>
          len.x2e (k+1, j, i) * e.x2e (k+1, j, i) - len.x2e (k, j, i) * e.x2e (k, j, i)) b
      else b
    else b

/-- Update of `b_out.x2f` (ct.cpp:66-93). `pin`, `pout`: the inner or outer x2 boundary of the block is
`polar` or `polar_wedge`. -/
def ctB2 (d : Dims) (pin pout : Bool) (G : Geom K) (len e : EF K) (wght : K) : A3 K → A3 K :=
  loop d.ks d.ke fun k =>
    let jl := if pin then d.js+1 else d.js
    let ju := if pout then d.je else d.je+1
    loop jl ju fun j => fun b =>
      let b := addRow k j d.is d.ie wght G.a2 (fun i =>
        len.x3e (k, j, i+1) * e.x3e (k, j, i+1) - len.x3e (k, j, i) * e.x3e (k, j, i)) b
      if d.nx3 > 1 then
        subRow k j d.is d.ie wght G.a2 (fun i =>
          len.x1e (k+1, j, i) * e.x1e (k+1, j, i) - len.x1e (k, j, i) * e.x1e (k, j, i)) b
      else b

/-- Update of `b_out.x3f` (ct.cpp:96-115). -/
def ctB3 (d : Dims) (G : Geom K) (len e : EF K) (wght : K) : A3 K → A3 K :=
  loop d.ks (d.ke+1) fun k => loop d.js d.je fun j => fun b =>
    let b := subRow k j d.is d.ie wght G.a3 (fun i =>
      len.x2e (k, j, i+1) * e.x2e (k, j, i+1) - len.x2e (k, j, i) * e.x2e (k, j, i)) b
    if d.nx2 > 1 then
      addRow k j d.is d.ie wght G.a3 (fun i =>
        len.x1e (k, j+1, i) * e.x1e (k, j+1, i) - len.x1e (k, j, i) * e.x1e (k, j, i)) b
    else b

/-- `Field::CT(wght, b_out)` (ct.cpp:31-117). `CT_STS` (121-250) makes the same changes to `b_out`; its
registers for rkl2 are not modelled. -/
def ct (d : Dims) (pin pout : Bool) (G : Geom K) (len e : EF K) (wght : K) (b : FF K) : FF K where
  x1f := ctB1 d G len e wght b.x1f
  x2f := ctB2 d pin pout G len e wght b.x2f
  x3f := ctB3 d G len e wght b.x3f

end Verif.Grid
