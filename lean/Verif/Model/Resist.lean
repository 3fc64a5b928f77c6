import Verif.Model.Diffusion
import Verif.Model.CT

/-!
# Ohmic resistivity and ambipolar diffusion
(src/field/field_diffusion/field_diffusion.cpp, diffusivity.cpp)

Exact arithmetic in an ordered field. Loops that write every element once are given in closed form, with the range as
condition and `old` the content of the array before. `etaB(n,k,j,i)`: `n` is 0 for `ohmic`, 1 for `hall`, 2 for `ambipolar`
(field_diffusion.hpp:50-54). `bc(n,k,j,i)`: `n` is 0, 1, 2 for `IB1`, `IB2`, `IB3`.
-/
namespace Verif.Resist
open Verif.Grid
open Verif.Diffusion (Met fac least addTo)
open Verif.Arr (loop)
variable {K : Type} [Field K] [LinearOrder K]

/-- `VolCenter1Length` etc. and `VolCenterFace1Area` etc.: lengths and areas of the grid that joins cell centres. -/
structure VC (K : Type) where
  l1 : A3 K
  l2 : A3 K
  l3 : A3 K
  a1 : A3 K
  a2 : A3 K
  a3 : A3 K

/-- Cartesian coordinates (coordinates.cpp:390-413, 503-531). -/
def cartVC (M : Met K) : VC K where
  l1 q := M.dx1v q.2.2
  l2 q := M.dx2v q.2.1
  l3 q := M.dx3v q.1
  a1 q := M.dx2v q.2.1 * M.dx3v q.1
  a2 q := M.dx1v q.2.2 * M.dx3v q.1
  a3 q := M.dx1v q.2.2 * M.dx2v q.2.1

/-- Cylindrical coordinates (cylindrical.cpp:162, 194-202, 257-275); the others as above. -/
noncomputable def cylVC (X : Coord.XF) (M : Met ℝ) : VC ℝ where
  l1 q := M.dx1v q.2.2
  l2 q := Coord.x1v X .cylindrical q.2.2 * M.dx2v q.2.1
  l3 q := M.dx3v q.1
  a1 q := Coord.x1v X .cylindrical q.2.2 * M.dx2v q.2.1 * M.dx3v q.1
  a2 q := M.dx1v q.2.2 * M.dx3v q.1
  a3 q := 1 / 2 * (Coord.x1v X .cylindrical (q.2.2+1) ^ 2 - Coord.x1v X .cylindrical q.2.2 ^ 2) * M.dx2v q.2.1

/-- Spherical coordinates with `nx2 > 1` (spherical_polar.cpp:250-286, 354-373, 448-474), away from the poles, where
`coord_area1vc_j_` has special values (288-291). -/
noncomputable def sphVC (X : Coord.XF) (nx2 : ℤ) (M : Met ℝ) : VC ℝ where
  l1 q := M.dx1v q.2.2
  l2 q := Coord.x1v X .spherical q.2.2 * M.dx2v q.2.1
  l3 q := Coord.x1v X .spherical q.2.2 * |Real.sin (Coord.x2v X nx2 .spherical q.2.1)| * M.dx3v q.1
  a1 q := Coord.x1v X .spherical q.2.2 ^ 2
    * |Real.cos (Coord.x2v X nx2 .spherical q.2.1) - Real.cos (Coord.x2v X nx2 .spherical (q.2.1+1))| * M.dx3v q.1
  a2 q := 1 / 2 * (Coord.x1v X .spherical (q.2.2+1) ^ 2 - Coord.x1v X .spherical q.2.2 ^ 2)
    * |Real.sin (Coord.x2v X nx2 .spherical q.2.1)| * M.dx3v q.1
  a3 q := 1 / 2 * (Coord.x1v X .spherical (q.2.2+1) ^ 2 - Coord.x1v X .spherical q.2.2 ^ 2) * M.dx2v q.2.1

/-- `ext2`, `ext3` (diffusivity.cpp:76-77). -/
def ext2 (d : Dims) : Int := if d.nx2 > 1 then 1 else 0
def ext3 (d : Dims) : Int := if d.nx3 > 1 then 1 else 0

/-- `J1` of `CalcCurrent` (diffusivity.cpp:107-118, 133-144). -/
def cur1 (d : Dims) (G : VC K) (b : FF K) (old : A3 K) : A3 K := fun (k, j, i) =>
  let x := old (k, j, i)
  let x := if d.nx2 > 1 ∧ (d.ks - ext3 d ≤ k ∧ k ≤ d.ke + 2 * ext3 d) ∧ (d.js - 1 ≤ j ∧ j ≤ d.je + 2) ∧ d.is - 2 ≤ i ∧ i ≤ d.ie + 2 then
      (G.l3 (k - ext3 d, j, i) * b.x3f (k, j, i) - G.l3 (k - ext3 d, j - 1, i) * b.x3f (k, j - 1, i)) / G.a1 (k - ext3 d, j - 1, i)
    else x
  if d.nx3 > 1 ∧ (d.ks - 1 ≤ k ∧ k ≤ d.ke + 2) ∧ (d.js - 1 ≤ j ∧ j ≤ d.je + 2) ∧ d.is - 2 ≤ i ∧ i ≤ d.ie + 2 then
    x - (G.l2 (k, j - 1, i) * b.x2f (k, j, i) - G.l2 (k - 1, j - 1, i) * b.x2f (k - 1, j, i)) / G.a1 (k - 1, j - 1, i)
  else x

/-- `J2` of `CalcCurrent` (diffusivity.cpp:84-93, 146-157). -/
def cur2 (d : Dims) (G : VC K) (b : FF K) (old : A3 K) : A3 K := fun (k, j, i) =>
  let x := old (k, j, i)
  let x := if (d.ks - ext3 d ≤ k ∧ k ≤ d.ke + 2 * ext3 d) ∧ (d.js - 2 * ext2 d ≤ j ∧ j ≤ d.je + 2 * ext2 d) ∧
      d.is - 1 ≤ i ∧ i ≤ d.ie + 2 then
      -(G.l3 (k - ext3 d, j, i) * b.x3f (k, j, i) - G.l3 (k - ext3 d, j, i - 1) * b.x3f (k, j, i - 1)) / G.a2 (k - ext3 d, j, i - 1)
    else x
  if d.nx3 > 1 ∧ (d.ks - 1 ≤ k ∧ k ≤ d.ke + 2) ∧ (d.js - 2 ≤ j ∧ j ≤ d.je + 2) ∧ d.is - 1 ≤ i ∧ i ≤ d.ie + 2 then
    x + (G.l1 (k, j, i - 1) * b.x1f (k, j, i) - G.l1 (k - 1, j, i - 1) * b.x1f (k - 1, j, i)) / G.a2 (k - 1, j, i - 1)
  else x

/-- `J3` of `CalcCurrent` (diffusivity.cpp:95-104, 120-130). -/
def cur3 (d : Dims) (G : VC K) (b : FF K) (old : A3 K) : A3 K := fun (k, j, i) =>
  let x := old (k, j, i)
  let x := if (d.ks - 2 * ext3 d ≤ k ∧ k ≤ d.ke + 2 * ext3 d) ∧ (d.js - ext2 d ≤ j ∧ j ≤ d.je + 2 * ext2 d) ∧
      d.is - 1 ≤ i ∧ i ≤ d.ie + 2 then
      (G.l2 (k, j - ext2 d, i) * b.x2f (k, j, i) - G.l2 (k, j - ext2 d, i - 1) * b.x2f (k, j, i - 1)) / G.a3 (k, j - ext2 d, i - 1)
    else x
  if d.nx2 > 1 ∧ (d.ks - 2 * ext3 d ≤ k ∧ k ≤ d.ke + 2 * ext3 d) ∧ (d.js - 1 ≤ j ∧ j ≤ d.je + 2) ∧ d.is - 1 ≤ i ∧ i ≤ d.ie + 2 then
    x - (G.l1 (k, j, i - 1) * b.x1f (k, j, i) - G.l1 (k, j - 1, i - 1) * b.x1f (k, j - 1, i)) / G.a3 (k, j - 1, i - 1)
  else x

/-- `CalcCurrent` (diffusivity.cpp:69-160); `old` is `jedge_` before. -/
def current (d : Dims) (G : VC K) (b : FF K) (old : EF K) : EF K :=
  ⟨cur1 d G b old.x1e, cur2 d G b old.x2e, cur3 d G b old.x3e⟩

/-! ## Electric fields -/

/-- The edges written in one, two and three dimensions by `OhmicEMF` and `AmbipolarEMF`, where `f1`, `f2`, `f3` are added.
With one cell in a direction the upper edge gets a copy of the lower one (diffusivity.cpp:176-186, 190-208, 212-229). In the
range `i = ie+1` edges beyond those of the active cells are written too. -/
def addEdges (d : Dims) (f1 f2 f3 : Int → Int → Int → K) (e : EF K) : EF K :=
  if d.nx2 = 1 then
    { e with
      x2e := fun (k, j, i) =>
        if (k = d.ke + 1 ∨ k = d.ks) ∧ j = d.js ∧ d.is ≤ i ∧ i ≤ d.ie + 1 then e.x2e (d.ks, d.js, i) + f2 d.ks d.js i
        else e.x2e (k, j, i)
      x3e := fun (k, j, i) =>
        if k = d.ks ∧ (j = d.je + 1 ∨ j = d.js) ∧ d.is ≤ i ∧ i ≤ d.ie + 1 then e.x3e (d.ks, d.js, i) + f3 d.ks d.js i
        else e.x3e (k, j, i) }
  else if d.nx3 = 1 then
    { x1e := fun (k, j, i) =>
        if (k = d.ke + 1 ∨ k = d.ks) ∧ (d.js ≤ j ∧ j ≤ d.je + 1) ∧ d.is ≤ i ∧ i ≤ d.ie + 1 then e.x1e (d.ks, j, i) + f1 d.ks j i
        else e.x1e (k, j, i)
      x2e := fun (k, j, i) =>
        if (k = d.ke + 1 ∨ k = d.ks) ∧ (d.js ≤ j ∧ j ≤ d.je + 1) ∧ d.is ≤ i ∧ i ≤ d.ie + 1 then e.x2e (d.ks, j, i) + f2 d.ks j i
        else e.x2e (k, j, i)
      x3e := fun (k, j, i) =>
        if k = d.ks ∧ (d.js ≤ j ∧ j ≤ d.je + 1) ∧ d.is ≤ i ∧ i ≤ d.ie + 1 then e.x3e (d.ks, j, i) + f3 d.ks j i
        else e.x3e (k, j, i) }
  else
    { x1e := fun (k, j, i) =>
        if (d.ks ≤ k ∧ k ≤ d.ke + 1) ∧ (d.js ≤ j ∧ j ≤ d.je + 1) ∧ d.is ≤ i ∧ i ≤ d.ie + 1 then e.x1e (k, j, i) + f1 k j i
        else e.x1e (k, j, i)
      x2e := fun (k, j, i) =>
        if (d.ks ≤ k ∧ k ≤ d.ke + 1) ∧ (d.js ≤ j ∧ j ≤ d.je + 1) ∧ d.is ≤ i ∧ i ≤ d.ie + 1 then e.x2e (k, j, i) + f2 k j i
        else e.x2e (k, j, i)
      x3e := fun (k, j, i) =>
        if (d.ks ≤ k ∧ k ≤ d.ke + 1) ∧ (d.js ≤ j ∧ j ≤ d.je + 1) ∧ d.is ≤ i ∧ i ≤ d.ie + 1 then e.x3e (k, j, i) + f3 k j i
        else e.x3e (k, j, i) }

/-- Diffusivity `n` at the edges along direction 1 (diffusivity.cpp:194, 216-217). -/
def eta1 (d : Dims) (etaB : A4 K) (n k j i : Int) : K :=
  if d.nx3 = 1 then 1 / 2 * (etaB (n, k, j, i) + etaB (n, k, j-1, i))
  else 1 / 4 * (etaB (n, k, j, i) + etaB (n, k, j-1, i) + etaB (n, k-1, j, i) + etaB (n, k-1, j-1, i))

/-- The same for direction 2 (diffusivity.cpp:178, 198, 220-221). -/
def eta2 (d : Dims) (etaB : A4 K) (n k j i : Int) : K :=
  if d.nx2 = 1 then 1 / 2 * (etaB (n, k, j, i-1) + etaB (n, k, j, i))
  else if d.nx3 = 1 then 1 / 2 * (etaB (n, k, j, i) + etaB (n, k, j, i-1))
  else 1 / 4 * (etaB (n, k, j, i) + etaB (n, k, j, i-1) + etaB (n, k-1, j, i) + etaB (n, k-1, j, i-1))

/-- The same for direction 3 (diffusivity.cpp:178, 202-203, 224-225). -/
def eta3 (d : Dims) (etaB : A4 K) (n k j i : Int) : K :=
  if d.nx2 = 1 then 1 / 2 * (etaB (n, k, j, i-1) + etaB (n, k, j, i))
  else 1 / 4 * (etaB (n, k, j, i) + etaB (n, k, j, i-1) + etaB (n, k, j-1, i) + etaB (n, k, j-1, i-1))

/-- `OhmicEMF` (diffusivity.cpp:167-231). -/
def ohmicEMF (d : Dims) (etaB : A4 K) (J : EF K) : EF K → EF K :=
  addEdges d (fun k j i => eta1 d etaB 0 k j i * J.x1e (k, j, i)) (fun k j i => eta2 d etaB 0 k j i * J.x2e (k, j, i))
    (fun k j i => eta3 d etaB 0 k j i * J.x3e (k, j, i))

/-- `eta_A * (J - JdotB*intB/Bsq)` with `Bsq` increased by `TINY_NUMBER`; `c` selects the component. -/
def adTerm (tiny eta : K) (J B : K × K × K) (c : K × K × K → K) : K :=
  let bsq := B.1 ^ 2 + B.2.1 ^ 2 + B.2.2 ^ 2 + tiny
  let jb := J.1 * B.1 + J.2.1 * B.2.1 + J.2.2 * B.2.2
  eta * (c J - jb * c B / bsq)

/-- `emf.x` of `AmbipolarEMF` (diffusivity.cpp:273-288, 333-350). -/
def amb1 (d : Dims) (tiny : K) (etaB : A4 K) (b : FF K) (bc : A4 K) (J : EF K) (k j i : Int) : K :=
  let jv := if d.nx3 = 1 then
      (J.x1e (k, j, i), 1 / 4 * (J.x2e (k, j, i) + J.x2e (k, j, i+1) + J.x2e (k, j-1, i) + J.x2e (k, j-1, i+1)),
        1 / 2 * (J.x3e (k, j, i) + J.x3e (k, j, i+1)))
    else
      (J.x1e (k, j, i), 1 / 4 * (J.x2e (k, j, i) + J.x2e (k, j, i+1) + J.x2e (k, j-1, i) + J.x2e (k, j-1, i+1)),
        1 / 4 * (J.x3e (k, j, i) + J.x3e (k, j, i+1) + J.x3e (k-1, j, i) + J.x3e (k-1, j, i+1)))
  let bv := if d.nx3 = 1 then
      (1 / 2 * (bc (0, k, j, i) + bc (0, k, j-1, i)), b.x2f (k, j, i), 1 / 2 * (b.x3f (k, j, i) + b.x3f (k, j-1, i)))
    else
      (1 / 4 * (bc (0, k, j, i) + bc (0, k, j-1, i) + bc (0, k-1, j, i) + bc (0, k-1, j-1, i)),
        1 / 2 * (b.x2f (k, j, i) + b.x2f (k-1, j, i)), 1 / 2 * (b.x3f (k, j, i) + b.x3f (k, j-1, i)))
  adTerm tiny (eta1 d etaB 2 k j i) jv bv fun v => v.1

/-- `emf.y` (diffusivity.cpp:249-264, 290-306, 352-369). In one dimension `JdotB` has no term of direction 1. -/
def amb2 (d : Dims) (tiny : K) (etaB : A4 K) (b : FF K) (bc : A4 K) (J : EF K) (k j i : Int) : K :=
  let jv := if d.nx2 = 1 then (0, J.x2e (k, j, i), J.x3e (k, j, i))
    else if d.nx3 = 1 then
      (1 / 4 * (J.x1e (k, j, i) + J.x1e (k, j+1, i) + J.x1e (k, j, i-1) + J.x1e (k, j+1, i-1)), J.x2e (k, j, i),
        1 / 2 * (J.x3e (k, j, i) + J.x3e (k, j+1, i)))
    else
      (1 / 4 * (J.x1e (k, j, i) + J.x1e (k, j, i-1) + J.x1e (k, j+1, i) + J.x1e (k, j+1, i-1)), J.x2e (k, j, i),
        1 / 4 * (J.x3e (k, j, i) + J.x3e (k, j+1, i) + J.x3e (k-1, j, i) + J.x3e (k-1, j+1, i)))
  let bv := if d.nx2 = 1 then
      (b.x1f (k, j, i), 1 / 2 * (b.x2f (k, j, i) + b.x2f (k, j, i-1)), 1 / 2 * (b.x3f (k, j, i) + b.x3f (k, j, i-1)))
    else if d.nx3 = 1 then
      (b.x1f (k, j, i), 1 / 2 * (bc (1, k, j, i) + bc (1, k, j, i-1)), 1 / 2 * (b.x3f (k, j, i) + b.x3f (k, j, i-1)))
    else
      (1 / 2 * (b.x1f (k, j, i) + b.x1f (k-1, j, i)),
        1 / 4 * (bc (1, k, j, i) + bc (1, k, j, i-1) + bc (1, k-1, j, i) + bc (1, k-1, j, i-1)),
        1 / 2 * (b.x3f (k, j, i) + b.x3f (k, j, i-1)))
  adTerm tiny (eta2 d etaB 2 k j i) jv bv fun v => v.2.1

/-- `emf.z` (diffusivity.cpp:249-264, 308-325, 371-388). -/
def amb3 (d : Dims) (tiny : K) (etaB : A4 K) (b : FF K) (bc : A4 K) (J : EF K) (k j i : Int) : K :=
  let jv := if d.nx2 = 1 then (0, J.x2e (k, j, i), J.x3e (k, j, i))
    else if d.nx3 = 1 then
      (1 / 2 * (J.x1e (k, j, i) + J.x1e (k, j, i-1)), 1 / 2 * (J.x2e (k, j, i) + J.x2e (k, j-1, i)), J.x3e (k, j, i))
    else
      (1 / 4 * (J.x1e (k, j, i) + J.x1e (k, j, i-1) + J.x1e (k+1, j, i) + J.x1e (k+1, j, i-1)),
        1 / 4 * (J.x2e (k, j, i) + J.x2e (k, j-1, i) + J.x2e (k+1, j, i) + J.x2e (k+1, j-1, i)), J.x3e (k, j, i))
  let bv := if d.nx2 = 1 then
      (b.x1f (k, j, i), 1 / 2 * (b.x2f (k, j, i) + b.x2f (k, j, i-1)), 1 / 2 * (b.x3f (k, j, i) + b.x3f (k, j, i-1)))
    else if d.nx3 = 1 then
      (1 / 2 * (b.x1f (k, j, i) + b.x1f (k, j-1, i)), 1 / 2 * (b.x2f (k, j, i) + b.x2f (k, j, i-1)),
        1 / 4 * (b.x3f (k, j, i) + b.x3f (k, j, i-1) + b.x3f (k, j-1, i) + b.x3f (k, j-1, i-1)))
    else
      (1 / 2 * (b.x1f (k, j, i) + b.x1f (k, j-1, i)), 1 / 2 * (b.x2f (k, j, i) + b.x2f (k, j, i-1)),
        1 / 4 * (bc (2, k, j, i) + bc (2, k, j, i-1) + bc (2, k, j-1, i) + bc (2, k, j-1, i-1)))
  adTerm tiny (eta3 d etaB 2 k j i) jv bv fun v => v.2.2

/-- `AmbipolarEMF` (diffusivity.cpp:238-394). -/
def ambipolarEMF (d : Dims) (tiny : K) (etaB : A4 K) (b : FF K) (bc : A4 K) (J : EF K) : EF K → EF K :=
  addEdges d (amb1 d tiny etaB b bc J) (amb2 d tiny etaB b bc J) (amb3 d tiny etaB b bc J)

/-- `eta_ohm`, `eta_hall`, `eta_ad` (field_diffusion.cpp:36-39). -/
structure Coefs (K : Type) where
  ohm : K
  hall : K
  ad : K

/-- `ConstDiffusivity` (diffusivity.cpp:28-62), for all cells; `old` is `etaB` before. -/
def constDiffusivity (c : Coefs K) (rho bmag : A3 K) (old : A4 K) : A4 K := fun q =>
  if q.1 = 0 ∧ c.ohm > 0 then c.ohm
  else if q.1 = 1 ∧ c.hall ≠ 0 then c.hall * bmag q.2 / rho q.2
  else if q.1 = 2 ∧ c.ad > 0 then c.ad * bmag q.2 ^ 2
  else old q

/-- `CalcDiffusionEMF` (field_diffusion.cpp:97-115) without the Poynting flux: the new `e_oa`, given `e_oa` (`e`) and `jedge_`
(`old`) before. `etaB` is what `SetDiffusivity` has set. -/
def diffusionEMF (d : Dims) (G : VC K) (c : Coefs K) (tiny : K) (etaB : A4 K) (b : FF K) (bc : A4 K) (old e : EF K) : EF K :=
  if c.ohm = 0 ∧ c.ad = 0 then e
  else
    let J := current d G b old
    let e : EF K := ⟨fun _ => 0, fun _ => 0, fun _ => 0⟩
    let e := if c.ohm ≠ 0 then ohmicEMF d etaB J e else e
    if c.ad ≠ 0 then ambipolarEMF d tiny etaB b bc J e else e

/-- `PoyntingFlux` (diffusivity.cpp:400-460); `old` is `pflux` before. -/
def poynting (d : Dims) (bc : A4 K) (e : EF K) (old : FF K) : FF K :=
  if d.nx2 = 1 then
    { old with
      x1f := fun (k, j, i) => if k = d.ks ∧ j = d.js ∧ d.is ≤ i ∧ i ≤ d.ie + 1 then
          -(1 / 2) * (bc (1, k, j, i) + bc (1, k, j, i-1)) * e.x3e (k, j, i)
            + 1 / 2 * (bc (2, k, j, i) + bc (2, k, j, i-1)) * e.x2e (k, j, i)
        else old.x1f (k, j, i) }
  else if d.nx3 = 1 then
    { old with
      x1f := fun (k, j, i) => if k = d.ks ∧ (d.js ≤ j ∧ j ≤ d.je + 1) ∧ d.is ≤ i ∧ i ≤ d.ie + 1 then
          -(1 / 4) * (bc (1, k, j, i) + bc (1, k, j, i-1)) * (e.x3e (k, j, i) + e.x3e (k, j+1, i))
            + 1 / 2 * (bc (2, k, j, i) + bc (2, k, j, i-1)) * e.x2e (k, j, i)
        else old.x1f (k, j, i)
      x2f := fun (k, j, i) => if k = d.ks ∧ (d.js ≤ j ∧ j ≤ d.je + 1) ∧ d.is ≤ i ∧ i ≤ d.ie + 1 then
          -(1 / 2) * (bc (2, k, j, i) + bc (2, k, j-1, i)) * e.x1e (k, j, i)
            + 1 / 4 * (bc (0, k, j, i) + bc (0, k, j-1, i)) * (e.x3e (k, j, i) + e.x3e (k, j, i+1))
        else old.x2f (k, j, i) }
  else
    { x1f := fun (k, j, i) => if (d.ks ≤ k ∧ k ≤ d.ke + 1) ∧ (d.js ≤ j ∧ j ≤ d.je + 1) ∧ d.is ≤ i ∧ i ≤ d.ie + 1 then
          -(1 / 4) * (bc (1, k, j, i) + bc (1, k, j, i-1)) * (e.x3e (k, j, i) + e.x3e (k, j+1, i))
            + 1 / 4 * (bc (2, k, j, i) + bc (2, k, j, i-1)) * (e.x2e (k, j, i) + e.x2e (k+1, j, i))
        else old.x1f (k, j, i)
      x2f := fun (k, j, i) => if (d.ks ≤ k ∧ k ≤ d.ke + 1) ∧ (d.js ≤ j ∧ j ≤ d.je + 1) ∧ d.is ≤ i ∧ i ≤ d.ie + 1 then
          -(1 / 4) * (bc (2, k, j, i) + bc (2, k, j-1, i)) * (e.x1e (k, j, i) + e.x1e (k+1, j, i))
            + 1 / 4 * (bc (0, k, j, i) + bc (0, k, j-1, i)) * (e.x3e (k, j, i) + e.x3e (k, j, i+1))
        else old.x2f (k, j, i)
      x3f := fun (k, j, i) => if (d.ks ≤ k ∧ k ≤ d.ke + 1) ∧ (d.js ≤ j ∧ j ≤ d.je + 1) ∧ d.is ≤ i ∧ i ≤ d.ie + 1 then
          -(1 / 4) * (bc (0, k, j, i) + bc (0, k-1, j, i)) * (e.x2e (k, j, i) + e.x2e (k, j, i+1))
            + 1 / 4 * (bc (1, k, j, i) + bc (1, k-1, j, i)) * (e.x1e (k, j, i) + e.x1e (k, j+1, i))
        else old.x3f (k, j, i) }

/-- `AddPoyntingFlux` (field_diffusion.cpp:186-231). -/
def addPoynting (d : Dims) (f : FF K) (F : Flx K) : Flx K :=
  let add (c : Int × Int × Int → Prop) [DecidablePred c] (f : A3 K) (x : A4 K) : A4 K := fun q =>
    if q.1 = 4 ∧ c q.2 then x q + f q.2 else x q
  if d.nx2 = 1 then
    { F with x1 := add (fun q => q.1 = d.ks ∧ q.2.1 = d.js ∧ d.is ≤ q.2.2 ∧ q.2.2 ≤ d.ie + 1) f.x1f F.x1 }
  else if d.nx3 = 1 then
    { F with
      x1 := add (fun q => q.1 = d.ks ∧ (d.js ≤ q.2.1 ∧ q.2.1 ≤ d.je + 1) ∧ d.is ≤ q.2.2 ∧ q.2.2 ≤ d.ie + 1) f.x1f F.x1
      x2 := add (fun q => q.1 = d.ks ∧ (d.js ≤ q.2.1 ∧ q.2.1 ≤ d.je + 1) ∧ d.is ≤ q.2.2 ∧ q.2.2 ≤ d.ie + 1) f.x2f F.x2 }
  else
    { x1 := add (fun q => (d.ks ≤ q.1 ∧ q.1 ≤ d.ke + 1) ∧ (d.js ≤ q.2.1 ∧ q.2.1 ≤ d.je + 1) ∧ d.is ≤ q.2.2 ∧ q.2.2 ≤ d.ie + 1) f.x1f F.x1
      x2 := add (fun q => (d.ks ≤ q.1 ∧ q.1 ≤ d.ke + 1) ∧ (d.js ≤ q.2.1 ∧ q.2.1 ≤ d.je + 1) ∧ d.is ≤ q.2.2 ∧ q.2.2 ≤ d.ie + 1) f.x2f F.x2
      x3 := add (fun q => (d.ks ≤ q.1 ∧ q.1 ≤ d.ke + 1) ∧ (d.js ≤ q.2.1 ∧ q.2.1 ≤ d.je + 1) ∧ d.is ≤ q.2.2 ∧ q.2.2 ≤ d.ie + 1) f.x3f F.x3 }

/-- `dt_oa` of `NewDiffusionDt` (field_diffusion.cpp:237-306) for one block; `w1`, `w2`, `w3` are `CenterWidth1..3`. -/
def newDtOA (d : Dims) (c : Coefs K) (realMax tiny : K) (w1 w2 w3 : A3 K) (etaB : A4 K) : K :=
  loop d.ks d.ke (fun k => loop d.js d.je fun j => loop d.is d.ie fun i m =>
    if c.ohm > 0 ∨ c.ad > 0 then
      let t := 0
      let t := if c.ohm > 0 then t + etaB (0, k, j, i) else t
      let t := if c.ad > 0 then t + etaB (2, k, j, i) else t
      min m (fac d * least d w1 w2 w3 (k, j, i) ^ 2 / (t + tiny))
    else m) realMax

/-- `dt_h` of the same function (lines 255-258, 297-302). -/
def newDtH (d : Dims) (c : Coefs K) (realMax tiny : K) (w1 w2 w3 : A3 K) (etaB : A4 K) : K :=
  let facH : K := if d.nx2 > 1 then 1 else 1 / 2
  loop d.ks d.ke (fun k => loop d.js d.je fun j => loop d.is d.ie fun i m =>
    if c.hall > 0 then min m (facH * least d w1 w2 w3 (k, j, i) ^ 2 / (|etaB (1, k, j, i)| + tiny)) else m) realMax

end Verif.Resist
