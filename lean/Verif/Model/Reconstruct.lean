import Mathlib.Algebra.Order.Field.Basic
import Mathlib.Algebra.Order.Ring.Abs

/-!
# Reconstruction of interface states: donor cell, piecewise linear, piecewise parabolic

Model of `src/reconstruct/dc_simple.cpp`, `plm_simple.cpp`, `ppm_simple.cpp` and of the weights
computed in `reconstruction.cpp`. Numbers are elements of an arbitrary linearly ordered field, so
rounding is not modelled. Every loop of these functions writes one entry `(n,i)` per iteration
from entries with the same `(n,i)`, so a loop is modelled by the function of `(n,i)` it leaves in
its array; entries the loop does not visit keep their old contents (`dql0`, `dqm0`, `ql0`, `qr0`
below), which matters because the work arrays are shared by all calls.

`plm.cpp` and `ppm.cpp` (hydro and MHD) contain the same code with the loop bound `NWAVE` and, if
`characteristic_projection_`, a change of variables around it (Model/Charact.lean); the floors
applied at the end of `plm.cpp` and `ppm.cpp` are not modelled. The `array_order < 0` overloads used by
the radiation module repeat the same formulas with the index order exchanged and are not modelled.
-/
namespace Verif.Recon

/-- Array with indices `(n, i)`: a row of reconstructed states or a work array. -/
abbrev Row (K : Type) := Int → Int → K

/-- Positions of the faces and of the cell centres in one direction, and the two arrays of
differences kept by `Coordinates`: `x1f`, `x1v`, `dx1f`, `dx1v` (coordinates.hpp:52-60). -/
structure Line (K : Type) where
  xf : Int → K
  xv : Int → K
  dxf : Int → K
  dxv : Int → K

section
variable {K : Type} [Field K] [LinearOrder K]

/-! ## Donor cell -/

/-- `DonorCellX1` (dc_simple.cpp:27-41): the new `(ql, qr)`. -/
def donorX1 (nu il iu : Int) (q : Row K) (ql0 qr0 : Row K) : Row K × Row K :=
  (fun n i => if 0 ≤ n ∧ n ≤ nu ∧ il ≤ i - 1 ∧ i - 1 ≤ iu then q n (i - 1) else ql0 n i,
   fun n i => if 0 ≤ n ∧ n ≤ nu ∧ il ≤ i ∧ i ≤ iu then q n i else qr0 n i)

/-- `DonorCellX2`, `DonorCellX3` (dc_simple.cpp:68-80, 110-122): the caller passes the row `j`
(or `k`) of the array. -/
def donorT (nu il iu : Int) (q : Row K) (ql0 qr0 : Row K) : Row K × Row K :=
  (fun n i => if 0 ≤ n ∧ n ≤ nu ∧ il ≤ i ∧ i ≤ iu then q n i else ql0 n i,
   fun n i => if 0 ≤ n ∧ n ≤ nu ∧ il ≤ i ∧ i ≤ iu then q n i else qr0 n i)

/-! ## Slope limiters of the piecewise linear method -/

/-- minmod on differences that are already weighted; `dq2` decides whether the cell is an
extremum (plm_simple.cpp:61-70, 76-87). -/
def minmod (dq2 a b : K) : K :=
  if dq2 ≤ 0 then 0 else if a ≥ 0 then min a b else max a b

/-- van Leer limiter on a uniform mesh (plm_simple.cpp:97-100). -/
def vanLeer (a b : K) : K :=
  let dq2 := a * b
  let dqm := 2 * dq2 / (a + b)
  if dq2 ≤ 0 then 0 else dqm

/-- van Leer limiter with the correction for the mesh (plm_simple.cpp:109-121);
`dqF`, `dqB` are the weighted forward and backward differences. -/
def vanLeerM (cf cb dqF dqB : K) : K :=
  let dq2 := dqF * dqB
  let dqm := dq2 * (cf * dqB + cb * dqF) / (dqB * dqB + dqF * dqF + dq2 * (cf + cb - 2))
  if dq2 ≤ 0 then 0 else dqm

/-- The limited slope `dqm(n,i)` in the x1-direction (plm_simple.cpp:56-130), for a variable whose
entry is computed. `flat` is `uniform_[X1DIR] && !curvilinear_[X1DIR]`. -/
def slopeX1 (mm flat : Bool) (m : Line K) (i : Int) (dql dqr : K) : K :=
  if mm then
    if flat then minmod (dql * dqr) dql dqr
    else
      let dqrw := dqr * m.dxf i / m.dxv i
      let dqlw := dql * m.dxf i / m.dxv (i - 1)
      minmod (dql * dqr) dqlw dqrw
  else
    if flat then vanLeer dql dqr
    else
      let dqF := dqr * m.dxf i / m.dxv i
      let dqB := dql * m.dxf i / m.dxv (i - 1)
      let cf := m.dxv i / (m.xf (i + 1) - m.xv i)
      let cb := m.dxv (i - 1) / (m.xv i - m.xf i)
      vanLeerM cf cb dqF dqB

/-- The limited slope in the x2-direction (plm_simple.cpp:264-337): the factors that do not depend
on `i` are taken out of the loop. `flat` is `uniform_[X2DIR] && !curvilinear_[X2DIR]`. -/
def slopeX2 (mm flat : Bool) (m : Line K) (j : Int) (dql dqr : K) : K :=
  if mm then
    if flat then minmod (dql * dqr) dql dqr
    else
      let cr := m.dxf j / m.dxv j
      let cl := m.dxf j / m.dxv (j - 1)
      minmod (dql * dqr) (dql * cl) (dqr * cr)
  else
    if flat then vanLeer dql dqr
    else
      let cf := m.dxv j / (m.xf (j + 1) - m.xv j)
      let cb := m.dxv (j - 1) / (m.xv j - m.xf j)
      let dxF := m.dxf j / m.dxv j
      let dxB := m.dxf j / m.dxv (j - 1)
      vanLeerM cf cb (dqr * dxF) (dql * dxB)

/-- The limited slope in the x3-direction (plm_simple.cpp:473-541): as in the x2-direction, except
that on a non-uniform mesh the van Leer limiter is the one for uniform meshes.
`flat` is `uniform_[X3DIR]`. -/
def slopeX3 (mm flat : Bool) (m : Line K) (k : Int) (dql dqr : K) : K :=
  if mm then
    if flat then minmod (dql * dqr) dql dqr
    else
      let cr := m.dxf k / m.dxv k
      let cl := m.dxf k / m.dxv (k - 1)
      minmod (dql * dqr) (dql * cl) (dqr * cr)
  else
    if flat then vanLeer dql dqr
    else
      let dxF := m.dxf k / m.dxv k
      let dxB := m.dxf k / m.dxv (k - 1)
      vanLeer (dqr * dxF) (dql * dxB)

/-! ## Piecewise linear reconstruction -/

/-- `PiecewiseLinearX1` (plm_simple.cpp:35-143). `nwave` is `NWAVE`: the two minmod loops run over
`n < NWAVE`, all the others over `n <= nu`. `q n i` is `q(n,k,j,i)`; `dql0`, `dqr0`, `dqm0` are the
contents of the work arrays on entry. -/
def plmX1 (nwave : Int) (mm flat : Bool) (m : Line K) (nu il iu : Int) (q : Row K)
    (dql0 dqr0 dqm0 ql0 qr0 : Row K) : Row K × Row K :=
  let dql : Row K := fun n i =>
    if 0 ≤ n ∧ n ≤ nu ∧ il ≤ i ∧ i ≤ iu then q n i - q n (i - 1) else dql0 n i
  let dqr : Row K := fun n i =>
    if 0 ≤ n ∧ n ≤ nu ∧ il ≤ i ∧ i ≤ iu then q n (i + 1) - q n i else dqr0 n i
  let top := if mm then nwave - 1 else nu
  let dqm : Row K := fun n i =>
    if 0 ≤ n ∧ n ≤ top ∧ il ≤ i ∧ i ≤ iu then slopeX1 mm flat m i (dql n i) (dqr n i)
    else dqm0 n i
  (fun n i => if 0 ≤ n ∧ n ≤ nu ∧ il ≤ i - 1 ∧ i - 1 ≤ iu then
      q n (i - 1) + ((m.xf (i - 1 + 1) - m.xv (i - 1)) / m.dxf (i - 1)) * dqm n (i - 1)
    else ql0 n i,
   fun n i => if 0 ≤ n ∧ n ≤ nu ∧ il ≤ i ∧ i ≤ iu then
      q n i - ((m.xv i - m.xf i) / m.dxf i) * dqm n i
    else qr0 n i)

/-- `PiecewiseLinearX2` (plm_simple.cpp:243-352) and, with the other limiter, `PiecewiseLinearX3`
(plm_simple.cpp:452-555). `q j n i` is `q(n,k,j,i)` (in the x3-direction `q k n i`); here every
loop runs over `n <= nu`, so the work arrays are overwritten before they are used. -/
def plmT (slope : Bool → Bool → Line K → Int → K → K → K) (mm flat : Bool) (m : Line K)
    (j nu il iu : Int) (q : Int → Row K) (ql0 qr0 : Row K) : Row K × Row K :=
  let dqm : Row K := fun n i =>
    slope mm flat m j (q j n i - q (j - 1) n i) (q (j + 1) n i - q j n i)
  let dxp := (m.xf (j + 1) - m.xv j) / m.dxf j
  let dxm := (m.xv j - m.xf j) / m.dxf j
  (fun n i => if 0 ≤ n ∧ n ≤ nu ∧ il ≤ i ∧ i ≤ iu then q j n i + dxp * dqm n i else ql0 n i,
   fun n i => if 0 ≤ n ∧ n ≤ nu ∧ il ≤ i ∧ i ≤ iu then q j n i - dxm * dqm n i else qr0 n i)

@[inherit_doc plmT] def plmX2 (mm flat : Bool) (m : Line K) (j nu il iu : Int) (q : Int → Row K)
    (ql0 qr0 : Row K) : Row K × Row K :=
  plmT slopeX2 mm flat m j nu il iu q ql0 qr0

@[inherit_doc plmT] def plmX3 (mm flat : Bool) (m : Line K) (k nu il iu : Int) (q : Int → Row K)
    (ql0 qr0 : Row K) : Row K × Row K :=
  plmT slopeX3 mm flat m k nu il iu q ql0 qr0

/-! ## Piecewise parabolic reconstruction -/

/-- Weights and limiter ratios in one direction: `c1i .. c6i`, `hplus_ratio_i`, `hminus_ratio_i`
(reconstruction.hpp:40-50). -/
structure Weights (K : Type) where
  c1 : Int → K
  c2 : Int → K
  c3 : Int → K
  c4 : Int → K
  c5 : Int → K
  c6 : Int → K
  hp : Int → K
  hm : Int → K

/-- Cell averages of one variable in the cells `i-2 .. i+2`. -/
structure Sten (K : Type) where
  m2 : K
  m1 : K
  c : K
  p1 : K
  p2 : K

/-- `SIGN` (defs.hpp.in:151). -/
def sign (x : K) : K := if x < 0 then -1 else 1

/-- Step 1 (ppm_simple.cpp:85-113): the interface averages `dph(i)`, `dph_ip1(i)`. -/
def ppmFace (curv : Bool) (w : Weights K) (i : Int) (s : Sten K) : K × K :=
  if !curv then
    let qa := s.c - s.m1
    let qb := s.p1 - s.c
    let dd_im1 := w.c1 (i - 1) * qa + w.c2 (i - 1) * (s.m1 - s.m2)
    let dd := w.c1 i * qb + w.c2 i * qa
    let dd_ip1 := w.c1 (i + 1) * (s.p2 - s.p1) + w.c2 (i + 1) * qb
    ((w.c3 i * s.m1 + w.c4 i * s.c) + (w.c5 i * dd_im1 + w.c6 i * dd),
     (w.c3 (i + 1) * s.c + w.c4 (i + 1) * s.p1) + (w.c5 (i + 1) * dd + w.c6 (i + 1) * dd_ip1))
  else
    (w.c1 i * s.m2 + w.c2 i * s.m1 + w.c3 i * s.c + w.c4 i * s.p1,
     w.c1 (i + 1) * s.m1 + w.c2 (i + 1) * s.c + w.c3 (i + 1) * s.p1 + w.c4 (i + 1) * s.p2)

/-- Step 2a at one face (ppm_simple.cpp:127-164): `a`, `b` are the averages on the two sides,
`da`, `db` the second differences in the two cells. -/
def limitFaceU (a b da db dph : K) : K :=
  let qa_tmp := dph - a
  let qb_tmp := b - dph
  let qa := 3 * (a + b - 2 * dph)
  let qd := if sign qa = sign da ∧ sign qa = sign db then
      sign qa * min (5 / 4 * |da|) (min (5 / 4 * |db|) |qa|)
    else 0
  let dph_tmp := 1 / 2 * (a + b) - qd / 6
  if qa_tmp * qb_tmp < 0 then dph_tmp else dph

/-- Step 2b at one face (ppm_simple.cpp:175-183): `c` is the average in the cell, `o` the one on
the other side. -/
def limitFaceN (c o dph : K) : K := max (min dph (max c o)) (min c o)

/-- Steps 3 and 4a (ppm_simple.cpp:193-255): the limited `(qminus, qplus)`. -/
def limitCellE (s : Sten K) (qminus qplus : K) : K × K :=
  let dqf_minus := s.c - qminus
  let dqf_plus := qplus - s.c
  let qa_tmp := dqf_minus * dqf_plus
  let qb_tmp := (s.p1 - s.c) * (s.c - s.m1)
  let qa := s.m2 + s.c - 2 * s.m1
  let qb := s.m1 + s.p1 - 2 * s.c
  let qc := s.c + s.p2 - 2 * s.p1
  let qd := 6 * (qminus + qplus - 2 * s.c)
  let qe := if sign qa = sign qb ∧ sign qa = sign qc ∧ sign qa = sign qd then
      sign qd * min (min (5 / 4 * |qa|) (5 / 4 * |qb|)) (min (5 / 4 * |qc|) |qd|)
    else 0
  let ra := max |s.m1| |s.m2|
  let rb := max (max |s.c| |s.p1|) |s.p2|
  let rho := if |qd| > 1 / 10 ^ 12 * max ra rb then qe / qd else 0
  let tmp_m := s.c - rho * dqf_minus
  let tmp_p := s.c + rho * dqf_plus
  let tmp2_m := s.c - 2 * dqf_plus
  let tmp2_p := s.c + 2 * dqf_minus
  if qa_tmp ≤ 0 ∨ qb_tmp ≤ 0 then
    if rho ≤ 1 - 1 / 10 ^ 12 then (tmp_m, tmp_p) else (qminus, qplus)
  else
    (if |dqf_minus| ≥ 2 * |dqf_plus| then tmp2_m else qminus,
     if |dqf_plus| ≥ 2 * |dqf_minus| then tmp2_p else qplus)

/-- Steps 3 and 4b (ppm_simple.cpp:193-198, 257-277). -/
def limitCellM (hp hm c qminus qplus : K) : K × K :=
  let dqf_minus := c - qminus
  let dqf_plus := qplus - c
  let qa := dqf_minus * dqf_plus
  if qa ≤ 0 then (c, c)
  else
    (if |dqf_minus| ≥ hp * |dqf_plus| then c - hp * dqf_plus else qminus,
     if |dqf_plus| ≥ hm * |dqf_minus| then c + hm * dqf_minus else qplus)

/-- `PiecewiseParabolicX1` at one cell (ppm_simple.cpp:82-286): the pair
`(qr_imh, ql_iph) = (qminus, qplus)`. `PiecewiseParabolicX2` (562-808) is the same with `j` in the
place of `i`; `PiecewiseParabolicX3` (1072-1311) is the same with `curv = false`.
`ext` is `extremum_preserving_`. -/
def ppmCell (ext uniform curv : Bool) (w : Weights K) (i : Int) (s : Sten K) : K × K :=
  let f := ppmFace curv w i s
  let flat := uniform && !curv
  let qminus := if flat then
      limitFaceU s.m1 s.c (s.m2 + s.c - 2 * s.m1) (s.m1 + s.p1 - 2 * s.c) f.1
    else limitFaceN s.c s.m1 f.1
  let qplus := if flat then
      limitFaceU s.c s.p1 (s.m1 + s.p1 - 2 * s.c) (s.c + s.p2 - 2 * s.p1) f.2
    else limitFaceN s.c s.p1 f.2
  if ext && flat then limitCellE s qminus qplus
  else limitCellM (w.hp i) (w.hm i) s.c qminus qplus

/-- `PiecewiseParabolicX1` (ppm_simple.cpp:46-296). The face loops of step 2a also visit `iu+1`,
where they only write work arrays that are not used afterwards. -/
def ppmX1 (ext uniform curv : Bool) (w : Weights K) (nu il iu : Int) (q : Row K)
    (ql0 qr0 : Row K) : Row K × Row K :=
  let st : Int → Int → Sten K := fun n i =>
    ⟨q n (i - 2), q n (i - 1), q n i, q n (i + 1), q n (i + 2)⟩
  (fun n i => if 0 ≤ n ∧ n ≤ nu ∧ il ≤ i - 1 ∧ i - 1 ≤ iu then
      (ppmCell ext uniform curv w (i - 1) (st n (i - 1))).2 else ql0 n i,
   fun n i => if 0 ≤ n ∧ n ≤ nu ∧ il ≤ i ∧ i ≤ iu then
      (ppmCell ext uniform curv w i (st n i)).1 else qr0 n i)

/-- `PiecewiseParabolicX2` (ppm_simple.cpp:562-808) and, with `curv = false`,
`PiecewiseParabolicX3` (1072-1311). `q j n i` is `q(n,k,j,i)`. -/
def ppmT (ext uniform curv : Bool) (w : Weights K) (j nu il iu : Int) (q : Int → Row K)
    (ql0 qr0 : Row K) : Row K × Row K :=
  let st : Int → Int → Sten K := fun n i =>
    ⟨q (j - 2) n i, q (j - 1) n i, q j n i, q (j + 1) n i, q (j + 2) n i⟩
  (fun n i => if 0 ≤ n ∧ n ≤ nu ∧ il ≤ i ∧ i ≤ iu then
      (ppmCell ext uniform curv w j (st n i)).2 else ql0 n i,
   fun n i => if 0 ≤ n ∧ n ≤ nu ∧ il ≤ i ∧ i ≤ iu then
      (ppmCell ext uniform curv w j (st n i)).1 else qr0 n i)

/-! ## Weights -/

/-- Uniform Cartesian-like direction (reconstruction.cpp:485-507). -/
def uniformW : Weights K :=
  { c1 := fun _ => 1 / 2, c2 := fun _ => 1 / 2, c3 := fun _ => 1 / 2, c4 := fun _ => 1 / 2
    c5 := fun _ => 1 / 6, c6 := fun _ => -1 / 6, hp := fun _ => 2, hm := fun _ => 2 }

/-- Non-uniform Cartesian-like direction (reconstruction.cpp:485-529), for the faces at which all
four cells exist. -/
def stretchedW (dx : Int → K) : Weights K :=
  let qa := fun i => dx (i - 2) + dx (i - 1) + dx i + dx (i + 1)
  let qc := fun i => (dx (i - 2) + dx (i - 1)) / (2 * dx (i - 1) + dx i)
  let qd := fun i => (dx (i + 1) + dx i) / (2 * dx i + dx (i - 1))
  let qb0 := fun i => dx (i - 1) / (dx (i - 1) + dx i)
  let qb := fun i => qb0 i + 2 * dx i * qb0 i / qa i * (qc i - qd i)
  let qe := fun i => dx i / (dx (i - 1) + dx i + dx (i + 1))
  { c1 := fun i => qe i * (2 * dx (i - 1) + dx i) / (dx (i + 1) + dx i)
    c2 := fun i => qe i * (2 * dx (i + 1) + dx i) / (dx (i - 1) + dx i)
    c3 := fun i => 1 - qb i
    c4 := fun i => qb i
    c5 := fun i => dx i / qa i * qd i
    c6 := fun i => -dx (i - 1) / qa i * qc i
    hp := fun _ => 2
    hm := fun _ => 2 }

/-- Limiter ratios in the radial direction of cylindrical coordinates
(reconstruction.cpp:461-484); `m.xf` are the radii of the faces. -/
def cylRatios (m : Line K) (i : Int) : K × K :=
  let dx := m.dxf i
  let xv := |1 / 2 * (m.xf (i + 1) + m.xf i)|
  let h_plus := 3 + dx / (2 * xv)
  let h_minus := 3 - dx / (2 * xv)
  ((h_plus + 1) / (h_minus - 1), (h_minus + 1) / (h_plus - 1))

/-- The same in spherical coordinates (reconstruction.cpp:461-484). -/
def sphRatios (m : Line K) (i : Int) : K × K :=
  let dx := m.dxf i
  let xv := |1 / 2 * (m.xf (i + 1) + m.xf i)|
  let h_plus := 3 + (2 * dx * (10 * xv + dx)) / (20 * (xv * xv) + dx * dx)
  let h_minus := 3 + (2 * dx * (-10 * xv + dx)) / (20 * (xv * xv) + dx * dx)
  ((h_plus + 1) / (h_minus - 1), (h_minus + 1) / (h_plus - 1))

/-- Weights of the cells `i-2 .. i+1` at face `i` of a uniform mesh in the radial direction of
cylindrical coordinates (reconstruction.cpp:413-434); `io` is `|i - is|`. -/
def cylWeights (io : K) : K × K × K × K :=
  let delta := 120 * (io * io * (io * io)) - 360 * (io * io) + 96
  (-(2 * io - 3) * (5 * (io * io) * io + 8 * (io * io) - 3 * io - 4) / delta,
   (2 * io - 1) * (35 * (io * io) * io + 24 * (io * io) - 93 * io - 60) / delta,
   (2 * io + 1) * (35 * (io * io) * io - 24 * (io * io) - 93 * io + 60) / delta,
   -(2 * io + 3) * (5 * (io * io) * io - 8 * (io * io) - 3 * io + 4) / delta)

/-- The same in spherical coordinates (reconstruction.cpp:435-456). -/
def sphWeights (io : K) : K × K × K × K :=
  let i2 := io * io
  let i4 := i2 * i2
  let delta := 36 * (15 * (i4 * i4) - 85 * i4 * i2 + 150 * i4 - 60 * i2 + 16)
  (-(3 * i2 - 9 * io + 7) * (15 * i4 * i2 + 48 * i4 * io + 23 * i4 - 48 * i2 * io - 30 * i2
      + 16 * io + 12) / delta,
   (3 * i2 - 3 * io + 1) * (105 * i4 * i2 + 144 * i4 * io - 487 * i4 - 720 * i2 * io + 510 * i2
      + 1008 * io + 372) / delta,
   (3 * i2 + 3 * io + 1) * (105 * i4 * i2 - 144 * i4 * io - 487 * i4 + 720 * i2 * io + 510 * i2
      - 1008 * io + 372) / delta,
   -(3 * i2 + 9 * io + 7) * (15 * i4 * i2 - 48 * i4 * io + 23 * i4 + 48 * i2 * io - 30 * i2
      - 16 * io + 12) / delta)

/-- The weights used in the radial direction of cylindrical coordinates on a uniform mesh
(reconstruction.cpp:411-484); `is` is the index of the first active cell of the block. -/
def cylW (is : Int) (m : Line K) : Weights K :=
  let w := fun i : Int => cylWeights (((|i - is| : Int) : K))
  { c1 := fun i => (w i).1, c2 := fun i => (w i).2.1, c3 := fun i => (w i).2.2.1
    c4 := fun i => (w i).2.2.2, c5 := fun _ => 0, c6 := fun _ => 0
    hp := fun i => (cylRatios m i).1, hm := fun i => (cylRatios m i).2 }

/-- The same in spherical coordinates. -/
def sphW (is : Int) (m : Line K) : Weights K :=
  let w := fun i : Int => sphWeights (((|i - is| : Int) : K))
  { c1 := fun i => (w i).1, c2 := fun i => (w i).2.1, c3 := fun i => (w i).2.2.1
    c4 := fun i => (w i).2.2.2, c5 := fun _ => 0, c6 := fun _ => 0
    hp := fun i => (sphRatios m i).1, hm := fun i => (sphRatios m i).2 }

/-! ## Cell centres -/

/-- Cartesian coordinates with the given faces (coordinates.cpp:106-112, cartesian.cpp:26-36). -/
def cartLine (xf : Int → K) : Line K :=
  let xv := fun i => 1 / 2 * (xf (i + 1) + xf i)
  { xf := xf, xv := xv, dxf := fun i => xf (i + 1) - xf i, dxv := fun i => xv (i + 1) - xv i }

/-- The radial direction of cylindrical coordinates (cylindrical.cpp:31-40). -/
def cylLine (xf : Int → K) : Line K :=
  let xv := fun i => 2 / 3 * (xf (i + 1) ^ 3 - xf i ^ 3) / (xf (i + 1) ^ 2 - xf i ^ 2)
  { xf := xf, xv := xv, dxf := fun i => xf (i + 1) - xf i, dxv := fun i => xv (i + 1) - xv i }

/-- The radial direction of spherical coordinates (spherical_polar.cpp:72-81). -/
def sphLine (xf : Int → K) : Line K :=
  let xv := fun i => 3 / 4 * (xf (i + 1) ^ 4 - xf i ^ 4) / (xf (i + 1) ^ 3 - xf i ^ 3)
  { xf := xf, xv := xv, dxf := fun i => xf (i + 1) - xf i, dxv := fun i => xv (i + 1) - xv i }

end
end Verif.Recon
