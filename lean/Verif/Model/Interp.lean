import Mathlib.Algebra.Order.Floor.Ring
import Mathlib.Algebra.Order.Field.Basic

/-!
Interpolation in tables: `InterpTable2D` of the tabulated equation of state
(utils/interp_table.cpp) and the functions of the chemistry (utils/interp.hpp, utils/interp.cpp).
Exact arithmetic; `none` for undefined behavior.
-/

namespace Verif.Interp

variable {K : Type} [Field K] [LinearOrder K]

/-- `InterpTable2D`: sizes, limits and data of one variable, interp_table.cpp:27-48. -/
structure Table (K : Type) where
  nx2 : Int
  nx1 : Int
  x2min : K
  x2max : K
  x1min : K
  x1max : K
  data : Int → Int → K

/-- `static_cast<int>`: towards zero; undefined if it does not fit. -/
def toInt [FloorRing K] (x : K) : Option Int :=
  let t := if x < 0 then ⌈x⌉ else ⌊x⌋
  if -2 ^ 31 ≤ t ∧ t < 2 ^ 31 then some t else none

/-- The lower index, interp_table.cpp:70-91 (the same statements for both directions). -/
def lower (i n : Int) : Int := if i < 0 then 0 else if i ≥ n - 1 then n - 2 else i

/-- Access to the data within the bounds of the array. -/
def Table.get (t : Table K) (i j : Int) : Option K :=
  if 0 ≤ i ∧ i < t.nx2 ∧ 0 ≤ j ∧ j < t.nx1 then some (t.data i j) else none

/-- `InterpTable2D::interpolate`, interp_table.cpp:66-97. -/
def interpolate [FloorRing K] (t : Table K) (x2 x1 : K) : Option K := do
  let x := (x2 - t.x2min) * ((t.nx2 - 1) / (t.x2max - t.x2min))
  let y := (x1 - t.x1min) * ((t.nx1 - 1) / (t.x1max - t.x1min))
  let xil := lower (← toInt x) t.nx2
  let yil := lower (← toInt y) t.nx1
  let xrl := 1 + xil - x
  let yrl := 1 + yil - y
  let d00 ← t.get xil yil
  let d01 ← t.get xil (yil + 1)
  let d10 ← t.get (xil + 1) yil
  let d11 ← t.get (xil + 1) (yil + 1)
  return xrl * yrl * d00 + xrl * (1 - yrl) * d01 + (1 - xrl) * yrl * d10 +
    (1 - xrl) * (1 - yrl) * d11

/-- The loop of `LinearInterpIndex`: the first index with `x <= xarr[i]`, not beyond `n`. -/
def scan (xarr : Int → K) (x : K) : ℕ → Int → Int
  | 0, i => i
  | n + 1, i => if x > xarr i then scan xarr x n (i + 1) else i

/-- `LinearInterpIndex`, interp.hpp:28-40. The loop stops at `len - 1` because of the preceding
test. -/
def index (len : ℕ) (xarr : Int → K) (x : K) : Int :=
  if x < xarr 0 then 0
  else if x > xarr (len - 1) then len - 2
  else scan xarr x (len - 1) 0 - 1

/-- `LinearInterp`, interp.hpp:42-46. -/
def linear (x0 x1 y0 y1 x : K) : K := y0 + (y1 - y0) / (x1 - x0) * (x - x0)

/-- Access to an array of `len` numbers. -/
def get (len : Int) (a : Int → K) (i : Int) : Option K :=
  if 0 ≤ i ∧ i < len then some (a i) else none

/-- `LP1D`, `LP1Di`, interp.cpp:19-48. -/
def lp1d (len : ℕ) (xarr data : Int → K) (x : K) : Option K := do
  let ix := index len xarr x
  let x0 ← get len xarr ix
  let x1 ← get len xarr (ix + 1)
  let y0 ← get len data ix
  let y1 ← get len data (ix + 1)
  return linear x0 x1 y0 y1 x

/-- `LP2D`, `LP2Di`, interp.cpp:27-61. -/
def lp2d (lenx leny : ℕ) (xarr yarr data : Int → K) (x y : K) : Option K := do
  let ix := index lenx xarr x
  let iy := index leny yarr y
  let x0 ← get lenx xarr ix
  let x1 ← get lenx xarr (ix + 1)
  let a ← get (leny * lenx) data (iy * lenx + ix)
  let b ← get (leny * lenx) data (iy * lenx + ix + 1)
  let c ← get (leny * lenx) data ((iy + 1) * lenx + ix)
  let d ← get (leny * lenx) data ((iy + 1) * lenx + ix + 1)
  let y0 ← get leny yarr iy
  let y1 ← get leny yarr (iy + 1)
  return linear y0 y1 (linear x0 x1 a b x) (linear x0 x1 c d x) y

end Verif.Interp
