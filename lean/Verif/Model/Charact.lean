import Verif.Model.Reconstruct
import Verif.Model.Riemann
import Mathlib.Analysis.Real.Sqrt

/-!
# Characteristic variables (src/reconstruct/characteristic.cpp) and the piecewise linear reconstruction that uses them (plm.cpp)

Exact real arithmetic, one cell `i`: a work array `vect(n,i)` is a function of the component `n`. The results of a function are
kept in local variables until all input is read, then written; components that are not written keep their value.
-/
namespace Verif.Charact
open Verif.Riemann (Gas)

/-- One column of an array `vect(n,i)`, `wc(n,i)`. -/
abbrev Col := ℤ → ℝ

/-- `IBY=(NHYDRO)`, `IBZ=((NHYDRO)+1)` (athena.hpp:174); `NHYDRO` is 5 or 4 (isothermal). -/
def IBY : Gas → ℤ
  | .adiabatic _ => 5
  | .isothermal _ => 4

@[inherit_doc IBY]
def IBZ (g : Gas) : ℤ := IBY g + 1

/-- `ivy`, `ivz` (characteristic.cpp:47-48, 298-299) with `IVX = 1`. -/
def ivy (ivx : ℤ) : ℤ := 1 + ((ivx - 1) + 1) % 3

@[inherit_doc ivy]
def ivz (ivx : ℤ) : ℤ := 1 + ((ivx - 1) + 2) % 3

/-- `SIGN` (defs.hpp.in:151). -/
noncomputable def sgn (x : ℝ) : ℝ := if x < 0 then -1 else 1

/-- `gamp` (characteristic.cpp:62, 160). -/
noncomputable def gamp : Gas → Col → ℝ
  | .adiabatic gamma, w => gamma * w 4
  | .isothermal cs, w => cs ^ 2 * w 0

/-- `asq` or `iso_cs2` (characteristic.cpp:77, 150). -/
noncomputable def asq : Gas → Col → ℝ
  | .adiabatic gamma, w => gamma * w 4 * (1 / w 0)
  | .isothermal cs, _ => cs ^ 2

/-- `a` or `iso_cs` (characteristic.cpp:78, 149). -/
noncomputable def snd : Gas → Col → ℝ
  | .adiabatic gamma, w => Real.sqrt (asq (.adiabatic gamma) w)
  | .isothermal cs, _ => cs

/-- `btsq` (characteristic.cpp:60). -/
noncomputable def btsq (g : Gas) (w : Col) : ℝ := w (IBY g) ^ 2 + w (IBZ g) ^ 2

/-- `cfsq` before the division by the density (characteristic.cpp:65-68, 163-166). -/
noncomputable def cfsq0 (g : Gas) (bx : ℝ) (w : Col) : ℝ :=
  let tdif := bx * bx + btsq g w - gamp g w
  let cf2cs2 := Real.sqrt (tdif * tdif + 4 * gamp g w * btsq g w)
  1 / 2 * (bx * bx + btsq g w + gamp g w + cf2cs2)

/-- `cfsq` and `cssq` (characteristic.cpp:68-74, 166-172). -/
noncomputable def cfsq (g : Gas) (bx : ℝ) (w : Col) : ℝ := cfsq0 g bx w * (1 / w 0)

@[inherit_doc cfsq]
noncomputable def cssq (g : Gas) (bx : ℝ) (w : Col) : ℝ := gamp g w * (bx * bx) / cfsq0 g bx w * (1 / w 0)

/-- `alpha_f` (characteristic.cpp:94-112, 184-197, and the same in the other function). -/
noncomputable def alphaF (g : Gas) (bx : ℝ) (w : Col) : ℝ :=
  if cfsq g bx w - cssq g bx w ≤ 0 then 1
  else if asq g w - cssq g bx w ≤ 0 then 0
  else if cfsq g bx w - asq g w ≤ 0 then 1
  else Real.sqrt ((asq g w - cssq g bx w) / (cfsq g bx w - cssq g bx w))

/-- `alpha_s`. -/
noncomputable def alphaS (g : Gas) (bx : ℝ) (w : Col) : ℝ :=
  if cfsq g bx w - cssq g bx w ≤ 0 then 0
  else if asq g w - cssq g bx w ≤ 0 then 1
  else if cfsq g bx w - asq g w ≤ 0 then 0
  else Real.sqrt ((cfsq g bx w - asq g w) / (cfsq g bx w - cssq g bx w))

/-- `bet2`, `bet3` with the values `d2`, `d3` without a transverse field: 1 and 0 in `LeftEigenmatrixDotVector`
(characteristic.cpp:80-91, 174-181), 0 and 0 in `RightEigenmatrixDotVector` (328-335, 401-408). -/
noncomputable def bet2 (d2 : ℝ) (g : Gas) (w : Col) : ℝ :=
  if Real.sqrt (btsq g w) ≠ 0 then w (IBY g) / Real.sqrt (btsq g w) else d2

@[inherit_doc bet2]
noncomputable def bet3 (d3 : ℝ) (g : Gas) (w : Col) : ℝ :=
  if Real.sqrt (btsq g w) ≠ 0 then w (IBZ g) / Real.sqrt (btsq g w) else d3

/-- `LeftEigenmatrixDotVector` with a magnetic field (characteristic.cpp:50-233). -/
noncomputable def leftM (g : Gas) (ivx : ℤ) (bx : ℝ) (w vect : Col) : Col :=
  let id := 1 / w 0
  let sqrtd := Real.sqrt (w 0)
  let isqrtd := 1 / sqrtd
  let cf := Real.sqrt (cfsq g bx w)
  let cs := Real.sqrt (cssq g bx w)
  let alf := alphaF g bx w
  let als := alphaS g bx w
  let b2 := bet2 1 g w
  let b3 := bet3 0 g w
  let s := sgn bx
  match g with
  | .adiabatic _ =>
    let a2 := asq g w
    let a := snd g w
    let nf := 1 / 2 / a2
    let qf := nf * cf * alf * s
    let qs := nf * cs * als * s
    let af' := 1 / 2 * alf / (a * sqrtd)
    let as' := 1 / 2 * als / (a * sqrtd)
    fun n =>
      if n = 0 then nf * alf * (vect 4 * id - cf * vect ivx) + qs * (b2 * vect (ivy ivx) + b3 * vect (ivz ivx))
        + as' * (b2 * vect (IBY g) + b3 * vect (IBZ g))
      else if n = 1 then 1 / 2 * (b2 * (vect (IBZ g) * s * isqrtd + vect (ivz ivx)) - b3 * (vect (IBY g) * s * isqrtd + vect (ivy ivx)))
      else if n = 2 then nf * als * (vect 4 * id - cs * vect ivx) - qf * (b2 * vect (ivy ivx) + b3 * vect (ivz ivx))
        - af' * (b2 * vect (IBY g) + b3 * vect (IBZ g))
      else if n = 3 then vect 0 - vect 4 / a2
      else if n = 4 then nf * als * (vect 4 * id + cs * vect ivx) + qf * (b2 * vect (ivy ivx) + b3 * vect (ivz ivx))
        - af' * (b2 * vect (IBY g) + b3 * vect (IBZ g))
      else if n = 5 then 1 / 2 * (b2 * (vect (IBZ g) * s * isqrtd - vect (ivz ivx)) - b3 * (vect (IBY g) * s * isqrtd - vect (ivy ivx)))
      else if n = 6 then nf * alf * (vect 4 * id + cf * vect ivx) - qs * (b2 * vect (ivy ivx) + b3 * vect (ivz ivx))
        + as' * (b2 * vect (IBY g) + b3 * vect (IBZ g))
      else vect n
  | .isothermal c =>
    let c2 := c ^ 2
    let qf := 1 / 2 * (cf * alf * s) / c2
    let qs := 1 / 2 * (cs * als * s) / c2
    let af' := 1 / 2 * alf / (c * sqrtd)
    let as' := 1 / 2 * als / (c * sqrtd)
    fun n =>
      if n = 0 then 1 / 2 * alf * (vect 0 * id - cf * vect ivx / c2) + qs * (b2 * vect (ivy ivx) + b3 * vect (ivz ivx))
        + as' * (b2 * vect (IBY g) + b3 * vect (IBZ g))
      else if n = 1 then 1 / 2 * (b2 * (vect (IBZ g) * s * isqrtd + vect (ivz ivx)) - b3 * (vect (IBY g) * s * isqrtd + vect (ivy ivx)))
      else if n = 2 then 1 / 2 * als * (vect 0 * id - cs * vect ivx / c2) - qf * (b2 * vect (ivy ivx) + b3 * vect (ivz ivx))
        - af' * (b2 * vect (IBY g) + b3 * vect (IBZ g))
      else if n = 3 then 1 / 2 * als * (vect 0 * id + cs * vect ivx / c2) + qf * (b2 * vect (ivy ivx) + b3 * vect (ivz ivx))
        - af' * (b2 * vect (IBY g) + b3 * vect (IBZ g))
      else if n = 4 then 1 / 2 * (b2 * (vect (IBZ g) * s * isqrtd - vect (ivz ivx)) - b3 * (vect (IBY g) * s * isqrtd - vect (ivy ivx)))
      else if n = 5 then 1 / 2 * alf * (vect 0 * id + cf * vect ivx / c2) - qs * (b2 * vect (ivy ivx) + b3 * vect (ivz ivx))
        + as' * (b2 * vect (IBY g) + b3 * vect (IBZ g))
      else vect n

/-- `RightEigenmatrixDotVector` with a magnetic field (characteristic.cpp:301-464). -/
noncomputable def rightM (g : Gas) (ivx : ℤ) (bx : ℝ) (w vect : Col) : Col :=
  let sqrtd := Real.sqrt (w 0)
  let cf := Real.sqrt (cfsq g bx w)
  let cs := Real.sqrt (cssq g bx w)
  let alf := alphaF g bx w
  let als := alphaS g bx w
  let b2 := bet2 0 g w
  let b3 := bet3 0 g w
  let s := sgn bx
  let qf := cf * alf * s
  let qs := cs * als * s
  let af := snd g w * alf * sqrtd
  let as := snd g w * als * sqrtd
  match g with
  | .adiabatic _ =>
    fun n =>
      if n = IBZ g then b3 * (as * (vect 0 + vect 6) - af * (vect 2 + vect 4)) + b2 * s * sqrtd * (vect 5 + vect 1)
      else if n = IBY g then b2 * (as * (vect 0 + vect 6) - af * (vect 2 + vect 4)) - b3 * s * sqrtd * (vect 5 + vect 1)
      else if n = 4 then w 0 * asq g w * (alf * (vect 0 + vect 6) + als * (vect 2 + vect 4))
      else if n = ivz ivx then b3 * (qs * (vect 0 - vect 6) + qf * (vect 4 - vect 2)) + b2 * (vect 1 - vect 5)
      else if n = ivy ivx then b2 * (qs * (vect 0 - vect 6) + qf * (vect 4 - vect 2)) + b3 * (vect 5 - vect 1)
      else if n = ivx then cf * alf * (vect 6 - vect 0) + cs * als * (vect 4 - vect 2)
      else if n = 0 then w 0 * (alf * (vect 0 + vect 6) + als * (vect 2 + vect 4)) + vect 3
      else vect n
  | .isothermal _ =>
    fun n =>
      if n = IBZ g then b3 * (as * (vect 0 + vect 5) - af * (vect 2 + vect 3)) + b2 * s * sqrtd * (vect 4 + vect 1)
      else if n = IBY g then b2 * (as * (vect 0 + vect 5) - af * (vect 2 + vect 3)) - b3 * s * sqrtd * (vect 4 + vect 1)
      else if n = ivz ivx then b3 * (qs * (vect 0 - vect 5) + qf * (vect 3 - vect 2)) + b2 * (vect 1 - vect 4)
      else if n = ivy ivx then b2 * (qs * (vect 0 - vect 5) + qf * (vect 3 - vect 2)) + b3 * (vect 4 - vect 1)
      else if n = ivx then cf * alf * (vect 5 - vect 0) + cs * als * (vect 3 - vect 2)
      else if n = 0 then w 0 * (alf * (vect 0 + vect 5) + als * (vect 2 + vect 3))
      else vect n

/-- `LeftEigenmatrixDotVector` without a magnetic field (characteristic.cpp:235-275). -/
noncomputable def leftH (g : Gas) (ivx : ℤ) (w vect : Col) : Col :=
  match g with
  | .adiabatic gamma =>
    let a2 := gamma * w 4 / w 0
    let a := Real.sqrt a2
    fun n =>
      if n = 0 then 1 / 2 * (vect 4 / a2 - w 0 * vect ivx / a)
      else if n = 1 then vect 0 - vect 4 / a2
      else if n = 2 then vect (ivy ivx)
      else if n = 3 then vect (ivz ivx)
      else if n = 4 then 1 / 2 * (vect 4 / a2 + w 0 * vect ivx / a)
      else vect n
  | .isothermal c => fun n =>
      if n = 0 then 1 / 2 * (vect 0 - w 0 * vect ivx / c)
      else if n = 1 then vect (ivy ivx)
      else if n = 2 then vect (ivz ivx)
      else if n = 3 then 1 / 2 * (vect 0 + w 0 * vect ivx / c)
      else vect n

/-- `RightEigenmatrixDotVector` without a magnetic field (characteristic.cpp:466-513). -/
noncomputable def rightH (g : Gas) (ivx : ℤ) (w vect : Col) : Col :=
  match g with
  | .adiabatic gamma =>
    let a2 := gamma * w 4 / w 0
    let a := Real.sqrt a2
    fun n =>
      if n = 4 then a2 * (vect 0 + vect 4)
      else if n = ivz ivx then vect 3
      else if n = ivy ivx then vect 2
      else if n = ivx then a * (vect 4 - vect 0) / w 0
      else if n = 0 then vect 0 + vect 1 + vect 4
      else vect n
  | .isothermal c => fun n =>
      if n = ivz ivx then vect 2
      else if n = ivy ivx then vect 1
      else if n = ivx then c * (vect 3 - vect 0) / w 0
      else if n = 0 then vect 0 + vect 3
      else vect n

/-- `MAGNETIC_FIELDS_ENABLED` selects. -/
noncomputable def left (mag : Bool) (g : Gas) (ivx : ℤ) (bx : ℝ) (w vect : Col) : Col :=
  if mag then leftM g ivx bx w vect else leftH g ivx w vect

@[inherit_doc left]
noncomputable def right (mag : Bool) (g : Gas) (ivx : ℤ) (bx : ℝ) (w vect : Col) : Col :=
  if mag then rightM g ivx bx w vect else rightH g ivx w vect

/-- `NWAVE`: the hydrodynamic variables and two components of the field. -/
def nwave (mag : Bool) (g : Gas) : ℤ := IBY g + if mag then 2 else 0

/-- What `PiecewiseLinearX1..3` of plm.cpp collect from a cell: the `NHYDRO` primitive variables and, with a field, the two
components transverse to the direction `ivx` in cyclic order (plm.cpp:36-58, 185-208, 336-358). `w n`, `b m` are
`w(n,k,j,i)` and `bcc(m,k,j,i)`. -/
def gather (g : Gas) (ivx : ℤ) (w b : ℤ → ℝ) : Col := fun n =>
  if n = IBY g then b (ivx % 3) else if n = IBZ g then b ((ivx + 1) % 3) else w n

/-- The limited slopes `dwm(n,i)` of plm.cpp with `characteristic_projection_` (plm.cpp:60-147 and the same in the other
directions). `slope` is the limiter of the direction, `m`, `c`, `p` the columns of the lower cell, the cell and the upper cell,
`old` the content of `dwm` before. -/
noncomputable def slopesC (mag : Bool) (g : Gas) (ivx : ℤ) (slope : ℝ → ℝ → ℝ) (bx : ℝ) (m c p old : Col) : Col :=
  let dwl : Col := left mag g ivx bx c fun n => c n - m n
  let dwr : Col := left mag g ivx bx c fun n => p n - c n
  right mag g ivx bx c fun n => if 0 ≤ n ∧ n < nwave mag g then slope (dwl n) (dwr n) else old n

/-- `wl` at the upper face and `wr` at the lower face of the cell, before the floors are applied (plm.cpp:149-156). `up`, `lo`
are the distances of the faces from the centre divided by the width of the cell. -/
def faces (up lo : ℝ) (c dwm : Col) : Col × Col := (fun n => c n + up * dwm n, fun n => c n - lo * dwm n)

end Verif.Charact
