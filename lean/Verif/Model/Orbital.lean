import Verif.Model.Coord
import Mathlib.Algebra.Order.Floor.Ring

/-!
# Orbital advection: displacement of the rows along the orbital direction

`src/orbital_advection/{set_orbital_advection,orbital_remapping,calculate_orbital_advection}.cpp` and
the exchange between blocks of one level in `src/bvals/orbital/bvals_orbital.cpp`.

The two values of `orbital_direction` lead to branches with the same text and `j`, `k` exchanged; they
are modelled once, with the orbital index `o` (`j` or `k`), the other transverse index `a` (`k` or `j`)
and the radial index `i`. Exact arithmetic in an ordered field with a floor function; in floating point
`static_cast<int>(olen/dx)` and `fmod(olen, dx)` may disagree by one cell when `olen/dx` is close to an
integer. Not modelled: neighbours of other levels (`orbital_refinement`), flags and requests of the
exchange, the variants for radiation (arguments `nl`, `nu`).
-/
namespace Verif.Orbital
open Verif.Arr Verif.Grid

section
variable {K : Type} [Field K] [LinearOrder K] [FloorRing K]

/-! ## Offsets -/

/-- `static_cast<int>(x)`. -/
def trunc (x : K) : ℤ := if 0 ≤ x then ⌊x⌋ else ⌈x⌉
/-- `offset` in `SetOrbitalEdgeCC` and `SetOrbitalEdgeFC` (set_orbital_advection.cpp:214-216, 226-228,
374-376, 385-387): the entries of `ofc`, `off`. -/
def offset (olen dx : K) : ℤ := if olen > 0 then trunc (olen / dx) + 1 else trunc (olen / dx)
/-- `std::fmod(olen, dx)/dx`: the entries of `orc`, `orf` (set_orbital_advection.cpp:217, 229). -/
def epsilon (olen dx : K) : K := (olen - dx * (trunc (olen / dx) : K)) / dx
end

/-! ## The orbital buffers -/

/-- `js` (or `ks`), `onx` and `xgh`, and the bounds of the loops over rows and variables. -/
structure Rows where
  os : ℤ
  onx : ℤ
  xgh : ℤ
  a0 : ℤ
  a1 : ℤ
  i0 : ℤ
  i1 : ℤ
  nv : ℤ
/-- `je` (or `ke`). -/
def Rows.oe (r : Rows) : ℤ := r.os + r.onx - 1

/-- An array with indices `(n, a, o, i)`; `u(n,k,j,i)` or, in direction 2, `u(n,j,k,i)`. -/
abbrev Var (K : Type) := ℤ × ℤ × ℤ × ℤ → K
/-- `orbital_cons`, `orbital_scalar`, `orbital_b1`, `orbital_b2`: indices `(n, a, i, o)`. -/
abbrev Buf (K : Type) := ℤ × ℤ × ℤ × ℤ → K

section
variable {K : Type} (r : Rows) (off : ℤ × ℤ → ℤ)

/-- The loop over rows and variables around the innermost loop `body n a i`. -/
def rowLoop {σ : Type} (body : ℤ → ℤ → ℤ → σ → σ) : σ → σ :=
  loop r.a0 r.a1 fun a => loop r.i0 r.i1 fun i => loop 0 (r.nv - 1) fun n => body n a i

/-- `SetOrbitalAdvectionCC` (set_orbital_advection.cpp:44-109). -/
def ownCC (u : Var K) : Buf K → Buf K :=
  rowLoop r fun n a i =>
    let shift := if off (a, i) > 0 then r.onx else 0
    let ol := max r.os (r.os - r.xgh - off (a, i))
    let ou := min r.oe (r.oe + 1 + r.xgh - off (a, i))
    loop ol ou fun o b => Function.update b (n, a, i, o + shift) (u (n, a, o, i))

/-- `SetOrbitalAdvectionFC` (set_orbital_advection.cpp:127-175), one of the two components with its
sign in `u`. -/
def ownFC (u : Var K) : Buf K → Buf K :=
  rowLoop r fun n a i =>
    let shift := if off (a, i) > 0 then r.onx else 0
    loop r.os r.oe fun o b => Function.update b (n, a, i, o + shift) (u (n, a, o, i))

/-- `LoadHydroBufferSameLevel`, `LoadScalarBufferSameLevel` and the two halves of
`LoadFieldBufferSameLevel` with `nb == 0`, to the right neighbour (bvals_orbital.cpp:860-871, 895-906,
1541-1562). The state is `buf[0], …, buf[p-1]`. -/
def loadUp (u : Var K) : List K → List K :=
  rowLoop r fun n a i =>
    let xl := r.os - r.xgh - off (a, i) + r.onx
    loop xl r.oe fun o buf => buf ++ [u (n, a, o, i)]

/-- The same with `nb == 4`, to the left neighbour (bvals_orbital.cpp:872-884, 907-919, 1563-1583). -/
def loadDown (u : Var K) : List K → List K :=
  rowLoop r fun n a i =>
    let xu := r.oe + 1 + r.xgh - off (a, i) - r.onx
    loop r.os xu fun o buf => buf ++ [u (n, a, o, i)]

/-- `SetHydroBufferSameLevel`, `SetScalarBufferSameLevel` and the two halves of
`SetFieldBufferSameLevel` with `nb == 0`, from the left neighbour (bvals_orbital.cpp:1113-1130, 1157-1174,
1893-1923). The state is the orbital buffer and `p`. -/
def setUp (buf : ℕ → K) : Buf K × ℕ → Buf K × ℕ :=
  rowLoop r fun n a i =>
    let xl := r.os - r.xgh - off (a, i) + r.onx
    let xu := r.oe
    let c := if off (a, i) ≤ 0 then r.onx else 0
    loop (xl - c) (xu - c) fun o s => (Function.update s.1 (n, a, i, o) (buf s.2), s.2 + 1)

/-- The same with `nb == 4`, from the right neighbour (bvals_orbital.cpp:1131-1149, 1175-1193,
1924-1954). -/
def setDown (buf : ℕ → K) : Buf K × ℕ → Buf K × ℕ :=
  rowLoop r fun n a i =>
    let xl := r.os + r.onx
    let xu := r.oe + 1 + r.xgh - off (a, i)
    let c := if off (a, i) > 0 then r.onx else 0
    loop (xl + c) (xu + c) fun o s => (Function.update s.1 (n, a, i, o) (buf s.2), s.2 + 1)

/-- `p1` and `p2` of `SetOrbitalEdgeCC` and `SetOrbitalEdgeFC` (set_orbital_advection.cpp:209-238,
367-408), one loop over rows. -/
def countUp : ℤ → ℤ :=
  loop r.a0 r.a1 fun a => loop r.i0 r.i1 fun i => fun p => p + max (off (a, i) + r.xgh) 0
@[inherit_doc countUp] def countDown : ℤ → ℤ :=
  loop r.a0 r.a1 fun a => loop r.i0 r.i1 fun i => fun p => p + max (1 + r.xgh - off (a, i)) 0

/-- A received buffer: the message, and behind it what was there before. -/
def recv (msg : List K) (old : ℕ → K) : ℕ → K := fun p => msg.getD p (old p)
end

/-- One of the two arrays of an exchange: its rows, offsets and the values `u b` of block `b`. The
blocks of a ring are numbered along the orbital direction; the numbers run through all integers, a ring
of `N` blocks has `u (b + N) = u b`. Blocks of a ring have the same rows and offsets: these depend on the
positions `x1`, `x3` (or `x2`) of the rows only. -/
structure Part (K : Type) where
  r : Rows
  off : ℤ × ℤ → ℤ
  u : ℤ → Var K

section
variable {K : Type} (P Q : Part K)

/-- The messages of block `b`: `SendBoundaryBuffersCC` (bvals_orbital.cpp:571-596), with the conserved
variables as `P` and the scalars as `Q`; `SendBoundaryBuffersFC` (720-742) with the two components of the
magnetic field. -/
def msgUp (b : ℤ) : List K := loadUp Q.r Q.off (Q.u b) (loadUp P.r P.off (P.u b) [])
@[inherit_doc msgUp] def msgDown (b : ℤ) : List K := loadDown Q.r Q.off (Q.u b) (loadDown P.r P.off (P.u b) [])

/-- The part of `ReceiveBoundaryBuffersCC`, `ReceiveBoundaryBuffersFC` for one neighbour
(bvals_orbital.cpp:690-710, 823-842) with the set functions `f` for `P` and `g` for `Q`: the buffers
and the final value of `p`. -/
def receive (f g : (ℕ → K) → Buf K × ℕ → Buf K × ℕ) (buf : ℕ → K) (s : Buf K × Buf K) :
    (Buf K × Buf K) × ℕ :=
  let x := f buf (s.1, 0)
  let y := g buf (s.2, x.2)
  ((x.1, y.1), y.2)

/-- The orbital buffers of block `b` when all messages have been set, in the order `first` (the
neighbour whose message came first). `own` is `ownCC` or `ownFC`; `old0`, `old1` are the contents of the
receive buffers, `s` those of the orbital buffers before. A message of length zero is neither sent nor
received (`StartReceiving`, bvals_orbital.cpp:487-508); setting it would change nothing. -/
def fill (own : Rows → (ℤ × ℤ → ℤ) → Var K → Buf K → Buf K) (first : Bool) (old0 old1 : ℕ → K) (b : ℤ)
    (s : Buf K × Buf K) : Buf K × Buf K :=
  let s := (own P.r P.off (P.u b) s.1, own Q.r Q.off (Q.u b) s.2)
  let up s := (receive (setUp P.r P.off) (setUp Q.r Q.off) (recv (msgUp P Q (b - 1)) old0) s).1
  let dn s := (receive (setDown P.r P.off) (setDown Q.r Q.off) (recv (msgDown P Q (b + 1)) old1) s).1
  if first then dn (up s) else up (dn s)
end

/-! ## Remapping -/

section
variable {K : Type} [Field K] [LinearOrder K]

/-- `RemapFluxPlm` for one `i` (orbital_remapping.cpp:41-53): `q` is the row of the buffer, `x` the
index `i + shift_`. -/
def fluxPlm (eps : K) (osgn : Bool) (q : ℤ → K) (x : ℤ) : K :=
  let odi := (if osgn then 1 else 0) - 1 / 2
  let coeff := odi * (1 - 2 * odi * eps)
  let dul := q x - q (x - 1)
  let dur := q (x + 1) - q x
  let du2 := dul * dur
  let dum := if du2 ≤ 0 then 0 else 2 * du2 / (dul + dur)
  eps * (q x + coeff * dum)

/-- `SIGN` (defs.hpp.in:123). -/
def sign (x : K) : K := if x < 0 then -1 else 1

/-- The limited face value in step 2 of `RemapFluxPpm` (orbital_remapping.cpp:131-149, 152-168):
`a`, `c` are the values on both sides of the face, `da`, `dc` the second differences there, `f` is the
face value of step 1. -/
def ppmFace (a c da dc f : K) : K :=
  let C2 := 5 / 4
  let qa := 3 * (a + c - 2 * f)
  let qd := if sign qa = sign da ∧ sign qa = sign dc then sign qa * min (C2 * |da|) (min (C2 * |dc|) |qa|) else 0
  if (f - a) * (c - f) < 0 then (1 / 2) * (a + c) - qd / 6 else f

/-- `qminus` and `qplus` of `RemapFluxPpm` (orbital_remapping.cpp:107-231) for the cell `x`. -/
def ppmCell (q : ℤ → K) (x : ℤ) : K × K :=
  let C2 := 5 / 4
  let m2 := q (x - 2); let m1 := q (x - 1); let c := q x; let p1 := q (x + 1); let p2 := q (x + 2)
  let dd_m1 := (1 / 2) * (c - m1 + m1 - m2)
  let dd := (1 / 2) * (p1 - c + (c - m1))
  let dd_p1 := (1 / 2) * (p2 - p1 + (p1 - c))
  let d2m1 := m2 + c - 2 * m1
  let d2 := m1 + p1 - 2 * c
  let d2p1 := c + p2 - 2 * p1
  let fm := ppmFace m1 c d2m1 d2 ((1 / 2) * (m1 + c) + (dd_m1 - dd) / 6)
  let fp := ppmFace c p1 d2 d2p1 ((1 / 2) * (c + p1) + (dd - dd_p1) / 6)
  let d2qf := 6 * (fm + fp - 2 * c)
  let dm := c - fm
  let dp := fp - c
  let qe := if sign d2m1 = sign d2 ∧ sign d2m1 = sign d2p1 ∧ sign d2m1 = sign d2qf then
      sign d2qf * min (min (C2 * |d2m1|) (C2 * |d2|)) (min (C2 * |d2p1|) |d2qf|) else 0
  let rho := if |d2qf| > (1 / 10 ^ 12) * max (max |m1| |m2|) (max (max |c| |p1|) |p2|) then qe / d2qf else 0
  if dm * dp ≤ 0 ∨ (p1 - c) * (c - m1) ≤ 0 then
    if rho ≤ 1 - 1 / 10 ^ 12 then (c - rho * dm, c + rho * dp) else (fm, fp)
  else
    (if |dm| ≥ 2 * |dp| then c - 2 * dp else fm, if |dp| ≥ 2 * |dm| then c + 2 * dm else fp)

/-- Step 5 of `RemapFluxPpm` (orbital_remapping.cpp:234-241). -/
def fluxPpm (eps : K) (osgn : Bool) (q : ℤ → K) (x : ℤ) : K :=
  let odi := 2 * ((if osgn then 1 else 0) - 1 / 2)
  let qx := odi * (2 / 3) * eps
  let qm := (ppmCell q x).1
  let qp := (ppmCell q x).2
  let dU := qp - qm
  let U6 := 6 * (q x - (1 / 2) * (qp + qm))
  eps * ((if osgn then qp else qm) - (1 / 2) * eps * (dU - odi * (1 - qx) * U6))

/-- The choice by `xorder` (calculate_orbital_advection.cpp:55-59 and so on). -/
def remapFlux (ppm : Bool) (eps : K) (osgn : Bool) (q : ℤ → K) (x : ℤ) : K :=
  if ppm then fluxPpm eps osgn q x else fluxPlm eps osgn q x

variable (ppm : Bool) (r : Rows) (off : ℤ × ℤ → ℤ) (eps : ℤ × ℤ → K)

/-- `CalculateOrbitalAdvectionCC` for one array (calculate_orbital_advection.cpp:41-115): the array
`pflux` is the function of `o` below. -/
def calcCC (h : Buf K) : Var K → Var K :=
  rowLoop r fun n a i =>
    let osgn : Bool := off (a, i) > 0
    let shift0 := (if osgn then 1 else 0) * r.onx - off (a, i)
    let shift := shift0 + (if osgn then 1 else 0)
    let pflux : ℤ → K := fun o => remapFlux ppm (eps (a, i)) osgn (fun x => h (n, a, i, x)) (o + shift0)
    loop r.os r.oe fun o u => Function.update u (n, a, o, i) (h (n, a, i, o + shift) - (pflux (o + 1) - pflux o))

/-- `pflux` of a row in `CalculateOrbitalAdvectionFC` (calculate_orbital_advection.cpp:135-158, and the
same text three more times): the remapped flux and the cells passed as a whole. `bbuf` is the row. -/
def pfluxFC (onx : ℤ) (off : ℤ) (eps : K) (bbuf : ℤ → K) (o : ℤ) : K :=
  let osgn : Bool := off > 0
  let shift0 := (if osgn then 1 else 0) * onx - off
  let p := remapFlux ppm eps osgn bbuf (o + shift0)
  let p := loop 1 (off - 1) (fun jj p => p + bbuf (o + (shift0 + jj))) p
  loop 0 (-off - 1) (fun m p => p - bbuf (o + (shift0 - m - 1))) p
end

/-! ## The magnetic field -/

section
open Verif.Coord

/-- `h2v`, `h2f`, `h32v`, `h32f` (cartesian.cpp:77-96; cylindrical.cpp:71-90; spherical_polar.cpp:115-134). -/
noncomputable def h2v (c : Sys) (X : XF) (i : ℤ) : ℝ := match c with
  | .cartesian => 1
  | c => x1v X c i
@[inherit_doc h2v] def h2f (c : Sys) (X : XF) (i : ℤ) : ℝ := match c with
  | .cartesian => 1
  | _ => X.x1.xf i
@[inherit_doc h2v] noncomputable def h32v (nx2 : ℤ) (c : Sys) (X : XF) (j : ℤ) : ℝ := match c with
  | .spherical => Real.sin (x2v X nx2 c j)
  | _ => 1
@[inherit_doc h2v] noncomputable def h32f (c : Sys) (X : XF) (j : ℤ) : ℝ := match c with
  | .spherical => Real.sin (X.x2.xf j)
  | _ => 1

/-- The two arrays of `SetOrbitalAdvectionFC` in direction 1 (set_orbital_advection.cpp:133-154): `B1`, and
`-B3`, of the blocks of a ring. -/
def partB1 {K : Type} (d : Dims) (xgh : ℤ) (off : ℤ × ℤ → ℤ) (B : ℤ → FF K) : Part K where
  r := { os := d.js, onx := d.nx2, xgh := xgh, a0 := d.ks, a1 := d.ke, i0 := d.is, i1 := d.ie + 1, nv := 1 }
  off := off
  u := fun b (_, k, j, i) => (B b).x1f (k, j, i)
@[inherit_doc partB1] def partB3 {K : Type} [Neg K] (d : Dims) (xgh : ℤ) (off : ℤ × ℤ → ℤ) (B : ℤ → FF K) : Part K where
  r := { os := d.js, onx := d.nx2, xgh := xgh, a0 := d.ks, a1 := d.ke + 1, i0 := d.is, i1 := d.ie, nv := 1 }
  off := off
  u := fun b (_, k, j, i) => -(B b).x3f (k, j, i)

/-- The two arrays in direction 2 (set_orbital_advection.cpp:155-175): `-B1`, and `B2`. -/
def partB1' {K : Type} [Neg K] (d : Dims) (xgh : ℤ) (off : ℤ × ℤ → ℤ) (B : ℤ → FF K) : Part K where
  r := { os := d.ks, onx := d.nx3, xgh := xgh, a0 := d.js, a1 := d.je, i0 := d.is, i1 := d.ie + 1, nv := 1 }
  off := off
  u := fun b (_, j, k, i) => -(B b).x1f (k, j, i)
@[inherit_doc partB1'] def partB2 {K : Type} (d : Dims) (xgh : ℤ) (off : ℤ × ℤ → ℤ) (B : ℤ → FF K) : Part K where
  r := { os := d.ks, onx := d.nx3, xgh := xgh, a0 := d.js, a1 := d.je + 1, i0 := d.is, i1 := d.ie, nv := 1 }
  off := off
  u := fun b (_, j, k, i) => (B b).x2f (k, j, i)

/-- `CalculateOrbitalAdvectionFC` in direction 1 (calculate_orbital_advection.cpp:130-206) after the
exchange: `b1`, `b2` are the orbital buffers, with indices `(0, k, i, j)`. Only entries of the loops are
meaningful; the others keep what they had, which `Field::CT` does not read. -/
noncomputable def emf1 (ppm : Bool) (c : Sys) (X : XF) (onx : ℤ) (dx : ℝ) (off1 off2 : ℤ × ℤ → ℤ)
    (eps1 eps2 : ℤ × ℤ → ℝ) (b1 b2 : Buf ℝ) : EF ℝ where
  x1e := fun (k, j, i) => pfluxFC ppm onx (off2 (k, i)) (eps2 (k, i)) (fun x => b2 (0, k, i, x)) j * (h2v c X i * dx)
  x2e := fun _ => 0
  x3e := fun (k, j, i) => pfluxFC ppm onx (off1 (k, i)) (eps1 (k, i)) (fun x => b1 (0, k, i, x)) j * (h2f c X i * dx)

/-- `CalculateOrbitalAdvectionFC` in direction 2 (calculate_orbital_advection.cpp:207-283). -/
noncomputable def emf2 (ppm : Bool) (c : Sys) (X : XF) (nx2 onx : ℤ) (dx : ℝ) (off1 off2 : ℤ × ℤ → ℤ)
    (eps1 eps2 : ℤ × ℤ → ℝ) (b1 b2 : Buf ℝ) : EF ℝ where
  x1e := fun (k, j, i) => pfluxFC ppm onx (off2 (j, i)) (eps2 (j, i)) (fun x => b2 (0, j, i, x)) k *
    (h2v c X i * h32f c X j * dx)
  x2e := fun (k, j, i) => pfluxFC ppm onx (off1 (j, i)) (eps1 (j, i)) (fun x => b1 (0, j, i, x)) k *
    (h2f c X i * h32v nx2 c X j * dx)
  x3e := fun _ => 0
end

/-- The limit of the time step from the size of the blocks for one block without refinement
(orbital_advection.cpp:514-527); `vmax`, `vmin` are `vK_max`, `vK_min`, `none` stands for
`numeric_limits<Real>::max()`. -/
def limitDt {K : Type} [Field K] [LinearOrder K] (dx : K) (onx xgh : ℤ) (vmax vmin : K) : Option K :=
  let t0 := if vmax > 0 then some (dx * ((onx - xgh : ℤ) : K) / vmax) else none
  if vmin < 0 then
    let t := -dx * ((onx - xgh : ℤ) : K) / vmin
    some (match t0 with | none => t | some s => min s t)
  else t0

end Verif.Orbital
