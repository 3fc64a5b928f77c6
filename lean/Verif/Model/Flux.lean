import Verif.Model.Grid
import Mathlib.Algebra.Field.Defs

/-!
# Flux divergence and flux correction
(src/hydro/add_flux_divergence.cpp, src/bvals/cc/flux_correction_cc.cpp)

Exact arithmetic in a field.
-/
namespace Verif.Grid
open Verif.Arr (rng loop)
variable {K : Type} [Field K]

/-- `dflx(n,i)` when the conserved variables are updated (add_flux_divergence.cpp:51-86). -/
def dflx (d : Dims) (G : Geom K) (F : Flx K) (n k j i : Int) : K :=
  let x := G.a1 (k, j, i+1) * F.x1 (n, k, j, i+1) - G.a1 (k, j, i) * F.x1 (n, k, j, i)
  let x := if d.nx2 > 1 then
      x + (G.a2 (k, j+1, i) * F.x2 (n, k, j+1, i) - G.a2 (k, j, i) * F.x2 (n, k, j, i))
    else x
  if d.nx3 > 1 then
    x + (G.a3 (k+1, j, i) * F.x3 (n, k+1, j, i) - G.a3 (k, j, i) * F.x3 (n, k, j, i))
  else x

/-- `Hydro::AddFluxDivergence(wght, u_out)` (add_flux_divergence.cpp:39-97); `nv` is `NHYDRO`. The
passive scalar version (scalars/add_flux_divergence.cpp) is the same with `NSCALARS`. -/
def addFluxDivergence (d : Dims) (nv : Nat) (G : Geom K) (F : Flx K) (wght : K) : A4 K → A4 K :=
  loop d.ks d.ke fun k => loop d.js d.je fun j =>
    loop 0 (nv - 1) fun n => loop d.is d.ie fun i => fun u =>
      Function.update u (n, k, j, i) (u (n, k, j, i) - wght * dflx d G F n k j i / G.vol (k, j, i))

/-- `LoadFluxBoundaryBufferToCoarser` (flux_correction_cc.cpp:78-160): the values written to the buffer in
order. `fid` is 0 to 5 for inner_x1, outer_x1, inner_x2, ... In two dimensions `Face2Area` is
called with `k = 0`, which is `ks`. -/
def loadToCoarser (d : Dims) (nl nu : Int) (G : Geom K) (F : Flx K) (fid : Nat) : List K :=
  if fid = 0 ∨ fid = 1 then
    let i := d.is + (d.ie - d.is + 1) * fid
    if d.nx3 > 1 then
      (rng nl nu).flatMap fun nn => (rng2 d.ks d.ke).flatMap fun k => (rng2 d.js d.je).map fun j =>
        let amm := G.a1 (k, j, i)
        let amp := G.a1 (k, j+1, i)
        let apm := G.a1 (k+1, j, i)
        let app := G.a1 (k+1, j+1, i)
        let tarea := amm + amp + apm + app
        (F.x1 (nn, k, j, i) * amm + F.x1 (nn, k, j+1, i) * amp + F.x1 (nn, k+1, j, i) * apm
          + F.x1 (nn, k+1, j+1, i) * app) / tarea
    else if d.nx2 > 1 then
      let k := d.ks
      (rng nl nu).flatMap fun nn => (rng2 d.js d.je).map fun j =>
        let am := G.a1 (k, j, i)
        let ap := G.a1 (k, j+1, i)
        let tarea := am + ap
        (F.x1 (nn, k, j, i) * am + F.x1 (nn, k, j+1, i) * ap) / tarea
    else
      (rng nl nu).map fun nn => F.x1 (nn, d.ks, d.js, i)
  else if fid = 2 ∨ fid = 3 then
    let j := d.js + (d.je - d.js + 1) * (fid &&& 1 : Nat)
    if d.nx3 > 1 then
      (rng nl nu).flatMap fun nn => (rng2 d.ks d.ke).flatMap fun k => (rng2 d.is d.ie).map fun i =>
        let s0 := fun i => G.a2 (k, j, i)
        let s1 := fun i => G.a2 (k+1, j, i)
        let tarea := s0 i + s0 (i+1) + s1 i + s1 (i+1)
        (F.x2 (nn, k, j, i) * s0 i + F.x2 (nn, k, j, i+1) * s0 (i+1) + F.x2 (nn, k+1, j, i) * s1 i
          + F.x2 (nn, k+1, j, i+1) * s1 (i+1)) / tarea
    else if d.nx2 > 1 then
      let k := d.ks
      (rng nl nu).flatMap fun nn => (rng2 d.is d.ie).map fun i =>
        let s0 := fun i => G.a2 (0, j, i)
        let tarea := s0 i + s0 (i+1)
        (F.x2 (nn, k, j, i) * s0 i + F.x2 (nn, k, j, i+1) * s0 (i+1)) / tarea
    else []
  else if fid = 4 ∨ fid = 5 then
    let k := d.ks + (d.ke - d.ks + 1) * (fid &&& 1 : Nat)
    (rng nl nu).flatMap fun nn => (rng2 d.js d.je).flatMap fun j => (rng2 d.is d.ie).map fun i =>
      let s0 := fun i => G.a3 (k, j, i)
      let s1 := fun i => G.a3 (k, j+1, i)
      let tarea := s0 i + s0 (i+1) + s1 i + s1 (i+1)
      (F.x3 (nn, k, j, i) * s0 i + F.x3 (nn, k, j, i+1) * s0 (i+1) + F.x3 (nn, k, j+1, i) * s1 i
        + F.x3 (nn, k, j+1, i+1) * s1 (i+1)) / tarea
  else []

/-- The statement `flux(...) = buf[p++]`. -/
def takeBuf {P : Type} [DecidableEq P] (buf : Nat → K) (q : P) (st : (P → K) × Nat) : (P → K) × Nat :=
  (Function.update st.1 q (buf st.2), st.2 + 1)

/-- `x` reduced to the first (`f = 0`) or second half of a range: lower and upper end. -/
def halfLo (s n : Int) (f : Nat) : Int := if f = 0 then s else s + n.tdiv 2
@[inherit_doc halfLo] def halfHi (e n : Int) (f : Nat) : Int := if f = 0 then e - n.tdiv 2 else e

/-- `SetFluxBoundaryFromFiner` (flux_correction_cc.cpp:243-293): new fluxes and number of values
consumed. -/
def setFromFiner (d : Dims) (nl nu : Int) (fid f1 f2 : Nat) (buf : Nat → K) (F : Flx K) : Flx K × Nat :=
  if fid = 0 ∨ fid = 1 then
    let il := d.is + (d.ie - d.is) * fid + fid
    let r := (loop nl nu fun nn => loop (halfLo d.ks d.nx3 f2) (halfHi d.ke d.nx3 f2) fun k =>
      loop (halfLo d.js d.nx2 f1) (halfHi d.je d.nx2 f1) fun j => takeBuf buf (nn, k, j, il)) (F.x1, 0)
    ({ F with x1 := r.1 }, r.2)
  else if fid = 2 ∨ fid = 3 then
    let jl := d.js + (d.je - d.js) * (fid &&& 1 : Nat) + (fid &&& 1 : Nat)
    let r := (loop nl nu fun nn => loop (halfLo d.ks d.nx3 f2) (halfHi d.ke d.nx3 f2) fun k =>
      loop (halfLo d.is d.nx1 f1) (halfHi d.ie d.nx1 f1) fun i => takeBuf buf (nn, k, jl, i)) (F.x2, 0)
    ({ F with x2 := r.1 }, r.2)
  else if fid = 4 ∨ fid = 5 then
    let kl := d.ks + (d.ke - d.ks) * (fid &&& 1 : Nat) + (fid &&& 1 : Nat)
    let r := (loop nl nu fun nn => loop (halfLo d.js d.nx2 f2) (halfHi d.je d.nx2 f2) fun j =>
      loop (halfLo d.is d.nx1 f1) (halfHi d.ie d.nx1 f1) fun i => takeBuf buf (nn, kl, j, i)) (F.x3, 0)
    ({ F with x3 := r.1 }, r.2)
  else (F, 0)

/-- The assignments made by `ReceiveFluxCorrection` over all its calls (flux_correction_cc.cpp:299-346):
`slots` are the finer face neighbours `(fid, fi1, fi2)` in the order their data arrived, `buf` the
receive buffers. -/
def receiveCorrections (d : Dims) (nl nu : Int) (buf : Nat → Nat → Nat → Nat → K)
    (slots : List (Nat × Nat × Nat)) (F : Flx K) : Flx K :=
  slots.foldl (fun F s => (setFromFiner d nl nu s.1 s.2.1 s.2.2 (buf s.1 s.2.1 s.2.2) F).1) F

end Verif.Grid
