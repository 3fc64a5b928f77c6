import Verif.Model.Refine

/-!
# Restriction and prolongation of face-centred fields (src/mesh/mesh_refinement.cpp)

`pole j` stands for `pco->IsPole(j)` (coordinates.cpp:886-899); `tiny` for `TINY_NUMBER`; `flux` for `fluxinterp_`, which is true for
spherical-polar and cylindrical coordinates (mesh_refinement.cpp:53-58). `G` is the fine geometry, `Gc` the coarse one, `F` and `C` the
fine and the coarse coordinates.
-/
namespace Verif.Grid
open Verif.Arr (loop)
variable {K : Type} [Field K] [LinearOrder K]

/-- `RestrictFieldX1` (mesh_refinement.cpp:272-320). -/
def restrictX1 (d : Dims) (G : Geom K) (fine : A3 K) (csi cei csj cej csk cek : Int) : A3 K → A3 K :=
  if d.nx3 > 1 then
    loop csk cek fun ck => loop csj cej fun cj => loop csi cei fun ci => fun coarse =>
      let k := d.fk ck; let j := d.fj cj; let i := d.fi ci
      let tarea := G.a1 (k, j, i) + G.a1 (k, j+1, i) + G.a1 (k+1, j, i) + G.a1 (k+1, j+1, i)
      Function.update coarse (ck, cj, ci)
        ((fine (k, j, i) * G.a1 (k, j, i) + fine (k, j+1, i) * G.a1 (k, j+1, i)
          + fine (k+1, j, i) * G.a1 (k+1, j, i) + fine (k+1, j+1, i) * G.a1 (k+1, j+1, i)) / tarea)
  else if d.nx2 > 1 then
    loop csj cej fun cj => loop csi cei fun ci => fun coarse =>
      let k := d.ks; let j := d.fj cj; let i := d.fi ci
      let tarea := G.a1 (k, j, i) + G.a1 (k, j+1, i)
      Function.update coarse (csk, cj, ci) ((fine (k, j, i) * G.a1 (k, j, i) + fine (k, j+1, i) * G.a1 (k, j+1, i)) / tarea)
  else
    loop csi cei fun ci => fun coarse => Function.update coarse (csk, csj, ci) (fine (d.ks, d.js, d.fi ci))

/-- The coarse array and the scratch rows `sarea_x2_[0][0]`, `sarea_x2_[1][0]`, which keep their contents between calls. -/
structure RX2 (K : Type) where
  coarse : A3 K
  s0 : Int → K
  s1 : Int → K

/-- One row of `RestrictFieldX2`: filling the scratch rows. At a pole only the entries with the index of a coarse cell's first fine
cell are assigned (mesh_refinement.cpp:341-351; in two dimensions, 366-374, only `sarea_x2_[0][0]`, which is the only one read there). -/
def fillX2 (d : Dims) (G : Geom K) (F : Crd K) (pole : Int → Bool) (k j csi cei : Int) (st : RX2 K) : RX2 K :=
  let si := d.fi csi
  let ei := d.fi cei + 1
  if !pole j then
    { st with
      s0 := loop si ei (fun i s => Function.update s i (G.a2 (k, j, i))) st.s0
      s1 := loop si ei (fun i s => Function.update s i (G.a2 (k+1, j, i))) st.s1 }
  else
    { st with
      s0 := loop csi cei (fun ci s => Function.update s (d.fi ci) (F.dx1f (d.fi ci))) st.s0
      s1 := loop csi cei (fun ci s => Function.update s (d.fi ci) (F.dx1f (d.fi ci))) st.s1 }

/-- `RestrictFieldX2` (mesh_refinement.cpp:328-394). -/
def restrictX2 (d : Dims) (G : Geom K) (F : Crd K) (pole : Int → Bool) (fine : A3 K) (csi cei csj cej csk cek : Int) : RX2 K → RX2 K :=
  if d.nx3 > 1 then
    loop csk cek fun ck => loop csj cej fun cj => fun st =>
      let k := d.fk ck; let j := d.fj cj
      let st := fillX2 d G F pole k j csi cei st
      loop csi cei (fun ci st =>
        let i := d.fi ci
        let tarea := st.s0 i + st.s0 (i+1) + st.s1 i + st.s1 (i+1)
        { st with
          coarse := Function.update st.coarse (ck, cj, ci)
            ((fine (k, j, i) * st.s0 i + fine (k, j, i+1) * st.s0 (i+1)
              + fine (k+1, j, i) * st.s1 i + fine (k+1, j, i+1) * st.s1 (i+1)) / tarea) }) st
  else if d.nx2 > 1 then
    loop csj cej fun cj => fun st =>
      let k := d.ks; let j := d.fj cj
      let st := fillX2 d G F pole k j csi cei st
      loop csi cei (fun ci st =>
        let i := d.fi ci
        let tarea := st.s0 i + st.s0 (i+1)
        { st with
          coarse := Function.update st.coarse (0, cj, ci)
            ((fine (k, j, i) * st.s0 i + fine (k, j, i+1) * st.s0 (i+1)) / tarea) }) st
  else
    fun st =>
      let k := d.ks; let j := d.js
      let st := fillX2 d G F (fun _ => false) k j csi cei st
      loop csi cei (fun ci st =>
        let i := d.fi ci
        let tarea := st.s0 i + st.s0 (i+1)
        { st with
          coarse := Function.update st.coarse (0, 0, ci)
            ((fine (k, j, i) * st.s0 i + fine (k, j, i+1) * st.s0 (i+1)) / tarea) }) st

/-- `RestrictFieldX3` (mesh_refinement.cpp:402-455). -/
def restrictX3 (d : Dims) (G : Geom K) (fine : A3 K) (csi cei csj cej csk cek : Int) : A3 K → A3 K :=
  if d.nx3 > 1 then
    loop csk cek fun ck => loop csj cej fun cj => loop csi cei fun ci => fun coarse =>
      let k := d.fk ck; let j := d.fj cj; let i := d.fi ci
      let tarea := G.a3 (k, j, i) + G.a3 (k, j, i+1) + G.a3 (k, j+1, i) + G.a3 (k, j+1, i+1)
      Function.update coarse (ck, cj, ci)
        ((fine (k, j, i) * G.a3 (k, j, i) + fine (k, j, i+1) * G.a3 (k, j, i+1)
          + fine (k, j+1, i) * G.a3 (k, j+1, i) + fine (k, j+1, i+1) * G.a3 (k, j+1, i+1)) / tarea)
  else if d.nx2 > 1 then
    loop csj cej fun cj => loop csi cei fun ci => fun coarse =>
      let k := d.ks; let j := d.fj cj; let i := d.fi ci
      let tarea := G.a3 (k, j, i) + G.a3 (k, j, i+1) + G.a3 (k, j+1, i) + G.a3 (k, j+1, i+1)
      Function.update coarse (0, cj, ci)
        ((fine (k, j, i) * G.a3 (k, j, i) + fine (k, j, i+1) * G.a3 (k, j, i+1)
          + fine (k, j+1, i) * G.a3 (k, j+1, i) + fine (k, j+1, i+1) * G.a3 (k, j+1, i+1)) / tarea)
  else
    loop csi cei fun ci => fun coarse =>
      let k := d.ks; let j := d.js; let i := d.fi ci
      let tarea := G.a3 (k, j, i) + G.a3 (k, j, i+1)
      Function.update coarse (0, 0, ci) ((fine (k, j, i) * G.a3 (k, j, i) + fine (k, j, i+1) * G.a3 (k, j, i+1)) / tarea)

/-- `ProlongateSharedFieldX1` (mesh_refinement.cpp:776-905). -/
def prolongX1 (d : Dims) (flux : Bool) (G Gc : Geom K) (C F : Crd K) (coarse : A3 K) (si ei sj ej sk ek : Int) : A3 K → A3 K :=
  if d.nx3 > 1 then
    loop sk ek fun k => loop sj ej fun j => loop si ei fun i =>
      let fk := d.fk k; let fj := d.fj j; let fi := d.fi i
      let x2c := C.x2s1 j; let x3c := C.x3s1 k
      let fx2m := F.x2s1 fj; let fx2p := F.x2s1 (fj+1); let fx3m := F.x3s1 fk; let fx3p := F.x3s1 (fk+1)
      let ccval := coarse (k, j, i)
      let gx2c := slope (coarse (k, j-1, i)) ccval (coarse (k, j+1, i)) (x2c - C.x2s1 (j-1)) (C.x2s1 (j+1) - x2c)
      let gx3c := slope (coarse (k-1, j, i)) ccval (coarse (k+1, j, i)) (x3c - C.x3s1 (k-1)) (C.x3s1 (k+1) - x3c)
      if flux then
        let dfx2 := fx2p - fx2m; let dfx3 := fx3p - fx3m
        let csarea := Gc.a1 (k, j, i)
        let fsa00 := G.a1 (fk, fj, fi); let fsa01 := G.a1 (fk, fj+1, fi)
        let fsa10 := G.a1 (fk+1, fj, fi); let fsa11 := G.a1 (fk+1, fj+1, fi)
        writes [((fk, fj, fi), ccval - gx2c*dfx2*(fsa01 + fsa11)/csarea - gx3c*dfx3*(fsa10 + fsa11)/csarea),
                ((fk, fj+1, fi), ccval + gx2c*dfx2*(fsa00 + fsa10)/csarea - gx3c*dfx3*(fsa10 + fsa11)/csarea),
                ((fk+1, fj, fi), ccval - gx2c*dfx2*(fsa01 + fsa11)/csarea + gx3c*dfx3*(fsa00 + fsa01)/csarea),
                ((fk+1, fj+1, fi), ccval + gx2c*dfx2*(fsa00 + fsa10)/csarea + gx3c*dfx3*(fsa00 + fsa01)/csarea)]
      else
        writes [((fk, fj, fi), ccval - gx2c*(x2c - fx2m) - gx3c*(x3c - fx3m)),
                ((fk, fj+1, fi), ccval + gx2c*(fx2p - x2c) - gx3c*(x3c - fx3m)),
                ((fk+1, fj, fi), ccval - gx2c*(x2c - fx2m) + gx3c*(fx3p - x3c)),
                ((fk+1, fj+1, fi), ccval + gx2c*(fx2p - x2c) + gx3c*(fx3p - x3c))]
  else if d.nx2 > 1 then
    loop sj ej fun j => loop si ei fun i =>
      let fk := d.ks; let fj := d.fj j; let fi := d.fi i
      let x2c := C.x2s1 j
      let fx2m := F.x2s1 fj; let fx2p := F.x2s1 (fj+1)
      let ccval := coarse (0, j, i)
      let gx2c := slope (coarse (0, j-1, i)) ccval (coarse (0, j+1, i)) (x2c - C.x2s1 (j-1)) (C.x2s1 (j+1) - x2c)
      writes [((fk, fj, fi), ccval - gx2c*(x2c - fx2m)),
              ((fk, fj+1, fi), ccval + gx2c*(fx2p - x2c))]
  else
    loop si ei fun i => writes [((0, 0, d.fi i), coarse (0, 0, i))]

/-- `ProlongateSharedFieldX2` (mesh_refinement.cpp:914-1049). -/
def prolongX2 (d : Dims) (flux : Bool) (tiny : K) (G Gc : Geom K) (C F : Crd K) (coarse : A3 K) (si ei sj ej sk ek : Int) : A3 K → A3 K :=
  if d.nx3 > 1 then
    loop sk ek fun k => loop sj ej fun j => loop si ei fun i =>
      let fk := d.fk k; let fj := d.fj j; let fi := d.fi i
      let x1c := C.x1s2 i; let x3c := C.x3s2 k
      let fx1m := F.x1s2 fi; let fx1p := F.x1s2 (fi+1); let fx3m := F.x3s2 fk; let fx3p := F.x3s2 (fk+1)
      let ccval := coarse (k, j, i)
      let gx1c := slope (coarse (k, j, i-1)) ccval (coarse (k, j, i+1)) (x1c - C.x1s2 (i-1)) (C.x1s2 (i+1) - x1c)
      let gx3c := slope (coarse (k-1, j, i)) ccval (coarse (k+1, j, i)) (x3c - C.x3s2 (k-1)) (C.x3s2 (k+1) - x3c)
      if flux then
        let dfx1 := fx1p - fx1m; let dfx3 := fx3p - fx3m
        let csarea := Gc.a2 (k, j, i) + tiny
        let fsa00 := G.a2 (fk, fj, fi); let fsa01 := G.a2 (fk, fj, fi+1)
        let fsa10 := G.a2 (fk+1, fj, fi); let fsa11 := G.a2 (fk+1, fj, fi+1)
        writes [((fk, fj, fi), ccval - gx1c*dfx1*(fsa01 + fsa11)/csarea - gx3c*dfx3*(fsa10 + fsa11)/csarea),
                ((fk, fj, fi+1), ccval + gx1c*dfx1*(fsa00 + fsa10)/csarea - gx3c*dfx3*(fsa10 + fsa11)/csarea),
                ((fk+1, fj, fi), ccval - gx1c*dfx1*(fsa01 + fsa11)/csarea + gx3c*dfx3*(fsa00 + fsa01)/csarea),
                ((fk+1, fj, fi+1), ccval + gx1c*dfx1*(fsa00 + fsa10)/csarea + gx3c*dfx3*(fsa00 + fsa01)/csarea)]
      else
        writes [((fk, fj, fi), ccval - gx1c*(x1c - fx1m) - gx3c*(x3c - fx3m)),
                ((fk, fj, fi+1), ccval + gx1c*(fx1p - x1c) - gx3c*(x3c - fx3m)),
                ((fk+1, fj, fi), ccval - gx1c*(x1c - fx1m) + gx3c*(fx3p - x3c)),
                ((fk+1, fj, fi+1), ccval + gx1c*(fx1p - x1c) + gx3c*(fx3p - x3c))]
  else if d.nx2 > 1 then
    loop sj ej fun j => loop si ei fun i =>
      let fk := d.ks; let fj := d.fj j; let fi := d.fi i
      let x1c := C.x1s2 i
      let fx1m := F.x1s2 fi; let fx1p := F.x1s2 (fi+1)
      let ccval := coarse (0, j, i)
      let gx1c := slope (coarse (0, j, i-1)) ccval (coarse (0, j, i+1)) (x1c - C.x1s2 (i-1)) (C.x1s2 (i+1) - x1c)
      writes [((fk, fj, fi), ccval - gx1c*(x1c - fx1m)),
              ((fk, fj, fi+1), ccval + gx1c*(fx1p - x1c))]
  else
    loop si ei fun i =>
      let fi := d.fi i
      let gxc := slope (coarse (0, 0, i-1)) (coarse (0, 0, i)) (coarse (0, 0, i+1)) (C.x1s2 i - C.x1s2 (i-1)) (C.x1s2 (i+1) - C.x1s2 i)
      writes [((0, 1, fi), coarse (0, 0, i) - gxc*(C.x1s2 i - F.x1s2 fi)),
              ((0, 0, fi), coarse (0, 0, i) - gxc*(C.x1s2 i - F.x1s2 fi)),
              ((0, 1, fi+1), coarse (0, 0, i) + gxc*(F.x1s2 (fi+1) - C.x1s2 i)),
              ((0, 0, fi+1), coarse (0, 0, i) + gxc*(F.x1s2 (fi+1) - C.x1s2 i))]

/-- `ProlongateSharedFieldX3` (mesh_refinement.cpp:1058-1216). -/
def prolongX3 (d : Dims) (flux : Bool) (G Gc : Geom K) (C F : Crd K) (coarse : A3 K) (si ei sj ej sk ek : Int) : A3 K → A3 K :=
  if d.nx3 > 1 then
    loop sk ek fun k => loop sj ej fun j => loop si ei fun i =>
      let fk := d.fk k; let fj := d.fj j; let fi := d.fi i
      let x1c := C.x1s3 i; let x2c := C.x2s3 j
      let fx1m := F.x1s3 fi; let fx1p := F.x1s3 (fi+1); let fx2m := F.x2s3 fj; let fx2p := F.x2s3 (fj+1)
      let ccval := coarse (k, j, i)
      let gx1c := slope (coarse (k, j, i-1)) ccval (coarse (k, j, i+1)) (x1c - C.x1s3 (i-1)) (C.x1s3 (i+1) - x1c)
      let gx2c := slope (coarse (k, j-1, i)) ccval (coarse (k, j+1, i)) (x2c - C.x2s3 (j-1)) (C.x2s3 (j+1) - x2c)
      if flux then
        let dfx1 := fx1p - fx1m; let dfx2 := fx2p - fx2m
        let csarea := Gc.a3 (k, j, i)
        let fsa00 := G.a3 (fk, fj, fi); let fsa01 := G.a3 (fk, fj, fi+1)
        let fsa10 := G.a3 (fk, fj+1, fi); let fsa11 := G.a3 (fk, fj+1, fi+1)
        writes [((fk, fj, fi), ccval - gx1c*dfx1*(fsa01 + fsa11)/csarea - gx2c*dfx2*(fsa10 + fsa11)/csarea),
                ((fk, fj, fi+1), ccval + gx1c*dfx1*(fsa00 + fsa10)/csarea - gx2c*dfx2*(fsa10 + fsa11)/csarea),
                ((fk, fj+1, fi), ccval - gx1c*dfx1*(fsa01 + fsa11)/csarea + gx2c*dfx2*(fsa00 + fsa01)/csarea),
                ((fk, fj+1, fi+1), ccval + gx1c*dfx1*(fsa00 + fsa10)/csarea + gx2c*dfx2*(fsa00 + fsa01)/csarea)]
      else
        writes [((fk, fj, fi), ccval - gx1c*(x1c - fx1m) - gx2c*(x2c - fx2m)),
                ((fk, fj, fi+1), ccval + gx1c*(fx1p - x1c) - gx2c*(x2c - fx2m)),
                ((fk, fj+1, fi), ccval - gx1c*(x1c - fx1m) + gx2c*(fx2p - x2c)),
                ((fk, fj+1, fi+1), ccval + gx1c*(fx1p - x1c) + gx2c*(fx2p - x2c))]
  else if d.nx2 > 1 then
    loop sj ej fun j => loop si ei fun i =>
      let fk := d.ks; let fj := d.fj j; let fi := d.fi i
      let x1c := C.x1s3 i; let x2c := C.x2s3 j
      let dx1fm := x1c - F.x1s3 fi; let dx1fp := F.x1s3 (fi+1) - x1c
      let dx2fm := x2c - F.x2s3 fj; let dx2fp := F.x2s3 (fj+1) - x2c
      let ccval := coarse (0, j, i)
      let gx1c := slope (coarse (0, j, i-1)) ccval (coarse (0, j, i+1)) (x1c - C.x1s3 (i-1)) (C.x1s3 (i+1) - x1c)
      let gx2c := slope (coarse (0, j-1, i)) ccval (coarse (0, j+1, i)) (x2c - C.x2s3 (j-1)) (C.x2s3 (j+1) - x2c)
      writes [((fk+1, fj, fi), ccval - gx1c*dx1fm - gx2c*dx2fm), ((fk, fj, fi), ccval - gx1c*dx1fm - gx2c*dx2fm),
              ((fk+1, fj, fi+1), ccval + gx1c*dx1fp - gx2c*dx2fm), ((fk, fj, fi+1), ccval + gx1c*dx1fp - gx2c*dx2fm),
              ((fk+1, fj+1, fi), ccval - gx1c*dx1fm + gx2c*dx2fp), ((fk, fj+1, fi), ccval - gx1c*dx1fm + gx2c*dx2fp),
              ((fk+1, fj+1, fi+1), ccval + gx1c*dx1fp + gx2c*dx2fp), ((fk, fj+1, fi+1), ccval + gx1c*dx1fp + gx2c*dx2fp)]
  else
    loop si ei fun i =>
      let fi := d.fi i
      let gxc := slope (coarse (0, 0, i-1)) (coarse (0, 0, i)) (coarse (0, 0, i+1)) (C.x1s3 i - C.x1s3 (i-1)) (C.x1s3 (i+1) - C.x1s3 i)
      writes [((1, 0, fi), coarse (0, 0, i) - gxc*(C.x1s3 i - F.x1s3 fi)),
              ((0, 0, fi), coarse (0, 0, i) - gxc*(C.x1s3 i - F.x1s3 fi)),
              ((1, 0, fi+1), coarse (0, 0, i) + gxc*(F.x1s3 (fi+1) - C.x1s3 i)),
              ((0, 0, fi+1), coarse (0, 0, i) + gxc*(F.x1s3 (fi+1) - C.x1s3 i))]

/-- `for (jj=0; jj<2; jj++) for (ii=0; ii<2; ii++) U += f(jj, ii)`, starting from 0. -/
def sum22 (f : Int → Int → K) : K := 0 + f 0 0 + f 0 1 + f 1 0 + f 1 1

/-- `ProlongateInternalField` (mesh_refinement.cpp:1223-1386), three dimensions, one coarse cell. `len` are the edge lengths. -/
def internal3 (d : Dims) (G : Geom K) (len : EF K) (F : Crd K) (k j i : Int) (b : FF K) : FF K :=
  let fk := d.fk k; let fj := d.fj j; let fi := d.fi i
  let u := fun k j i => b.x1f (k, j, i) * G.a1 (k, j, i)
  let v := fun k j i => b.x2f (k, j, i) * G.a2 (k, j, i)
  let w := fun k j i => b.x3f (k, j, i) * G.a3 (k, j, i)
  let sg := fun t : Int => ((2*t - 1 : Int) : K)
  let Uxx := sum22 fun jj ii => sg ii * (sg jj * (v fk (fj+2*jj) (fi+ii) + v (fk+1) (fj+2*jj) (fi+ii))
                + (w (fk+2) (fj+jj) (fi+ii) - w fk (fj+jj) (fi+ii)))
  let Vyy := sum22 fun jj ii => sg jj * ((w (fk+2) (fj+jj) (fi+ii) - w fk (fj+jj) (fi+ii))
                + sg ii * (u fk (fj+jj) (fi+2*ii) + u (fk+1) (fj+jj) (fi+2*ii)))
  let Wzz := sum22 fun jj ii => sg ii * (u (fk+1) (fj+jj) (fi+2*ii) - u fk (fj+jj) (fi+2*ii))
                + sg jj * (v (fk+1) (fj+2*jj) (fi+ii) - v fk (fj+2*jj) (fi+ii))
  let Uxyz := sum22 fun jj ii => sg ii * sg jj * (u (fk+1) (fj+jj) (fi+2*ii) - u fk (fj+jj) (fi+2*ii))
  let Vxyz := sum22 fun jj ii => sg ii * sg jj * (v (fk+1) (fj+2*jj) (fi+ii) - v fk (fj+2*jj) (fi+ii))
  let Wxyz := sum22 fun jj ii => sg ii * sg jj * (w (fk+2) (fj+jj) (fi+ii) - w fk (fj+jj) (fi+ii))
  let Sdx1 := (F.dx1f fi + F.dx1f (fi+1)) ^ 2
  let Sdx2 := (len.x2e (fk+1, fj, fi+1) + len.x2e (fk+1, fj+1, fi+1)) ^ 2
  let Sdx3 := (len.x3e (fk, fj+1, fi+1) + len.x3e (fk+1, fj+1, fi+1)) ^ 2
  let Uxx := Uxx * (1/8); let Vyy := Vyy * (1/8); let Wzz := Wzz * (1/8)
  let Uxyz := Uxyz * ((1/8) / (Sdx2 + Sdx3))
  let Vxyz := Vxyz * ((1/8) / (Sdx1 + Sdx3))
  let Wxyz := Wxyz * ((1/8) / (Sdx1 + Sdx2))
  { x1f := writes
      [((fk, fj, fi+1), ((1/2)*(u fk fj fi + u fk fj (fi+2)) + Uxx - Sdx3*Vxyz - Sdx2*Wxyz) / G.a1 (fk, fj, fi+1)),
       ((fk, fj+1, fi+1), ((1/2)*(u fk (fj+1) fi + u fk (fj+1) (fi+2)) + Uxx - Sdx3*Vxyz + Sdx2*Wxyz) / G.a1 (fk, fj+1, fi+1)),
       ((fk+1, fj, fi+1), ((1/2)*(u (fk+1) fj fi + u (fk+1) fj (fi+2)) + Uxx + Sdx3*Vxyz - Sdx2*Wxyz) / G.a1 (fk+1, fj, fi+1)),
       ((fk+1, fj+1, fi+1), ((1/2)*(u (fk+1) (fj+1) fi + u (fk+1) (fj+1) (fi+2)) + Uxx + Sdx3*Vxyz + Sdx2*Wxyz)
          / G.a1 (fk+1, fj+1, fi+1))] b.x1f
    x2f := writes
      [((fk, fj+1, fi), ((1/2)*(v fk fj fi + v fk (fj+2) fi) + Vyy - Sdx3*Uxyz - Sdx1*Wxyz) / G.a2 (fk, fj+1, fi)),
       ((fk, fj+1, fi+1), ((1/2)*(v fk fj (fi+1) + v fk (fj+2) (fi+1)) + Vyy - Sdx3*Uxyz + Sdx1*Wxyz) / G.a2 (fk, fj+1, fi+1)),
       ((fk+1, fj+1, fi), ((1/2)*(v (fk+1) fj fi + v (fk+1) (fj+2) fi) + Vyy + Sdx3*Uxyz - Sdx1*Wxyz) / G.a2 (fk+1, fj+1, fi)),
       ((fk+1, fj+1, fi+1), ((1/2)*(v (fk+1) fj (fi+1) + v (fk+1) (fj+2) (fi+1)) + Vyy + Sdx3*Uxyz + Sdx1*Wxyz)
          / G.a2 (fk+1, fj+1, fi+1))] b.x2f
    x3f := writes
      [((fk+1, fj, fi), ((1/2)*(w (fk+2) fj fi + w fk fj fi) + Wzz - Sdx2*Uxyz - Sdx1*Vxyz) / G.a3 (fk+1, fj, fi)),
       ((fk+1, fj, fi+1), ((1/2)*(w (fk+2) fj (fi+1) + w fk fj (fi+1)) + Wzz - Sdx2*Uxyz + Sdx1*Vxyz) / G.a3 (fk+1, fj, fi+1)),
       ((fk+1, fj+1, fi), ((1/2)*(w (fk+2) (fj+1) fi + w fk (fj+1) fi) + Wzz + Sdx2*Uxyz - Sdx1*Vxyz) / G.a3 (fk+1, fj+1, fi)),
       ((fk+1, fj+1, fi+1), ((1/2)*(w (fk+2) (fj+1) (fi+1) + w fk (fj+1) (fi+1)) + Wzz + Sdx2*Uxyz + Sdx1*Vxyz)
          / G.a3 (fk+1, fj+1, fi+1))] b.x3f }

/-- Two dimensions, one coarse cell (mesh_refinement.cpp:1337-1376). -/
def internal2 (d : Dims) (G : Geom K) (j i : Int) (b : FF K) : FF K :=
  let fk := d.ks; let fj := d.fj j; let fi := d.fi i
  let u := fun k j i => b.x1f (k, j, i) * G.a1 (k, j, i)
  let v := fun k j i => b.x2f (k, j, i) * G.a2 (k, j, i)
  let tmp1 := (1/4) * (v fk (fj+2) (fi+1) - v fk fj (fi+1) - v fk (fj+2) fi + v fk fj fi)
  let tmp2 := (1/4) * (u fk fj fi - u fk fj (fi+2) - u fk (fj+1) fi + u fk (fj+1) (fi+2))
  { b with
    x1f := writes
      [((fk, fj, fi+1), ((1/2)*(u fk fj fi + u fk fj (fi+2)) + tmp1) / G.a1 (fk, fj, fi+1)),
       ((fk, fj+1, fi+1), ((1/2)*(u fk (fj+1) fi + u fk (fj+1) (fi+2)) + tmp1) / G.a1 (fk, fj+1, fi+1))] b.x1f
    x2f := writes
      [((fk, fj+1, fi), ((1/2)*(v fk fj fi + v fk (fj+2) fi) + tmp2) / G.a2 (fk, fj+1, fi)),
       ((fk, fj+1, fi+1), ((1/2)*(v fk fj (fi+1) + v fk (fj+2) (fi+1)) + tmp2) / G.a2 (fk, fj+1, fi+1))] b.x2f }

/-- One dimension (mesh_refinement.cpp:1377-1384). -/
def internal1 (d : Dims) (G : Geom K) (i : Int) (b : FF K) : FF K :=
  let fi := d.fi i
  let ph := G.a1 (0, 0, fi) * b.x1f (0, 0, fi)
  { b with x1f := writes [((0, 0, fi+1), ph / G.a1 (0, 0, fi+1))] b.x1f }

/-- `ProlongateInternalField`. -/
def prolongInternal (d : Dims) (G : Geom K) (len : EF K) (F : Crd K) (si ei sj ej sk ek : Int) : FF K → FF K :=
  if d.nx3 > 1 then loop sk ek fun k => loop sj ej fun j => loop si ei fun i => internal3 d G len F k j i
  else if d.nx2 > 1 then loop sj ej fun j => loop si ei fun i => internal2 d G j i
  else loop si ei fun i => internal1 d G i

/-- Outer faces that keep their values because a block of the same or a finer level provides them. -/
structure Skip where
  i1 : Bool
  o1 : Bool
  i2 : Bool
  o2 : Bool
  i3 : Bool
  o3 : Bool

/-- Prolongation of a face-centred field: `Mesh::ProlongateMeshBlock` (amr_loadbalance.cpp:1190-1215, where the skipped faces are given
by `flag_ffc_recv_`) and the end of `BoundaryValues::ProlongateGhostCells` (bvals_refine.cpp:583-625, where they are given by
the levels of the neighbours). First the faces shared with the coarse level, then the faces inside the coarse cells. -/
def prolongField (d : Dims) (flux : Bool) (tiny : K) (G Gc : Geom K) (len : EF K) (C F : Crd K) (s : Skip) (coarse : FF K)
    (si ei sj ej sk ek : Int) (fine : FF K) : FF K :=
  let f2 : Int := if d.nx2 > 1 then 1 else 0
  let f3 : Int := if d.nx3 > 1 then 1 else 0
  let il := if s.i1 then si + 1 else si
  let iu := if s.o1 then ei else ei + 1
  let jl := if s.i2 then sj + 1 else sj
  let ju := if s.o2 then ej + f2 - 1 else ej + f2
  let kl := if s.i3 then sk + 1 else sk
  let ku := if s.o3 then ek + f3 - 1 else ek + f3
  let b := { fine with x1f := prolongX1 d flux G Gc C F coarse.x1f il iu sj ej sk ek fine.x1f }
  let b := { b with x2f := prolongX2 d flux tiny G Gc C F coarse.x2f si ei jl ju sk ek b.x2f }
  let b := { b with x3f := prolongX3 d flux G Gc C F coarse.x3f si ei sj ej kl ku b.x3f }
  prolongInternal d G len F si ei sj ej sk ek b

end Verif.Grid
