import Verif.Model.GrMetric
import Verif.Spec.GrFlux

/-!
# General relativistic interfaces: frames, solver, global fluxes

`PrimToLocal*`, `FluxToGlobal*` of coordinates/schwarzschild.cpp, kerr-schild.cpp and gr_user.cpp, and the part of
hydro/rsolvers/mhd/hlle_mhd_rel.cpp (`HLLETransforming`) between them, for one interface, with magnetic fields, in exact
real arithmetic. `d : Fin 3` is the direction less one. Rows and columns of a frame are the axes `t`, `x`, `y`, `z` of
the local frame, numbered 0 to 3.

Each of the three files writes the six functions out for each direction, leaving out the terms whose coefficient is
zero there. The model writes the sums in full, once, and gives the coefficients of each function as a matrix.
-/
namespace Verif.Gr

/-- Primitive variables of an interface, as kept in `prim_l`, `prim_r`: the slots `IVX`, `IVY`, `IVZ` are `v 0`, `v 1`,
`v 2`, and `IBY`, `IBZ` hold the transverse fields in cyclic order. -/
structure FacePrim where
  rho : ℝ
  p : ℝ
  v : Fin 3 → ℝ
  bby : ℝ
  bbz : ℝ

/-- Conserved variables or fluxes with the slots `IDN`, `IEN`, `IM1`, `IM2`, `IM3`, `IBY`, `IBZ`. -/
structure Wave where
  dn : ℝ
  en : ℝ
  mom : Fin 3 → ℝ
  bby : ℝ
  bbz : ℝ

/-- A spatial vector kept in the slots of the three coordinates. -/
def slotVec (v : Fin 3 → ℝ) : V4 := ![0, v 0, v 1, v 2]

/-- Values for the axes `x`, `y`, `z`, put into the slots `ivx`, `ivy`, `ivz` (hlle_mhd_rel.cpp:159-160; the "puts"
lines of `PrimToLocal*`). -/
def cyc (d : Fin 3) (x y z : ℝ) : Fin 3 → ℝ := fun s => if s = d then x else if s = d + 1 then y else z

/-- One side of `PrimToLocal1`, `PrimToLocal2`, `PrimToLocal3` (gr_user.cpp:790-935, 961-1106, 1132-1277;
kerr-schild.cpp:1077-1196, 1220-1339, 1362-1481; schwarzschild.cpp:776-886, 910-1020, 1044-1154): the primitives in
the local frame, and the value of `bbx_l` or `bbx_r`. -/
noncomputable def primToLocal (d : Fin 3) (M g gi : M4) (bbn : ℝ) (w : FacePrim) : FacePrim × ℝ :=
  let uu := slotVec w.v
  let bb := slotVec (cyc d bbn w.bby w.bbz)
  let ux := M 1 1*uu 1 + M 1 2*uu 2 + M 1 3*uu 3
  let uy := M 2 1*uu 1 + M 2 2*uu 2 + M 2 3*uu 3
  let uz := M 3 1*uu 1 + M 3 2*uu 2 + M 3 3*uu 3
  let alpha := Real.sqrt (-1/gi 0 0)
  let tmp := g 1 1*uu 1*uu 1 + 2*g 1 2*uu 1*uu 2 + 2*g 1 3*uu 1*uu 3
    + g 2 2*uu 2*uu 2 + 2*g 2 3*uu 2*uu 3 + g 3 3*uu 3*uu 3
  let gamma := Real.sqrt (1 + tmp)
  let u0 := gamma / alpha
  let u1 := uu 1 - alpha * gamma * gi 0 1
  let u2 := uu 2 - alpha * gamma * gi 0 2
  let u3 := uu 3 - alpha * gamma * gi 0 3
  let b0 := g 0 1*bb 1*u0 + g 1 1*bb 1*u1 + g 1 2*bb 1*u2 + g 1 3*bb 1*u3
    + g 0 2*bb 2*u0 + g 1 2*bb 2*u1 + g 2 2*bb 2*u2 + g 2 3*bb 2*u3
    + g 0 3*bb 3*u0 + g 1 3*bb 3*u1 + g 2 3*bb 3*u2 + g 3 3*bb 3*u3
  let b1 := (bb 1 + b0 * u1) / u0
  let b2 := (bb 2 + b0 * u2) / u0
  let b3 := (bb 3 + b0 * u3) / u0
  let ut := gamma
  let bt := M 0 0*b0
  let bx := M 1 0*b0 + M 1 1*b1 + M 1 2*b2 + M 1 3*b3
  let by_ := M 2 0*b0 + M 2 1*b1 + M 2 2*b2 + M 2 3*b3
  let bz := M 3 0*b0 + M 3 1*b1 + M 3 2*b2 + M 3 3*b3
  (⟨w.rho, w.p, cyc d ux uy uz, ut * by_ - uy * bt, ut * bz - uz * bt⟩, ut * bx - ux * bt)

/-- Conserved variables and fluxes of one side (hlle_mhd_rel.cpp:169-180, 198-206, 231-252 for the left, 183-194,
209-214, 254-274 for the right). `IEN` holds `T^{tt}` and its flux `T^{tx}`. -/
noncomputable def solverSide (d : Fin 3) (gam bb1 : ℝ) (w : FacePrim) : Wave × Wave :=
  let ux := w.v d
  let uy := w.v (d + 1)
  let uz := w.v (d + 2)
  let ut := Real.sqrt (1 + ux^2 + uy^2 + uz^2)
  let bt := bb1*ux + w.bby*uy + w.bbz*uz
  let bx := (bb1 + bt * ux) / ut
  let by_ := (w.bby + bt * uy) / ut
  let bz := (w.bbz + bt * uz) / ut
  let b_sq := -bt^2 + bx^2 + by_^2 + bz^2
  let wtot := w.rho + gam/(gam-1) * w.p + b_sq
  let ptot := w.p + 1/2 * b_sq
  (⟨w.rho * ut, wtot * ut * ut - bt * bt - ptot,
    cyc d (wtot * ux * ut - bx * bt) (wtot * uy * ut - by_ * bt) (wtot * uz * ut - bz * bt),
    by_ * ut - bt * uy, bz * ut - bt * uz⟩,
   ⟨w.rho * ux, wtot * ut * ux - bt * bx,
    cyc d (wtot * ux * ux - bx * bx + ptot) (wtot * uy * ux - by_ * bx) (wtot * uz * ux - bz * bx),
    by_ * ux - bx * uy, bz * ux - bx * uz⟩)

/-- A linear combination slot by slot. -/
def Wave.lin (a b c e : ℝ) (p q r s : Wave) : Wave :=
  ⟨a*p.dn + b*q.dn + c*r.dn + e*s.dn, a*p.en + b*q.en + c*r.en + e*s.en,
    fun i => a*p.mom i + b*q.mom i + c*r.mom i + e*s.mom i,
    a*p.bby + b*q.bby + c*r.bby + e*s.bby, a*p.bbz + b*q.bbz + c*r.bbz + e*s.bbz⟩

/-- `HLLETransforming` from the primitives in the local frame to `cons`, `flux` (hlle_mhd_rel.cpp:276-326). The speeds
of the outermost waves (lines 216-229) and of the interface are parameters. -/
noncomputable def hlleLocal (d : Fin 3) (gam bb1 lamL lamR vint : ℝ) (l r : FacePrim) : Wave × Wave :=
  let L := solverSide d gam bb1 l
  let R := solverSide d gam bb1 r
  let inv := 1 / (lamR - lamL)
  let consHll := Wave.lin (lamR*inv) (-lamL*inv) inv (-inv) R.1 L.1 L.2 R.2
  let fluxHll := Wave.lin (lamR*inv) (-lamL*inv) (lamL*lamR*inv) (-lamL*lamR*inv) L.2 R.2 R.1 L.1
  if lamL ≥ vint then L else if lamR ≤ vint then R else (consHll, fluxHll)

/-- `v_interface` (hlle_mhd_rel.cpp:293-297, with `i01`, `i11` of lines 113-129). -/
noncomputable def vInterface (d : Fin 3) (gi : M4) : ℝ :=
  gi 0 d.succ / Real.sqrt (gi 0 d.succ^2 - gi 0 0 * gi d.succ d.succ)

/-- `FluxToGlobal1`, `FluxToGlobal2`, `FluxToGlobal3` (gr_user.cpp:1300-1390, 1412-1502, 1524-1614; kerr-schild.cpp:
1501-1583, 1603-1681, 1703-1781; schwarzschild.cpp:1175-1238, 1257-1320, 1339-1402). `E` holds the coefficients (row:
coordinate, column: axis), `rd` the slots of `cons` from which `ttx`, `tty`, `ttz` are read; fluxes are read from the
slots of `cyc`. On entry `ey = -flux[IBY]`, `ez = flux[IBZ]` (hlle_mhd_rel.cpp:324-325). -/
def fluxToGlobal (d : Fin 3) (E g : M4) (rd : Fin 3 → Fin 3) (cons : Wave) (bbx : ℝ) (flux : Wave) : GlobalFlux :=
  let n := d.succ
  let ttt := cons.en
  let ttx := cons.mom (rd 0)
  let tty := cons.mom (rd 1)
  let ttz := cons.mom (rd 2)
  let txt := flux.en
  let txx := flux.mom d
  let txy := flux.mom (d + 1)
  let txz := flux.mom (d + 2)
  let t : V4 := fun ν => E n 0 * (E ν 0*ttt + E ν 1*ttx + E ν 2*tty + E ν 3*ttz)
    + E n 1 * (E ν 0*txt + E ν 1*txx + E ν 2*txy + E ν 3*txz)
  let ftt := 0
  let fxt := bbx
  let fyt := cons.bby
  let fzt := cons.bbz
  let ftx := -bbx
  let fxx := 0
  let fyx := flux.bby
  let fzx := flux.bbz
  let f : V4 := fun ν => E n 0 * (E ν 0*ftt + E ν 1*fxt + E ν 2*fyt + E ν 3*fzt)
    + E n 1 * (E ν 0*ftx + E ν 1*fxx + E ν 2*fyx + E ν 3*fzx)
  ⟨E n 0*cons.dn + E n 1*flux.dn,
    g 0 0*t 0 + g 0 1*t 1 + g 0 2*t 2 + g 0 3*t 3,
    ![g 0 1*t 0 + g 1 1*t 1 + g 1 2*t 2 + g 1 3*t 3, g 0 2*t 0 + g 1 2*t 1 + g 2 2*t 2 + g 2 3*t 3,
      g 0 3*t 0 + g 1 3*t 1 + g 2 3*t 2 + g 3 3*t 3],
    -f (d + 1).succ, f (d + 2).succ⟩

/-- The whole chain for one interface: `PrimToLocal`, the solver, `FluxToGlobal` (hlle_mhd_rel.cpp:134-147, 330-340).
`bbx = 0.5 * (bbx_l + bbx_r)`. -/
noncomputable def interfaceFlux (d : Fin 3) (M E g gi : M4) (rd : Fin 3 → Fin 3) (gam lamL lamR bbn : ℝ)
    (l r : FacePrim) : GlobalFlux :=
  let L := primToLocal d M g gi bbn l
  let R := primToLocal d M g gi bbn r
  let bbx := 1/2 * (L.2 + R.2)
  let s := hlleLocal d gam bbx lamL lamR (vInterface d gi) L.1 R.1
  fluxToGlobal d E g rd s.1 bbx s.2

/-! ## Coefficients -/

/-- Schwarzschild, `PrimToLocal1`: schwarzschild.cpp:791-796, `PrimToLocal2`: lines 925-930, `PrimToLocal3`: lines
1059-1064. `alpha` is `trans_face*_i1_` (lines 200-205, 218-223), `s` is `abs_sin_theta`. -/
noncomputable def schM (d : Fin 3) (alpha r s : ℝ) : M4 :=
  if d = 0 then ![![alpha, 0, 0, 0], ![0, 1/alpha, 0, 0], ![0, 0, r, 0], ![0, 0, 0, r*s]]
  else if d = 1 then ![![alpha, 0, 0, 0], ![0, 0, 1/r, 0], ![0, 0, 0, r*s], ![0, 1/alpha, 0, 0]]
  else ![![alpha, 0, 0, 0], ![0, 0, 0, r*s], ![0, 1/alpha, 0, 0], ![0, 0, r, 0]]

/-- Schwarzschild, `FluxToGlobal1`: schwarzschild.cpp:1194-1197, `FluxToGlobal2`: lines 1276-1279, `FluxToGlobal3`:
lines 1358-1361. -/
noncomputable def schE (d : Fin 3) (alpha r s : ℝ) : M4 :=
  if d = 0 then ![![1/alpha, 0, 0, 0], ![0, alpha, 0, 0], ![0, 0, 1/r, 0], ![0, 0, 0, 1/(r*s)]]
  else if d = 1 then ![![1/alpha, 0, 0, 0], ![0, 0, 0, alpha], ![0, 1/r, 0, 0], ![0, 0, 1/(r*s), 0]]
  else ![![1/alpha, 0, 0, 0], ![0, 0, alpha, 0], ![0, 0, 0, 1/r], ![0, 1/(r*s), 0, 0]]

/-- Kerr-Schild, `trans_face*_ji*_` (kerr-schild.cpp:449-468, 492-498, 508-514) as used in `PrimToLocal1` (lines
1089-1095), `PrimToLocal2` (1232-1237), `PrimToLocal3` (1374-1379). -/
noncomputable def ksM (d : Fin 3) (m a r sin cos : ℝ) : M4 :=
  let a2 := a^2
  let sin2 := sin^2
  let cos2 := cos^2
  let sigma := r^2 + a2 * cos2
  let delta := r^2 - 2*m*r + a2
  if d = 0 then
    let mt_0 := 1 / Real.sqrt (1 + 2*m*r/sigma)
    let mx_1 := Real.sqrt ((sigma + 2*m*r) / (r^2 + a2 + 2*m*a2*r/sigma * sin2))
    let my_2 := Real.sqrt sigma
    let mz_3 := |sin| * Real.sqrt (r^2 + a2 + 2*m*a2*r/sigma * sin2)
    let mx_0 := 2*m*r * Real.sqrt (sigma/((sigma + 2*m*r) * (r^4 + a2*r^2 + 2*m*a2*r + delta*a2*cos2)))
    let mz_0 := -2*m*a*r * |sin| * Real.sqrt (r^2 + a2 + 2*m*a2*r/sigma * sin2)
      / (r^4 + a2*r^2 + 2*m*a2*r + delta*a2*cos2)
    let mz_1 := -a * (sigma + 2*m*r) * |sin| * Real.sqrt (r^2 + a2 + 2*m*a2*r/sigma * sin2)
      / (r^4 + a2*r^2 + 2*m*a2*r + delta*a2*cos2)
    ![![mt_0, 0, 0, 0], ![mx_0, mx_1, 0, 0], ![0, 0, my_2, 0], ![mz_0, mz_1, 0, mz_3]]
  else
    let mt_0 := 1 / Real.sqrt (1 + 2*m*r/sigma)
    let t2 := Real.sqrt (1 + 2*m*r/sigma)
    let t3 := Real.sqrt sigma
    let t4 := Real.sqrt sigma * |sin|
    let t5 := 2*m*r / (sigma * Real.sqrt (1 + 2*m*r/sigma))
    let t6 := -a * sin2 * Real.sqrt (1 + 2*m*r/sigma)
    if d = 1 then ![![mt_0, 0, 0, 0], ![0, 0, t3, 0], ![0, 0, 0, t4], ![t5, t2, 0, t6]]
    else ![![mt_0, 0, 0, 0], ![0, 0, 0, t4], ![t5, t2, 0, t6], ![0, 0, t3, 0]]

/-- Kerr-Schild, the coefficients `m0_tm`, … of `FluxToGlobal1` (kerr-schild.cpp:1518-1523), `FluxToGlobal2`
(1620-1625), `FluxToGlobal3` (1720-1725), computed from those of `ksM`. -/
noncomputable def ksE (d : Fin 3) (M : M4) : M4 :=
  if d = 0 then
    ![![1/M 0 0, 0, 0, 0], ![-M 1 0/(M 0 0*M 1 1), 1/M 1 1, 0, 0], ![0, 0, 1/M 2 2, 0],
      ![0, -M 3 1/(M 1 1*M 3 3), 0, 1/M 3 3]]
  else if d = 1 then
    ![![1/M 0 0, 0, 0, 0], ![-M 3 0/(M 0 0*M 3 1), 0, -M 3 3/(M 3 1*M 2 3), 1/M 3 1], ![0, 1/M 1 2, 0, 0],
      ![0, 0, 1/M 2 3, 0]]
  else
    ![![1/M 0 0, 0, 0, 0], ![-M 2 0/(M 0 0*M 2 1), -M 2 3/(M 2 1*M 1 3), 1/M 2 1, 0], ![0, 0, 0, 1/M 3 2],
      ![0, 1/M 1 3, 0, 0]]

/-- Position of the coordinates in the order of the axes: `i0`, `i1`, `i2`, `i3` (gr_user.cpp:1757-1761). -/
def axis (d : Fin 3) : Fin 4 → Fin 4 := ![0, d.succ, (d + 1).succ, (d + 2).succ]

/-- The inverse: the axis of a coordinate. -/
def axisOf (d : Fin 3) : Fin 4 → Fin 4 := ![0, (0 - d).succ, (1 - d).succ, (2 - d).succ]

/-- `CalculateTransformation`, local to global (gr_user.cpp:1763-1796), from the metric with permuted indices; rows in
the order of the axes. -/
noncomputable def userT0 (g gi : M4) : M4 :=
  let aa := -1 / Real.sqrt (-gi 0 0)
  let bb := 1 / Real.sqrt (gi 0 0 * (gi 0 0 * gi 1 1 - gi 0 1^2))
  let cc := 1 / Real.sqrt (g 3 3)
  let dd := 1 / Real.sqrt (g 3 3 * (g 2 2 * g 3 3 - g 2 3^2))
  ![![aa * gi 0 0, 0, 0, 0],
    ![aa * gi 0 1, bb * (gi 0 1 * gi 0 1 - gi 0 0 * gi 1 1), 0, 0],
    ![aa * gi 0 2, bb * (gi 0 1 * gi 0 2 - gi 0 0 * gi 1 2), dd * g 3 3, 0],
    ![aa * gi 0 3, bb * (gi 0 1 * gi 0 3 - gi 0 0 * gi 1 3), -dd * g 2 3, cc]]

/-- `CalculateTransformation`, global to local (gr_user.cpp:1763-1785, 1798-1808); columns in the order of the axes. -/
noncomputable def userT1 (g gi : M4) : M4 :=
  let aa := -1 / Real.sqrt (-gi 0 0)
  let bb := 1 / Real.sqrt (gi 0 0 * (gi 0 0 * gi 1 1 - gi 0 1^2))
  let cc := 1 / Real.sqrt (g 3 3)
  let dd := 1 / Real.sqrt (g 3 3 * (g 2 2 * g 3 3 - g 2 3^2))
  let ee := gi 0 1 * gi 1 2 - gi 1 1 * gi 0 2
  let ff := gi 0 1 * gi 0 2 - gi 0 0 * gi 1 2
  let gg := gi 0 1 * gi 1 3 - gi 1 1 * gi 0 3
  let hh := gi 0 1 * gi 0 3 - gi 0 0 * gi 1 3
  let ii := bb^2/cc * gi 0 0 * (gg + ee * g 2 3/g 3 3)
  let jj := bb^2/cc * gi 0 0 * (hh + ff * g 2 3/g 3 3)
  ![![-aa, 0, 0, 0],
    ![bb * gi 0 1, -bb * gi 0 0, 0, 0],
    ![bb^2*ee/dd * gi 0 0/g 3 3, bb^2*ff/dd * gi 0 0/g 3 3, 1 / (dd * g 3 3), 0],
    ![ii, jj, 1/cc * g 2 3/g 3 3, 1/cc]]

/-- The metric in the order of the axes. -/
def permute (d : Fin 3) (g : M4) : M4 := fun μ ν => g (axis d μ) (axis d ν)

/-- Frame of gr_user.cpp in `PrimToLocal*` (lines 798-810, 969-981, 1140-1152). -/
noncomputable def userM (d : Fin 3) (g gi : M4) : M4 := fun i μ => userT1 (permute d g) (permute d gi) i (axisOf d μ)

/-- Frame of gr_user.cpp in `FluxToGlobal*` (lines 1308-1317, 1420-1429, 1532-1541). -/
noncomputable def userE (d : Fin 3) (g gi : M4) : M4 := fun μ i => userT0 (permute d g) (permute d gi) (axisOf d μ) i

/-- Slots from which gr_user.cpp reads the momenta of `cons`: always `IM1`, `IM2`, `IM3` (lines 1322-1324, 1434-1436,
1546-1548). -/
def userRead : Fin 3 → Fin 3 := fun k => k

/-- The slots in which the solver has put them. -/
def cycRead (d : Fin 3) : Fin 3 → Fin 3 := fun k => d + k

end Verif.Gr
