import Verif.Model.RiemannMhd

/-!
# Specification of the Riemann solvers with a magnetic field

The flux of ideal magnetohydrodynamics on the arrays of the code for each Cartesian direction, and in the frame of
the face; the electric field `-v × B`; admissible states; jump conditions.
-/
namespace Verif.Mhd
open Verif.Riemann (Gas)

instance : Add F := ⟨fun a b => ⟨a.d + b.d, a.mx + b.mx, a.my + b.my, a.mz + b.mz, a.e + b.e, a.bY + b.bY, a.bZ + b.bZ⟩⟩
instance : Sub F := ⟨fun a b => ⟨a.d - b.d, a.mx - b.mx, a.my - b.my, a.mz - b.mz, a.e - b.e, a.bY - b.bY, a.bZ - b.bZ⟩⟩
instance : SMul ℝ F := ⟨fun c a => ⟨c * a.d, c * a.mx, c * a.my, c * a.mz, c * a.e, c * a.bY, c * a.bZ⟩⟩

/-- Positive density; positive pressure and `1 < gamma`, or a positive isothermal sound speed. The field is arbitrary. -/
def Ok : Gas → W → Prop
  | .adiabatic gamma, w => 0 < w.d ∧ 0 < w.p ∧ 1 < gamma
  | .isothermal cs, w => 0 < w.d ∧ 0 < cs

/-- The gas pressure. -/
def gasP : Gas → W → ℝ
  | .adiabatic _, w => w.p
  | .isothermal cs, w => cs ^ 2 * w.d

/-- The total energy (zero without an energy equation). -/
noncomputable def totalE (g : Gas) (bx : ℝ) (w : W) : ℝ :=
  match g with
  | .adiabatic gamma =>
    w.p / (gamma - 1) + w.d * (w.vx ^ 2 + w.vy ^ 2 + w.vz ^ 2) / 2 + (bx ^ 2 + w.bY ^ 2 + w.bZ ^ 2) / 2
  | .isothermal _ => 0

/-- Gas and magnetic pressure. -/
noncomputable def totalP (g : Gas) (bx : ℝ) (w : W) : ℝ := gasP g w + (bx ^ 2 + w.bY ^ 2 + w.bZ ^ 2) / 2

/-- The conserved variables and the transverse field. -/
noncomputable def cons (g : Gas) (bx : ℝ) (w : W) : F :=
  ⟨w.d, w.d * w.vx, w.d * w.vy, w.d * w.vz, totalE g bx w, w.bY, w.bZ⟩

/-- The flux along the first axis. -/
noncomputable def flux (g : Gas) (bx : ℝ) (w : W) : F :=
  ⟨w.d * w.vx, w.d * w.vx ^ 2 + totalP g bx w - bx ^ 2, w.d * w.vx * w.vy - bx * w.bY, w.d * w.vx * w.vz - bx * w.bZ,
    (match g with
      | .adiabatic _ => (totalE g bx w + totalP g bx w) * w.vx - bx * (bx * w.vx + w.bY * w.vy + w.bZ * w.vz)
      | .isothermal _ => 0),
    w.bY * w.vx - bx * w.vy, w.bZ * w.vx - bx * w.vz⟩

/-- Component `n` of the flux along axis `m` of a cell with density `w 0`, velocity `w 1, w 2, w 3`, pressure `w 4` and
field `b 1, b 2, b 3`. -/
noncomputable def axisFlux (g : Gas) (m : Nat) (w b : Nat → ℝ) (n : Nat) : ℝ :=
  let bsq := b 1 ^ 2 + b 2 ^ 2 + b 3 ^ 2
  let P := (match g with
    | .adiabatic _ => w 4
    | .isothermal cs => cs ^ 2 * w 0) + bsq / 2
  let E := match g with
    | .adiabatic gamma => w 4 / (gamma - 1) + w 0 * (w 1 ^ 2 + w 2 ^ 2 + w 3 ^ 2) / 2 + bsq / 2
    | .isothermal _ => 0
  if n = 0 then w 0 * w m
  else if n ≤ 3 then w 0 * w n * w m - b n * b m + (if n = m then P else 0)
  else (E + P) * w m - b m * (w 1 * b 1 + w 2 * b 2 + w 3 * b 3)

/-- The electric field of ideal magnetohydrodynamics, `-v × B`. -/
def electric (w b : Nat → ℝ) : Nat → ℝ
  | 1 => -(w 2 * b 3 - w 3 * b 2)
  | 2 => -(w 3 * b 1 - w 1 * b 3)
  | 3 => -(w 1 * b 2 - w 2 * b 1)
  | _ => 0

/-- The number of hydrodynamic variables. -/
def nhydro : Gas → Nat
  | .adiabatic _ => 5
  | .isothermal _ => 4

/-- A solver is consistent: equal states on both sides give the flux and the two transverse components of the electric
field of that state, in each of the three directions, and nothing else is written. -/
def Consistent (g : Gas) (solver : ℝ → W → W → F) : Prop :=
  ∀ (w b oldF oldE : Nat → ℝ) (m : Nat), m = 1 ∨ m = 2 ∨ m = 3 →
    let s := load g m (stateArr g m w b)
    Ok g s →
    (∀ n, storeFlux g m (solver (b m) s s) oldF n = if n < nhydro g then axisFlux g m w b n else oldF n) ∧
    (∀ c, storeE m (solver (b m) s s) oldE c = if (c = 1 ∨ c = 2 ∨ c = 3) ∧ c ≠ m then electric w b c else oldE c)

/-- Reflection at the face: the normal velocity is reversed, and so is the normal field (that of the equations is
reversed in sign as a whole, which changes nothing). -/
def W.mirror (w : W) : W := { w with vx := -w.vx }

/-- The flux seen after reflection: everything but the normal momentum crosses in the other direction. -/
def F.mirror (f : F) : F := ⟨-f.d, f.mx, -f.my, -f.mz, -f.e, -f.bY, -f.bZ⟩

/-- A solver commutes with reflection for these states. -/
def MirrorAt (solver : ℝ → W → W → F) (bx : ℝ) (wl wr : W) : Prop :=
  solver (-bx) wr.mirror wl.mirror = (solver bx wl wr).mirror

/-- At a wall that no field crosses, with the cell reflected on the other side, nothing but pressure acts. -/
def WallAt (solver : ℝ → W → W → F) (w : W) : Prop :=
  ∃ M, solver 0 w.mirror w = ⟨0, M, 0, 0, 0, 0, 0⟩

/-- The flux of a state given by its conserved variables, its normal velocity `v` and its total pressure `P`: the
equations of ideal magnetohydrodynamics without an equation of state. -/
noncomputable def fluxOf (bx v P : ℝ) (u : F) : F :=
  ⟨u.d * v, u.mx * v + P - bx ^ 2, u.my * v - bx * u.bY, u.mz * v - bx * u.bZ,
    (u.e + P) * v - bx * (bx * v + (u.my / u.d) * u.bY + (u.mz / u.d) * u.bZ),
    u.bY * v - bx * (u.my / u.d), u.bZ * v - bx * (u.mz / u.d)⟩

/-- Four intermediate states between `wl` and `wr` with one normal velocity `sm` and one total pressure `P`, separated
by five waves at which the jump conditions hold: the fast waves `sl`, `sr`, the Alfven waves `s1`, `s3` and the contact
`sm`. Velocity and field do not change across the contact. -/
structure Fan (gamma bx : ℝ) (wl wr : W) (sl s1 sm s3 sr P : ℝ) (ul uld urd ur : F) : Prop where
  order : sl < sm ∧ sm < sr ∧ s1 = sm - |bx| / Real.sqrt ul.d ∧ s3 = sm + |bx| / Real.sqrt ur.d
  dens : 0 < ul.d ∧ 0 < uld.d ∧ 0 < urd.d ∧ 0 < ur.d
  normal : ul.mx = ul.d * sm ∧ uld.mx = uld.d * sm ∧ urd.mx = urd.d * sm ∧ ur.mx = ur.d * sm
  fastL : fluxOf bx sm P ul - flux (.adiabatic gamma) bx wl = sl • (ul - cons (.adiabatic gamma) bx wl)
  alfvenL : fluxOf bx sm P uld - fluxOf bx sm P ul = s1 • (uld - ul)
  contact : fluxOf bx sm P urd - fluxOf bx sm P uld = sm • (urd - uld)
  alfvenR : fluxOf bx sm P urd - fluxOf bx sm P ur = s3 • (urd - ur)
  fastR : fluxOf bx sm P ur - flux (.adiabatic gamma) bx wr = sr • (ur - cons (.adiabatic gamma) bx wr)
  same : uld.my / uld.d = urd.my / urd.d ∧ uld.mz / uld.d = urd.mz / urd.d ∧ uld.bY = urd.bY ∧ uld.bZ = urd.bZ

/-- A contact discontinuity: only the density differs. -/
def ContactPair (wl wr : W) : Prop :=
  wl.vx = wr.vx ∧ wl.vy = wr.vy ∧ wl.vz = wr.vz ∧ wl.p = wr.p ∧ wl.bY = wr.bY ∧ wl.bZ = wr.bZ

/-- A tangential discontinuity: no normal field, equal normal velocity and total pressure. -/
def TangentialPair (gamma bx : ℝ) (wl wr : W) : Prop :=
  bx = 0 ∧ wl.vx = wr.vx ∧ totalP (.adiabatic gamma) bx wl = totalP (.adiabatic gamma) bx wr

/-- A rotational discontinuity (Alfven wave of any amplitude) that moves to the right (`ε = 1`) or to the left
(`ε = -1`): the transverse field turns, the transverse velocity changes with it. -/
def AlfvenPair (ε bx : ℝ) (wl wr : W) : Prop :=
  bx ≠ 0 ∧ wl.d = wr.d ∧ wl.vx = wr.vx ∧ wl.p = wr.p ∧ wl.bY ^ 2 + wl.bZ ^ 2 = wr.bY ^ 2 + wr.bZ ^ 2 ∧
  |bx| * Real.sqrt wl.d * (wr.vy - wl.vy) = -ε * bx * (wr.bY - wl.bY) ∧
  |bx| * Real.sqrt wl.d * (wr.vz - wl.vz) = -ε * bx * (wr.bZ - wl.bZ)

/-- A solver keeps contact, tangential and rotational discontinuities: the flux is that of the side from which the
discontinuity moves away. -/
structure KeepsWaves (gamma : ℝ) (solver : ℝ → W → W → F) : Prop where
  contact : ∀ bx wl wr, Ok (.adiabatic gamma) wl → Ok (.adiabatic gamma) wr → ContactPair wl wr →
    solver bx wl wr = if 0 ≤ wl.vx then flux (.adiabatic gamma) bx wl else flux (.adiabatic gamma) bx wr
  tangential : ∀ bx wl wr, Ok (.adiabatic gamma) wl → Ok (.adiabatic gamma) wr → TangentialPair gamma bx wl wr →
    solver bx wl wr = if 0 ≤ wl.vx then flux (.adiabatic gamma) bx wl else flux (.adiabatic gamma) bx wr
  alfvenRight : ∀ bx wl wr, Ok (.adiabatic gamma) wl → Ok (.adiabatic gamma) wr → AlfvenPair 1 bx wl wr →
    solver bx wl wr = if 0 < wl.vx + |bx| / Real.sqrt wl.d then flux (.adiabatic gamma) bx wl
      else flux (.adiabatic gamma) bx wr
  alfvenLeft : ∀ bx wl wr, Ok (.adiabatic gamma) wl → Ok (.adiabatic gamma) wr → AlfvenPair (-1) bx wl wr →
    solver bx wl wr = if 0 ≤ wl.vx - |bx| / Real.sqrt wl.d then flux (.adiabatic gamma) bx wl
      else flux (.adiabatic gamma) bx wr

/-- The flux of an intermediate state of the isothermal solver: mass and transverse quantities move with the speed `u`;
the momentum flux `M` is common to all intermediate states. -/
noncomputable def fluxIso (bx u M : ℝ) (U : F) : F :=
  ⟨U.d * u, M, U.my * u - bx * U.bY, U.mz * u - bx * U.bZ, 0, U.bY * u - bx * (U.my / U.d),
    U.bZ * u - bx * (U.mz / U.d)⟩

/-- Three intermediate states of one density and normal momentum between `wl` and `wr`, separated by two fast and two
Alfven waves at which the jump conditions hold. -/
structure IsoFan (cs bx : ℝ) (wl wr : W) (sl s1 s3 sr u M : ℝ) (ul uc ur : F) : Prop where
  order : sl < u ∧ u < sr ∧ s1 = u - |bx| / Real.sqrt uc.d ∧ s3 = u + |bx| / Real.sqrt uc.d
  dens : 0 < uc.d ∧ ul.d = uc.d ∧ ur.d = uc.d
  fastL : fluxIso bx u M ul - flux (.isothermal cs) bx wl = sl • (ul - cons (.isothermal cs) bx wl)
  alfvenL : fluxIso bx u M uc - fluxIso bx u M ul = s1 • (uc - ul)
  alfvenR : fluxIso bx u M uc - fluxIso bx u M ur = s3 • (uc - ur)
  fastR : fluxIso bx u M ur - flux (.isothermal cs) bx wr = sr • (ur - cons (.isothermal cs) bx wr)

end Verif.Mhd
