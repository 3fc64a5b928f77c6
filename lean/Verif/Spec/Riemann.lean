import Verif.Model.Riemann

/-!
# Specification of the Riemann solvers

The flux of the Euler equations, written for one Cartesian direction `m` on the arrays of the code, and in the frame
of the face; the admissible states; reflection.
-/
namespace Verif.Riemann

/-- Conserved variables and fluxes form a vector space. -/
instance : Add F := ⟨fun a b => ⟨a.d + b.d, a.mx + b.mx, a.my + b.my, a.mz + b.mz, a.e + b.e⟩⟩
instance : Sub F := ⟨fun a b => ⟨a.d - b.d, a.mx - b.mx, a.my - b.my, a.mz - b.mz, a.e - b.e⟩⟩
instance : SMul ℝ F := ⟨fun c a => ⟨c * a.d, c * a.mx, c * a.my, c * a.mz, c * a.e⟩⟩

/-- Positive density; positive pressure and `1 < gamma`, or a positive isothermal sound speed. -/
def Ok : Gas → W → Prop
  | .adiabatic gamma, w => 0 < w.d ∧ 0 < w.p ∧ 1 < gamma
  | .isothermal cs, w => 0 < w.d ∧ 0 < cs

/-- The conserved variables. -/
noncomputable def cons : Gas → W → F
  | .adiabatic gamma, w =>
    ⟨w.d, w.d * w.vx, w.d * w.vy, w.d * w.vz, w.p / (gamma - 1) + w.d * (w.vx ^ 2 + w.vy ^ 2 + w.vz ^ 2) / 2⟩
  | .isothermal _, w => ⟨w.d, w.d * w.vx, w.d * w.vy, w.d * w.vz, 0⟩

/-- The flux of the Euler equations along the first axis: mass, momentum with the pressure, energy with the work of the
pressure. -/
noncomputable def flux : Gas → W → F
  | .adiabatic gamma, w =>
    ⟨w.d * w.vx, w.d * w.vx ^ 2 + w.p, w.d * w.vx * w.vy, w.d * w.vx * w.vz,
      (gamma / (gamma - 1) * w.p + w.d * (w.vx ^ 2 + w.vy ^ 2 + w.vz ^ 2) / 2) * w.vx⟩
  | .isothermal cs, w => ⟨w.d * w.vx, w.d * w.vx ^ 2 + cs ^ 2 * w.d, w.d * w.vx * w.vy, w.d * w.vx * w.vz, 0⟩

/-- Component `n` of the flux along axis `m` for a cell `w` with density `w 0`, velocity `w 1, w 2, w 3`, pressure
`w 4`. -/
noncomputable def axisFlux (g : Gas) (m : Nat) (w : Nat → ℝ) (n : Nat) : ℝ :=
  let P := match g with
    | .adiabatic _ => w 4
    | .isothermal cs => cs ^ 2 * w 0
  let h := match g with
    | .adiabatic gamma => gamma / (gamma - 1) * w 4 + w 0 * (w 1 ^ 2 + w 2 ^ 2 + w 3 ^ 2) / 2
    | .isothermal _ => 0
  if n = 0 then w 0 * w m
  else if n ≤ 3 then w 0 * w n * w m + (if n = m then P else 0)
  else h * w m

/-- The number of conserved variables. -/
def Gas.nhydro : Gas → Nat
  | .adiabatic _ => 5
  | .isothermal _ => 4

/-- A solver is consistent: equal states on both sides give the flux of that state, in each of the three directions,
and nothing else is written. -/
def Consistent (g : Gas) (solver : W → W → F) : Prop :=
  ∀ (w old : Nat → ℝ) (m : Nat), m = 1 ∨ m = 2 ∨ m = 3 → Ok g (load m w) →
    ∀ n, face g solver m w w old n = if n < g.nhydro then axisFlux g m w n else old n

/-- Reflection at the face. -/
def W.mirror (w : W) : W := { w with vx := -w.vx }

/-- The flux seen after reflection: mass, transverse momentum and energy cross in the other direction. -/
def F.mirror (f : F) : F := ⟨-f.d, f.mx, -f.my, -f.mz, -f.e⟩

/-- Reflection symmetry of a solver. -/
def Mirror (g : Gas) (solver : W → W → F) : Prop :=
  ∀ wl wr, Ok g wl → Ok g wr → solver wr.mirror wl.mirror = (solver wl wr).mirror

/-- An interface that moves with the speed `s` and satisfies the jump conditions. -/
def JumpOk (g : Gas) (s : ℝ) (wl wr : W) : Prop := flux g wr - flux g wl = s • (cons g wr - cons g wl)

end Verif.Riemann
