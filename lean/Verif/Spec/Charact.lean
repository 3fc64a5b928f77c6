import Verif.Model.Charact

/-!
# What characteristic variables should do
-/
namespace Verif.Charact
open Verif.Riemann (Gas)

/-- A state with positive density and pressure (or speed of sound). -/
def Phys : Gas → Col → Prop
  | .adiabatic gamma, w => 0 < w 0 ∧ 0 < gamma ∧ 0 < w 4
  | .isothermal cs, w => 0 < w 0 ∧ 0 < cs

/-- The directions. -/
def Dir (ivx : ℤ) : Prop := ivx = 1 ∨ ivx = 2 ∨ ivx = 3

/-- The component `n` of the field, if there is one. -/
def fld (mag : Bool) (x : ℝ) : ℝ := if mag then x else 0

/-- The gradient of the gas pressure. -/
noncomputable def gradP : Gas → Col → ℝ
  | .adiabatic _, v => v 4
  | .isothermal cs, v => cs ^ 2 * v 0

/-- The matrix of the equations of gas dynamics in primitive variables, for a gradient `v` in direction `ivx` about the state `w`
with normal field `bx`: `dw/dt = - quasi v`. -/
noncomputable def quasi (mag : Bool) (g : Gas) (ivx : ℤ) (bx : ℝ) (w v : Col) : Col := fun n =>
  if n = 0 then w ivx * v 0 + w 0 * v ivx
  else if n = ivx then
    w ivx * v ivx + (gradP g v + fld mag (w (IBY g) * v (IBY g) + w (IBZ g) * v (IBZ g))) / w 0
  else if n = ivy ivx then w ivx * v (ivy ivx) - fld mag (bx * v (IBY g)) / w 0
  else if n = ivz ivx then w ivx * v (ivz ivx) - fld mag (bx * v (IBZ g)) / w 0
  else if n = IBY g ∧ mag then w ivx * v (IBY g) + w (IBY g) * v ivx - bx * v (ivy ivx)
  else if n = IBZ g ∧ mag then w ivx * v (IBZ g) + w (IBZ g) * v ivx - bx * v (ivz ivx)
  else match g with
    | .adiabatic gamma => if n = 4 then w ivx * v 4 + gamma * w 4 * v ivx else 0
    | .isothermal _ => 0

/-- The square of the speed of sound. -/
noncomputable def sound2 : Gas → Col → ℝ
  | .adiabatic gamma, w => gamma * w 4 / w 0
  | .isothermal cs, _ => cs ^ 2

/-- The square of the transverse field. -/
noncomputable def bt2 (g : Gas) (w : Col) : ℝ := w (IBY g) ^ 2 + w (IBZ g) ^ 2

/-- The fast, Alfvén and slow speeds: `cf^2` and `cs^2` are the two roots of the dispersion relation. -/
structure Speeds (g : Gas) (bx : ℝ) (w : Col) (cf ca cs : ℝ) : Prop where
  cs_nonneg : 0 ≤ cs
  cs_le_ca : cs ≤ ca
  ca_le_cf : ca ≤ cf
  sound : cs ^ 2 ≤ sound2 g w ∧ sound2 g w ≤ cf ^ 2
  alfven : w 0 * ca ^ 2 = bx ^ 2
  sum : w 0 * (cf ^ 2 + cs ^ 2) = w 0 * sound2 g w + bx ^ 2 + bt2 g w
  prod : w 0 * (cf ^ 2 * cs ^ 2) = sound2 g w * bx ^ 2

/-- The speeds of the waves relative to the gas, in the order of the characteristic variables. -/
def waves (mag : Bool) (g : Gas) (cf ca cs a : ℝ) : ℤ → ℝ := fun n =>
  match mag, g with
  | true, .adiabatic _ =>
    if n = 0 then -cf else if n = 1 then -ca else if n = 2 then -cs else if n = 3 then 0 else if n = 4 then cs
    else if n = 5 then ca else cf
  | true, .isothermal _ =>
    if n = 0 then -cf else if n = 1 then -ca else if n = 2 then -cs else if n = 3 then cs else if n = 4 then ca else cf
  | false, .adiabatic _ => if n = 0 then -a else if n = 4 then a else 0
  | false, .isothermal _ => if n = 0 then -a else if n = 3 then a else 0

/-- Components transverse to the direction: of the velocity, and of the field. -/
def Transverse (g : Gas) (ivx n : ℤ) : Prop := n = ivy ivx ∨ n = ivz ivx ∨ n = IBY g ∨ n = IBZ g

end Verif.Charact
