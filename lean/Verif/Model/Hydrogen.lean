import Mathlib.Analysis.SpecialFunctions.Log.Basic
import Mathlib.Analysis.SpecialFunctions.Sqrt

/-!
Equation of state of partially ionized hydrogen, eos/general/hydrogen.cpp, over the real numbers.
-/

namespace Verif.Hydrogen

/-- `x_`, hydrogen.cpp:37-39: degree of ionization. -/
noncomputable def frac (rho T : ℝ) : ℝ :=
  2 / (1 + Real.sqrt (1 + 4 * Real.exp (1 / T - 3 / 2 * Real.log T + Real.log rho)))

/-- `P_of_rho_T`, hydrogen.cpp:44-46. -/
noncomputable def presT (rho T : ℝ) : ℝ := rho * T * (1 + frac rho T)

/-- `e_of_rho_T`, hydrogen.cpp:51-54. -/
noncomputable def engT (rho T : ℝ) : ℝ :=
  frac rho T * rho + 3 / 2 * rho * T * (1 + frac rho T)

/-- `asq_`, hydrogen.cpp:59-63. -/
noncomputable def asqT (rho T : ℝ) : ℝ :=
  let x := frac rho T
  let c := 2 * (T * T) * (2 + x - x * x)
  (1 + x) * T * (1 + (2 * c + 2 * T * (4 + 3 * T) * (1 - x) * x) /
    (3 * c + (2 + 3 * T) * (2 + 3 * T) * (1 - x) * x))

/-- Outcome of `invert`: the fatal error, a temperature that is not positive (its logarithm is NaN),
no result within the given number of passes, or a result. -/
inductive Out where
  | fatal
  | nan
  | more
  | ok (t : ℝ)

/-- Local variables of `invert`, hydrogen.cpp:70-73. -/
structure St where
  ta : ℝ
  tb : ℝ
  tc : ℝ
  td : ℝ
  fa : ℝ
  fb : ℝ
  mflag : Bool

/-- Exchange of the ends, lines 75-82 and 122-129. -/
noncomputable def order (s : St) : St :=
  open Classical in
  if |s.fa| < |s.fb| then { s with ta := s.tb, tb := s.ta, fa := s.fb, fb := s.fa } else s

/-- Proposal for the new temperature, lines 93-100; `g` is `f(rho, T) / sol - 1`. -/
noncomputable def propose (g : ℝ → ℝ) (s : St) : ℝ :=
  open Classical in
  let fc := g s.tc
  if fc ≠ s.fa ∧ fc ≠ s.fb then
    s.ta * s.fb * fc / ((s.fa - s.fb) * (s.fa - fc)) +
      s.tb * s.fa * fc / ((s.fb - s.fa) * (s.fb - fc)) +
      s.tc * s.fa * s.fb / ((fc - s.fa) * (fc - s.fb))
  else s.tb - s.fb * (s.tb - s.ta) / (s.fb - s.fa)

/-- Condition for a bisection, lines 101-105. -/
def reject (prec : ℝ) (s : St) (ts : ℝ) : Prop :=
  (ts < 1 / 4 * (3 * s.ta - s.tb) ∨ ts > s.tb) ∨
  (s.mflag = true ∧ |ts - s.tb| ≥ 1 / 2 * |s.tc - s.tb|) ∨
  (s.mflag = false ∧ |ts - s.tb| ≥ 1 / 2 * |s.tc - s.td|) ∨
  (s.mflag = true ∧ |s.tc - s.tb| < prec) ∨
  (s.mflag = false ∧ |s.tc - s.td| < prec)

/-- The new temperature of a pass and the flag, lines 93-110. -/
noncomputable def choose (prec : ℝ) (g : ℝ → ℝ) (s : St) : ℝ × Bool :=
  open Classical in
  if reject prec s (propose g s) then (1 / 2 * (s.ta + s.tb), true) else (propose g s, false)

/-- Rest of a pass for the temperature `ts`, lines 111-129. -/
noncomputable def update (g : ℝ → ℝ) (s : St) (ts : ℝ) (m : Bool) : St :=
  open Classical in
  let fs := g ts
  let s1 : St := { s with td := s.tc, tc := s.tb, mflag := m }
  if s.fa * fs < 0 then order { s1 with tb := ts, fb := fs }
  else order { s1 with ta := ts, fa := fs }

/-- The loop, lines 92-131, for at most `n` passes. -/
noncomputable def loop (prec : ℝ) (g : ℝ → ℝ) : ℕ → St → Out
  | 0, _ => .more
  | n + 1, s =>
    open Classical in
    if |s.ta - s.tb| ≥ prec ∧ |s.fb| ≥ prec then
      let c := choose prec g s
      if c.1 ≤ 0 then .nan else loop prec g n (update g s c.1 c.2)
    else .ok s.tb

/-- State before the loop, lines 70-82 and 91; `td0` is the value of `Td`, which is not initialized. -/
noncomputable def start (g : ℝ → ℝ) (ta tb td0 : ℝ) : St :=
  let s := order ⟨ta, tb, 0, td0, g ta, g tb, false⟩
  { s with tc := s.ta }

/-- `invert`, hydrogen.cpp:69-132. -/
noncomputable def invert (prec td0 : ℝ) (n : ℕ) (f : ℝ → ℝ) (sol ta tb : ℝ) : Out :=
  open Classical in
  let g := fun t => f t / sol - 1
  let s := start g ta tb td0
  if s.fa * s.fb > 0 then .fatal else loop prec g n s

/-- The temperature in `PresFromRhoEg`, hydrogen.cpp:138-143, in units of the equation of state; `eps`
is `float_eps`. -/
noncomputable def tempOfEnergy (prec td0 eps : ℝ) (n : ℕ) (rho egas : ℝ) : Out :=
  let es := egas / rho
  invert prec td0 n (engT rho) egas (max (es - 1) (1 / 10 * es) / 3) ((1 + eps) * 2 * es / 3)

/-- The temperature in `EgasFromRhoP` and `AsqFromRhoP`, hydrogen.cpp:150-154 and 161-165. -/
noncomputable def tempOfPres (prec td0 eps : ℝ) (n : ℕ) (rho pres : ℝ) : Out :=
  let ps := pres / rho
  invert prec td0 n (presT rho) pres (1 / 2 * ps) ((1 + eps) * ps)

end Verif.Hydrogen
