import Verif.Model.ChemSolver

/-!
# What a subcycled solver has to do
-/

namespace Verif.Chem.Spec

variable {N : ℕ}

/-- Euler's polygon: from `s` to `s'` in the time `T`, along straight pieces with the slope
`f` of their beginning, each at most as long as `ok` allows. -/
inductive Polygon (f : St N → St N) (ok : St N → ℝ → Prop) : St N → ℝ → St N → Prop
  | done (s : St N) : Polygon f ok s 0 s
  | step (s : St N) (t T : ℝ) (s' s'' : St N) (ht : 0 ≤ t) (hok : ok s t)
      (hy : ∀ i, s'.y i = s.y i + t * (f s).y i) (he : s'.e = s.e + t * (f s).e)
      (h : Polygon f ok s' T s'') : Polygon f ok s (t + T) s''

/-- A piece changes no abundance by more than the fraction `cfl` of itself (of `yfloor` if it is
smaller), and not the energy: up to the number `small` that guards the division. -/
def Limited (f : St N → St N) (cfl yfloor small : ℝ) (adiab : Bool) (s : St N) (t : ℝ) : Prop :=
  (∀ i, t * |(f s).y i| ≤ cfl * max (s.y i) yfloor + small * t) ∧
  (adiab = true → t * |(f s).e| ≤ cfl * |s.e| + small * t)

end Verif.Chem.Spec
