import Verif.Model.Integrator
import Mathlib.Algebra.Order.Field.Rat
import Mathlib.Algebra.Order.AbsoluteValue.Basic
import Mathlib.Algebra.Order.Group.Unbundled.Abs

/-!
# Explicit Runge-Kutta methods, written down independently of the low-storage registers
-/
namespace Verif.Integrator

variable {V : Type} [AddCommGroup V] [Module ℚ V]

/-- A row of a Butcher tableau: reconstruction flag, time of the sources, coefficient of the initial state (1 in
the textbook; a few units of 1e-15 off for decimal weights), coefficients of the earlier stages' fluxes and sources. -/
structure Row where
  low : Bool
  c : ℚ
  u0 : ℚ
  a : List ℚ
  aS : List ℚ

/-- A tableau: rows, final weights of fluxes and sources. -/
structure Tableau where
  rows : List Row
  u0 : ℚ
  b : List ℚ
  bS : List ℚ

/-- `Σ a_j x_j`. -/
def comb : List ℚ → List V → V
  | a :: as, x :: xs => a • x + comb as xs
  | _, _ => 0

/-- Stage slopes (fluxes, sources): `Y_i = u0_i u + Σ_j a_ij F_j + aS_ij S_j`, `F_i = F(Y_i)`, `S_i = S(c_i, Y_i)`. -/
def slopes (P : Phys V) (u : V) : List Row → List V × List V → List V × List V
  | [], k => k
  | r :: rs, (F, S) =>
    let Y := r.u0 • u + (comb r.a F + comb r.aS S)
    slopes P u rs (F ++ [P.flux r.low Y], S ++ [P.src r.c Y])

/-- One step of the Runge-Kutta method. -/
def Tableau.eval (t : Tableau) (P : Phys V) (u : V) : V :=
  let k := slopes P u t.rows ([], [])
  t.u0 • u + (comb t.b k.1 + comb t.bS k.2)

/-- Inner product of coefficient lists. -/
def dot : List ℚ → List ℚ → ℚ
  | x :: xs, y :: ys => x * y + dot xs ys
  | _, _ => 0

/-- Abscissae `Σ_j a_ij`. -/
def Tableau.abs (t : Tableau) : List ℚ := t.rows.map (fun r => r.a.sum)

/-- `(A v)_i`. -/
def Tableau.app (t : Tableau) (v : List ℚ) : List ℚ := t.rows.map (fun r => dot r.a v)

/-- Entrywise product. -/
def had (x y : List ℚ) : List ℚ := List.zipWith (· * ·) x y

/-- Sources carry the weights of the fluxes, at the abscissa of their stage. -/
def Tableau.Uniform (t : Tableau) : Prop :=
  t.bS = t.b ∧ ∀ r ∈ t.rows, r.aS = r.a ∧ r.c = r.a.sum

/-- Distance of a number from its required value. -/
def near (ε x y : ℚ) : Prop := |x - y| ≤ ε

/-- Butcher's order conditions up to order `p ≤ 4`, each to within `ε` (one condition per rooted tree). -/
def Tableau.Order (t : Tableau) (p : Nat) (ε : ℚ) : Prop :=
  let c := t.abs
  (near ε t.u0 1 ∧ ∀ r ∈ t.rows, near ε r.u0 1) ∧
  (1 ≤ p → near ε t.b.sum 1) ∧
  (2 ≤ p → near ε (dot t.b c) (1/2)) ∧
  (3 ≤ p → near ε (dot t.b (had c c)) (1/3) ∧ near ε (dot t.b (t.app c)) (1/6)) ∧
  (4 ≤ p → near ε (dot t.b (had c (had c c))) (1/4) ∧ near ε (dot t.b (had c (t.app c))) (1/8) ∧
    near ε (dot t.b (t.app (had c c))) (1/12) ∧ near ε (dot t.b (t.app (t.app c))) (1/24))

/-- Forward Euler. -/
def euler : Tableau := ⟨[⟨false, 0, 1, [], []⟩], 1, [1], [1]⟩

/-- Heun's method. -/
def heun : Tableau := ⟨[⟨false, 0, 1, [], []⟩, ⟨false, 1, 1, [1], [1]⟩], 1, [1/2, 1/2], [1/2, 1/2]⟩

/-- The explicit midpoint rule with a low-order predictor. -/
def midpoint : Tableau := ⟨[⟨true, 0, 1, [], []⟩, ⟨false, 1/2, 1, [1/2], [1/2]⟩], 1, [0, 1], [0, 1]⟩

/-- Three-stage third-order method of Shu and Osher. -/
def ssp3 : Tableau := ⟨[⟨false, 0, 1, [], []⟩, ⟨false, 1, 1, [1], [1]⟩, ⟨false, 1/2, 1, [1/4, 1/4], [1/4, 1/4]⟩],
  1, [1/6, 1/6, 2/3], [1/6, 1/6, 2/3]⟩

/-- The method never uses the low-order reconstruction. -/
def Tableau.FullOrder (t : Tableau) : Prop := ∀ r ∈ t.rows, r.low = false

/-- A state whose value is the elapsed time: flux one, no sources. -/
def clock : Phys ℚ := ⟨fun _ _ => 1, fun _ _ => 0, fun _ u => u⟩

/-- Value of the clock after `n` stages. -/
def clockAfter (g : Integ) (sts : List Stage) (n : Nat) : Option ℚ :=
  (runStages g clock false 1 (sts.take n) ⟨0, 0, if g = .ssprk54 then some 0 else none⟩).map (·.u)

/-- The physics with sources taken at one fixed time. -/
def Phys.frozen (P : Phys V) (τ : ℚ) : Phys V := ⟨P.flux, fun _ => P.src τ, P.orb⟩

/-- Nothing happens. -/
def still : Phys V := ⟨fun _ _ => 0, fun _ _ => 0, fun _ u => u⟩

/-- Constant flux divergence and source. -/
def uniform (K J : V) : Phys V := ⟨fun _ _ => K, fun _ _ => J, fun _ u => u⟩

/-- Linear flux, no sources. -/
def linear (A : V → V) : Phys V := ⟨fun _ => A, fun _ _ => 0, fun _ u => u⟩

end Verif.Integrator
