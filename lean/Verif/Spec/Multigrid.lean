import Verif.Model.Multigrid
import Mathlib.Algebra.BigOperators.Group.Finset.Basic
import Mathlib.Data.Int.Interval
import Mathlib.Data.Finset.Prod

/-!
# What the multigrid kernels must do

Words used in the statements of Props/Multigrid.lean, independent of the loops of the code.
-/
namespace Verif.Mg
open Verif.Grid (A3)

/-- Cell `(k, j, i)` lies in the box. -/
def Box.In (b : Box) (k j i : ℤ) : Prop :=
  (b.kl ≤ k ∧ k ≤ b.ku) ∧ (b.jl ≤ j ∧ j ≤ b.ju) ∧ (b.il ≤ i ∧ i ≤ b.iu)

/-- The six neighbours of a cell. -/
def nbrs (k j i : ℤ) : List (ℤ × ℤ × ℤ) :=
  [(k-1, j, i), (k+1, j, i), (k, j-1, i), (k, j+1, i), (k, j, i-1), (k, j, i+1)]

/-- Sum of `u` over the six neighbours. -/
def nbrSum (u : A3 ℝ) (k j i : ℤ) : ℝ := ((nbrs k j i).map u).sum

/-- Poisson's equation in one cell with the seven-point Laplacian and spacing `h`. -/
def PoissonAt (h : ℝ) (u src : A3 ℝ) (k j i : ℤ) : Prop := (nbrSum u k j i - 6 * u (k, j, i)) / h ^ 2 = src (k, j, i)

/-- Poisson's equation in every cell of a box. -/
def Solves (h : ℝ) (b : Box) (u src : A3 ℝ) : Prop := ∀ k j i, b.In k j i → PoissonAt h u src k j i

/-- The value of the cell for which Poisson's equation holds there, its neighbours being given. -/
noncomputable def gaussSeidel (h : ℝ) (u src : A3 ℝ) (k j i : ℤ) : ℝ := (nbrSum u k j i - h ^ 2 * src (k, j, i)) / 6

/-- Over-relaxation: the step towards `gaussSeidel` is multiplied by `omega`. -/
noncomputable def relaxed (omega h : ℝ) (u src : A3 ℝ) (k j i : ℤ) : ℝ :=
  u (k, j, i) + omega * (gaussSeidel h u src k j i - u (k, j, i))

open scoped Classical in
/-- All cells of one colour of the box relaxed at once from the values before. Colour: parity of `k + j + i`. -/
noncomputable def sweep (omega h : ℝ) (b : Box) (parity : ℤ) (src u : A3 ℝ) : A3 ℝ := fun q =>
  if b.In q.1 q.2.1 q.2.2 ∧ (q.1 + q.2.1 + q.2.2 - parity) % 2 = 0 then relaxed omega h u src q.1 q.2.1 q.2.2 else u q

/-- The cells of a box. -/
noncomputable def Box.cells (b : Box) : Finset (ℤ × ℤ × ℤ) :=
  Finset.Icc b.kl b.ku ×ˢ (Finset.Icc b.jl b.ju ×ˢ Finset.Icc b.il b.iu)

/-- Sum over a box. -/
noncomputable def Box.total (b : Box) (a : A3 ℝ) : ℝ := ∑ q ∈ b.cells, a q

/-- The box with twice the number of cells in each direction and the same first cell. -/
def Box.fine (b : Box) : Box :=
  ⟨b.kl, b.kl + 2 * (b.ku - b.kl + 1) - 1, b.jl, b.jl + 2 * (b.ju - b.jl + 1) - 1, b.il, b.il + 2 * (b.iu - b.il + 1) - 1⟩

/-- Quadratic polynomials of one variable. -/
def Quadratic (f : ℝ → ℝ) : Prop := ∃ a b c, ∀ x, f x = a + b * x + c * x ^ 2

/-- Affine functions of one variable. -/
def Affine (f : ℝ → ℝ) : Prop := ∃ a b, ∀ x, f x = a + b * x

/-- Finite sums of products of functions of one variable of the kind `C`: with `Quadratic` all polynomials of degree at
most two in each variable, with `Affine` all trilinear functions. -/
def Tensor (C : (ℝ → ℝ) → Prop) (P : ℝ → ℝ → ℝ → ℝ) : Prop :=
  ∃ (m : ℕ) (f g h : ℕ → ℝ → ℝ), (∀ n, C (f n) ∧ C (g n) ∧ C (h n)) ∧
    ∀ z y x, P z y x = ∑ n ∈ Finset.range m, f n z * g n y * h n x

/-- The array holds the values of `P` at the centres of the cells within one cell of `(k, j, i)`; the centre of cell
`k` is at `k`. -/
def Samples (P : ℝ → ℝ → ℝ → ℝ) (s : A3 ℝ) (k j i : ℤ) : Prop :=
  ∀ k' j' i', |k' - k| ≤ 1 → |j' - j| ≤ 1 → |i' - i| ≤ 1 → s (k', j', i') = P k' j' i'

/-- A cell of the box or of the layer around it. -/
def Box.Ext (b : Box) (k j i : ℤ) : Prop :=
  (b.kl - 1 ≤ k ∧ k ≤ b.ku + 1) ∧ (b.jl - 1 ≤ j ∧ j ≤ b.ju + 1) ∧ (b.il - 1 ≤ i ∧ i ≤ b.iu + 1)

/-- What filling the ghost cells means: active cells and everything outside the layer of ghost cells stay, ghost cells
depend on the active cells only. -/
structure FillsGhosts (b : Box) (B : A3 ℝ → A3 ℝ) : Prop where
  active : ∀ a q, b.In q.1 q.2.1 q.2.2 → B a q = a q
  ghosts : ∀ a a', (∀ q, b.In q.1 q.2.1 q.2.2 → a q = a' q) → ∀ q, b.Ext q.1 q.2.1 q.2.2 → B a q = B a' q
  rest : ∀ a q, ¬ b.Ext q.1 q.2.1 q.2.2 → B a q = a q

/-- The box has cells. -/
def Box.Nonempty (b : Box) : Prop := b.kl ≤ b.ku ∧ b.jl ≤ b.ju ∧ b.il ≤ b.iu

/-- Differences across the faces normal to x1, x2, x3 that touch the box, squared and added. -/
noncomputable def Box.dirichlet (b : Box) (u : A3 ℝ) : ℝ :=
  (∑ k ∈ Finset.Icc b.kl b.ku, ∑ j ∈ Finset.Icc b.jl b.ju, ∑ i ∈ Finset.Icc (b.il - 1) b.iu, (u (k, j, i+1) - u (k, j, i)) ^ 2)
  + (∑ k ∈ Finset.Icc b.kl b.ku, ∑ i ∈ Finset.Icc b.il b.iu, ∑ j ∈ Finset.Icc (b.jl - 1) b.ju, (u (k, j+1, i) - u (k, j, i)) ^ 2)
  + (∑ j ∈ Finset.Icc b.jl b.ju, ∑ i ∈ Finset.Icc b.il b.iu, ∑ k ∈ Finset.Icc (b.kl - 1) b.ku, (u (k+1, j, i) - u (k, j, i)) ^ 2)

/-- The energy whose minimum, ghost cells being held, is the solution of Poisson's equation. -/
noncomputable def energy (h : ℝ) (b : Box) (src u : A3 ℝ) : ℝ :=
  b.dirichlet u / 2 + h ^ 2 * b.total (fun q => src q * u q)

/-- The flux of the gravitational field through the face between two cells of size `h` with potentials `a` and `b`:
area times difference quotient. -/
noncomputable def fieldFlux (h a b : ℝ) : ℝ := h ^ 2 * ((b - a) / h)

end Verif.Mg
