import Verif.Model.Orbital
import Mathlib.MeasureTheory.Integral.IntervalIntegral.Basic

/-! # Specification vocabulary for orbital advection -/
namespace Verif.Orbital

/-- Cell number `c` of a ring, counted from the first cell of block 0: row `(a, i)`, variable `n`. -/
def Part.cell {K : Type} (P : Part K) (n a i c : ℤ) : K :=
  P.u (c / P.r.onx) (n, a, P.r.os + c % P.r.onx, i)

/-- Cell number `c` of a row `(k, i)` of a ring of blocks along `x2`, and of a row `(j, i)` along `x3`. -/
def ring2 {K : Type} (d : Grid.Dims) (f : ℤ → Grid.A3 K) (k i c : ℤ) : K := f (c / d.nx2) (k, d.js + c % d.nx2, i)
@[inherit_doc ring2] def ring3 {K : Type} (d : Grid.Dims) (f : ℤ → Grid.A3 K) (j i c : ℤ) : K :=
  f (c / d.nx3) (d.ks + c % d.nx3, j, i)

/-- A row and a variable that the loops visit. -/
def Rows.Has (r : Rows) (n a i : ℤ) : Prop := (0 ≤ n ∧ n < r.nv) ∧ (r.a0 ≤ a ∧ a ≤ r.a1) ∧ (r.i0 ≤ i ∧ i ≤ r.i1)

/-- Every row moves by less than the block length minus the stencil. -/
def Part.Fits {K : Type} (P : Part K) : Prop :=
  0 < P.r.onx ∧ 0 ≤ P.r.xgh ∧ ∀ a i, P.r.a0 ≤ a → a ≤ P.r.a1 → P.r.i0 ≤ i → i ≤ P.r.i1 →
    P.r.xgh - P.r.onx < P.off (a, i) ∧ P.off (a, i) ≤ P.r.onx - P.r.xgh

section
variable {K : Type} [Field K] [LinearOrder K] [FloorRing K]
/-- Rows that move by less than the block length minus the stencil. -/
def Short (P : Part K) (olen : ℤ × ℤ → K) (dx : K) : Prop :=
  0 < dx ∧ 0 < P.r.onx ∧ 0 ≤ P.r.xgh ∧ ∀ a i, P.r.a0 ≤ a → a ≤ P.r.a1 → P.r.i0 ≤ i → i ≤ P.r.i1 →
    P.off (a, i) = offset (olen (a, i)) dx ∧ |olen (a, i)| < dx * ((P.r.onx - P.r.xgh : ℤ) : K)
end

/-- The slope of van Leer's limiter. -/
noncomputable def vanLeer (a b : ℝ) : ℝ := if a * b ≤ 0 then 0 else 2 * (a * b) / (a + b)

/-- A linear profile in every cell, as a function on the line; cell `c` is the interval `[c, c + 1)`. -/
noncomputable def linear (U : ℤ → ℝ) (x : ℝ) : ℝ :=
  U ⌊x⌋ + vanLeer (U ⌊x⌋ - U (⌊x⌋ - 1)) (U (⌊x⌋ + 1) - U ⌊x⌋) * (Int.fract x - 1 / 2)

/-- The parabola in every cell with the mean `U c` and given values at its edges. -/
noncomputable def parabolic (U : ℤ → ℝ) (edge : ℤ → ℝ × ℝ) (x : ℝ) : ℝ :=
  let m := (edge ⌊x⌋).1
  let p := (edge ⌊x⌋).2
  m + Int.fract x * (p - m + 6 * (U ⌊x⌋ - (m + p) / 2) * (1 - Int.fract x))

/-- The profile of the second or the third order method. -/
noncomputable def profile (ppm : Bool) (U : ℤ → ℝ) : ℝ → ℝ := if ppm then parabolic U (ppmCell U) else linear U

/-- The mean over cell `c` of a profile displaced by `d` cells. -/
noncomputable def displaced (f : ℝ → ℝ) (d : ℝ) (c : ℤ) : ℝ := ∫ x in ((c : ℝ) - d)..((c : ℝ) + 1 - d), f x

end Verif.Orbital
