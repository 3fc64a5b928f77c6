import Verif.Model.Interp

/-! Piecewise linear interpolation. -/

namespace Verif.Interp.Spec

variable {K : Type} [Field K] [LinearOrder K]

/-- `x` is in cell `i` of the `n - 1` cells between the nodes `X`; the first and the last cell reach
to infinity. Neighboring cells have their common node in both. -/
def InCell (X : Int → K) (n i : Int) (x : K) : Prop :=
  0 ≤ i ∧ i + 2 ≤ n ∧ (i = 0 ∨ X i ≤ x) ∧ (i + 2 = n ∨ x ≤ X (i + 1))

/-- The linear function with values `ya` at `a` and `yb` at `b`. -/
def lin (a b ya yb x : K) : K := ya * ((b - x) / (b - a)) + yb * ((x - a) / (b - a))

/-- The bilinear function in cell `(i, j)`. -/
def bilin (X Y : Int → K) (f : Int → Int → K) (i j : Int) (x y : K) : K :=
  lin (X i) (X (i + 1)) (lin (Y j) (Y (j + 1)) (f i j) (f i (j + 1)) y)
    (lin (Y j) (Y (j + 1)) (f (i + 1) j) (f (i + 1) (j + 1)) y) x

/-- `n` equidistant nodes from `a` to `b`. -/
def nodes (n : Int) (a b : K) (i : Int) : K := a + i * ((b - a) / (n - 1))

/-- The numbers that `static_cast<int>` can convert, with room to spare. -/
def Fits (x : K) : Prop := -(2 ^ 31 : K) < x ∧ x < 2 ^ 31

/-- The nodes increase. -/
def Increasing (n : Int) (X : Int → K) : Prop := ∀ i j, 0 ≤ i → i < j → j < n → X i < X j

end Verif.Interp.Spec
