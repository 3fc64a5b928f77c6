import Verif.Model.Reconstruct

/-!
# What reconstruction should do
-/
namespace Verif.Recon
variable {K : Type} [Field K] [LinearOrder K]

/-- `x` lies between `a` and `b`, in either order. -/
def Between (a b x : K) : Prop := min a b ≤ x ∧ x ≤ max a b

/-- Cell `i` of a mesh: its centre lies between its faces, the centres of its neighbours lie
beyond the faces, and the arrays of differences hold the differences. -/
structure Line.Cell (m : Line K) (i : Int) : Prop where
  lo : m.xf i < m.xv i
  hi : m.xv i < m.xf (i + 1)
  prev : m.xv (i - 1) ≤ m.xf i
  next : m.xf (i + 1) ≤ m.xv (i + 1)
  dxf : m.dxf i = m.xf (i + 1) - m.xf i
  dxv : m.dxv i = m.xv (i + 1) - m.xv i
  dxv' : m.dxv (i - 1) = m.xv i - m.xv (i - 1)

/-- The centre of cell `i` is its midpoint (Cartesian-like directions). -/
def Line.Mid (m : Line K) (i : Int) : Prop := m.xv i = (m.xf i + m.xf (i + 1)) / 2

/-- No abrupt change of the cell width at cell `i`, in the form the limiter needs it. With
midpoints it holds if cell `i` is at most twice as wide as each neighbour (`smooth_of_ratio`). -/
def Line.Smooth (m : Line K) (i : Int) : Prop :=
  let f := m.dxv i / (m.xf (i + 1) - m.xv i)
  let b := m.dxv (i - 1) / (m.xv i - m.xf i)
  2 * f + b ≤ f * (f + b) ∧ 2 * b + f ≤ b * (f + b)

/-- Average over the cell with faces `a`, `b` of `x^n` with weight `x^m`: `m = 0` in a
Cartesian-like direction, `1` in the radial direction of cylindrical, `2` of spherical
coordinates. -/
def avg (m n : ℕ) (a b : K) : K :=
  ((m : K) + 1) / ((m : K) + n + 1) * (b ^ (m + n + 1) - a ^ (m + n + 1)) / (b ^ (m + 1) - a ^ (m + 1))

end Verif.Recon
