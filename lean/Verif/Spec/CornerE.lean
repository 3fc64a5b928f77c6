import Verif.Model.CornerE

/-! # Specification vocabulary for the electric field at edges -/
namespace Verif.Grid

/-- One step down in direction `a`. -/
def down (a : ℕ) : ℤ × ℤ × ℤ → ℤ × ℤ × ℤ
  | (k, j, i) => if a = 1 then (k, j, i-1) else if a = 2 then (k, j-1, i) else (k-1, j, i)

/-- Position along direction `a`. -/
def along (a : ℕ) : ℤ × ℤ × ℤ → ℤ
  | (k, j, i) => if a = 1 then i else if a = 2 then j else k

/-- The component `c` of the electric field a solver found at face `q` of direction `a`: `ey` is component `a - 1` and `ez`
component `a + 1` of the cyclic order. -/
def faceE (S : ℕ → ℤ → ℤ → ℤ → Solved) (c a : ℕ) (q : ℤ × ℤ × ℤ) : ℝ :=
  let s := S a q.1 q.2.1 q.2.2
  if a = 1 then (if c = 3 then s.ey else s.ez)
  else if a = 2 then (if c = 1 then s.ey else s.ez)
  else (if c = 2 then s.ey else s.ez)

/-- The electric field `- v × B` of a cell. With `sr` the velocity variables are those of the four-velocity,
`v = u / sqrt(1 + u²)`. -/
noncomputable def cellElectric (sr : Bool) (w bcc : A4 ℝ) (c : ℕ) (q : ℤ × ℤ × ℤ) : ℝ :=
  let v : ℤ → ℝ := fun n => if sr then w (n, q) / Real.sqrt (1 + (w (1, q) ^ 2 + w (2, q) ^ 2 + w (3, q) ^ 2)) else w (n, q)
  let b : ℤ → ℝ := fun n => bcc (n - 1, q)
  if c = 1 then -(v 2 * b 3 - v 3 * b 2) else if c = 2 then -(v 3 * b 1 - v 1 * b 3) else -(v 1 * b 2 - v 2 * b 1)

/-- Mean of a value below and one above with weight `w` of the one below. -/
def mix (w lo hi : ℝ) : ℝ := w * lo + (1 - w) * hi

/-- The electric field along an edge in direction `c` between the directions `a` and `b`: the mean of the four faces that
meet there, each with the difference between face and cell added, taken from the side the contact wave comes from
(Gardiner and Stone 2005). -/
noncomputable def edgeE (sr : Bool) (w bcc : A4 ℝ) (S : ℕ → ℤ → ℤ → ℤ → Solved) (c a b : ℕ) (q : ℤ × ℤ × ℤ) : ℝ :=
  let E := cellElectric sr w bcc c
  let W : ℕ → ℤ × ℤ × ℤ → ℝ := fun n q => (S n q.1 q.2.1 q.2.2).wct
  let half : ℕ → ℕ → ℤ × ℤ × ℤ → ℝ := fun a b side =>
    -- the faces of direction `b` below and above the edge, seen from the cells on one side, chosen by the face of direction `a` there
    mix (W a side) (faceE S c b (down a q) - E (down a side)) (faceE S c b q - E side)
  (faceE S c a q + faceE S c a (down b q) + faceE S c b q + faceE S c b (down a q)) / 4
    + (half a b q + half a b (down b q) + half b a q + half b a (down a q)) / 4

/-- The edges of the active cells in each direction: those `CT` uses. -/
def EdgeOf (d : Dims) (c : ℕ) (q : ℤ × ℤ × ℤ) : Prop :=
  (d.ks ≤ q.1 ∧ q.1 ≤ d.ke + if c = 3 then 0 else 1) ∧ (d.js ≤ q.2.1 ∧ q.2.1 ≤ d.je + if c = 2 then 0 else 1) ∧
    (d.is ≤ q.2.2 ∧ q.2.2 ≤ d.ie + if c = 1 then 0 else 1)

/-- The component `c` of an electric field at edges. -/
def EF.comp {K : Type} (e : EF K) (c : ℕ) : A3 K := if c = 1 then e.x1e else if c = 2 then e.x2e else e.x3e

/-- A block with one, two or three dimensions. -/
structure Dims.Pos (d : Dims) : Prop where
  g : 1 ≤ d.ng
  n1 : 1 ≤ d.nx1
  n2 : 1 ≤ d.nx2
  n3 : 1 ≤ d.nx3
  ord : 1 < d.nx3 → 1 < d.nx2

/-- Direction `a` is one the block extends in. -/
def Dims.Has (d : Dims) (a : ℕ) : Prop := a = 1 ∨ (a = 2 ∧ 1 < d.nx2) ∨ (a = 3 ∧ 1 < d.nx3)

/-- Cells and faces within one cell of the active ones. -/
def Near (d : Dims) (q : ℤ × ℤ × ℤ) : Prop :=
  (d.ks - (if 1 < d.nx3 then 1 else 0) ≤ q.1 ∧ q.1 ≤ d.ke + if 1 < d.nx3 then 1 else 0) ∧
  (d.js - (if 1 < d.nx2 then 1 else 0) ≤ q.2.1 ∧ q.2.1 ≤ d.je + if 1 < d.nx2 then 1 else 0) ∧
  (d.is - 1 ≤ q.2.2 ∧ q.2.2 ≤ d.ie + 1)

/-- A plane-parallel problem along direction `a`: cells and faces at the same place along `a` have the same values, and
across the other directions, where nothing changes, the solver returns the electric field of the cells. -/
structure Planar (a : ℕ) (sr : Bool) (w bcc : A4 ℝ) (S : ℕ → ℤ → ℤ → ℤ → Solved) : Prop where
  cells : ∀ n q q', along a q = along a q' → w (n, q) = w (n, q') ∧ bcc (n, q) = bcc (n, q')
  faces : ∀ b q q', along a q = along a q' → S b q.1 q.2.1 q.2.2 = S b q'.1 q'.2.1 q'.2.2
  across : ∀ b c q, (b = 1 ∨ b = 2 ∨ b = 3) → (c = 1 ∨ c = 2 ∨ c = 3) → b ≠ a → b ≠ c → faceE S c b q = cellElectric sr w bcc c q

end Verif.Grid
