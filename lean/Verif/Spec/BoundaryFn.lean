import Verif.Model.BoundaryFn
import Verif.Spec.Flux

/-!
# Physical boundaries: vocabulary

Where the value of a ghost cell or ghost face comes from, and with which sign, one coordinate at a time.
-/
namespace Verif.Grid
variable {K : Type} [Field K]

/-- The active cell a ghost cell `x < s` below the first active cell `s` takes its value from. -/
def BC.lo (bc : BC) (s x : Int) : Int := match bc with
  | .comm => x
  | .outflow => s
  | .reflect | .wedge => 2*s - 1 - x
/-- The active cell a ghost cell `x > e` above the last active cell `e` takes its value from. -/
def BC.hi (bc : BC) (e x : Int) : Int := match bc with
  | .comm => x
  | .outflow => e
  | .reflect | .wedge => 2*e + 1 - x
/-- The face a ghost face `x` beyond the boundary face `s` takes its value from (faces normal to the coordinate). -/
def BC.face (bc : BC) (s x : Int) : Int := match bc with
  | .comm => x
  | .outflow => s
  | .reflect | .wedge => 2*s - x
/-- Sign of component `n` (1, 2, 3 are the components of a vector, other numbers are not components) at a boundary of coordinate `m`: a
reflecting wall reverses the normal component, crossing the pole reverses the two angular components. -/
def BC.sgn (bc : BC) (m n : Int) : K := match bc with
  | .reflect => if n = m then -1 else 1
  | .wedge => if n = 2 ∨ n = 3 then -1 else 1
  | _ => 1

/-- Source of cell `x` of a coordinate with active cells `s..e` and conditions `l`, `h` at the two ends. -/
def cellSrc (l h : BC) (s e x : Int) : Int := if x < s then l.lo s x else if e < x then h.hi e x else x
/-- Source of face `x`, between the boundary faces `s` and `e+1`. -/
def faceSrc (l h : BC) (s e x : Int) : Int := if x < s then l.face s x else if e + 1 < x then h.face (e+1) x else x
/-- Sign of component `n` at index `x`; `e` is the last index that is not beyond the boundary. -/
def srcSgn (l h : BC) (m s e n x : Int) : K := if x < s then l.sgn m n else if e < x then h.sgn m n else 1

/-- `x` is a ghost index set by a boundary function. -/
def Phys (l h : BC) (s e x : Int) : Prop := (x < s ∧ l ≠ .comm) ∨ (e < x ∧ h ≠ .comm)

/-- The conditions in force: none in a direction the block does not extend in. -/
def eff (d : Dims) (bc : Side → BC) : Side → BC
  | .i1 => bc .i1
  | .o1 => bc .o1
  | .i2 => if d.nx2 > 1 then bc .i2 else .comm
  | .o2 => if d.nx2 > 1 then bc .o2 else .comm
  | .i3 => if d.nx3 > 1 then bc .i3 else .comm
  | .o3 => if d.nx3 > 1 then bc .o3 else .comm

/-- Ghost cells in each direction. -/
def Dims.g2 (d : Dims) : Int := if d.nx2 > 1 then d.ng else 0
@[inherit_doc Dims.g2] def Dims.g3 (d : Dims) : Int := if d.nx3 > 1 then d.ng else 0

/-- Cells of the block with its ghost cells, enlarged by `(c, b, a)` at the upper ends (for faces). -/
def Dims.Ext (d : Dims) (c b a : Int) (k j i : Int) : Prop :=
  (d.ks - d.g3 ≤ k ∧ k ≤ d.ke + d.g3 + c) ∧ (d.js - d.g2 ≤ j ∧ j ≤ d.je + d.g2 + b) ∧ (d.is - d.ng ≤ i ∧ i ≤ d.ie + d.ng + a)

/-- Conserved variables and cell-centred field agree with the primitive variables and the faces at a cell. -/
def Coherent (c : Conv K) (st : Blk K) (k j i : Int) : Prop :=
  (∀ m, 0 ≤ m ∧ m ≤ 2 → st.bcc (m, k, j, i) = c.ccf (k, j, i) (st.b.around k j i).1 (st.b.around k j i).2.1 (st.b.around k j i).2.2 m) ∧
  ∀ n, 0 ≤ n ∧ n ≤ c.nu → st.u (n, k, j, i) = c.p2c (fun n => st.w (n, k, j, i)) (fun n => st.bcc (n, k, j, i)) n

/-- Block sizes at least the number of ghost cells, and a polar wedge only on x2 sides (with room for the pole faces of both sides). -/
structure Fits (d : Dims) (bc : Side → BC) : Prop where
  ok : d.Ok
  ng : 0 ≤ d.ng
  f1 : d.ng ≤ d.nx1
  f2 : d.nx2 > 1 → d.ng ≤ d.nx2
  f3 : d.nx3 > 1 → d.ng ≤ d.nx3
  w1 : bc .i1 ≠ .wedge ∧ bc .o1 ≠ .wedge
  w3 : d.nx3 > 1 → bc .i3 ≠ .wedge ∧ bc .o3 ≠ .wedge
  z : d.nx2 > 1 → bc .i2 = .wedge ∨ bc .o2 = .wedge → d.ng < d.nx2

/-- `j` is a face on the pole. -/
def OnPole (d : Dims) (bc : Side → BC) (j : Int) : Prop :=
  (eff d bc .i2 = .wedge ∧ j = d.js) ∨ (eff d bc .o2 = .wedge ∧ j = d.je + 1)
instance (d : Dims) (bc : Side → BC) (j : Int) : Decidable (OnPole d bc j) := by unfold OnPole; infer_instance

end Verif.Grid
