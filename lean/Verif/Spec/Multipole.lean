import Verif.Spec.Multigrid
import Verif.Model.MgMultipole

/-!
# Multipole expansion of the potential of a distribution of mass: vocabulary
-/
namespace Verif.Mg
open Verif.Grid (A3)

/-- Legendre's polynomials by Bonnet's recursion `(n+2) P_{n+2} = (2n+3) t P_{n+1} - (n+1) P_n`. -/
noncomputable def legendre : ℕ → ℝ → ℝ
  | 0, _ => 1
  | 1, t => t
  | n + 2, t => ((2 * n + 3) * t * legendre (n + 1) t - (n + 1) * legendre n t) / (n + 2)

/-- Length of a vector. -/
noncomputable def len (p : ℝ × ℝ × ℝ) : ℝ := Real.sqrt (p.1 ^ 2 + p.2.1 ^ 2 + p.2.2 ^ 2)

/-- Scalar product. -/
def dot (p q : ℝ × ℝ × ℝ) : ℝ := p.1 * q.1 + p.2.1 * q.2.1 + p.2.2 * q.2.2

/-- The multipole of order `l` in the expansion of `1 / |p - q|` in powers of `|q| / |p|`. -/
noncomputable def pole (l : ℕ) (p q : ℝ × ℝ × ℝ) : ℝ :=
  len q ^ l / len p ^ (l + 1) * legendre l (dot p q / (len p * len q))

/-- The expansion up to order `L`. -/
noncomputable def expansion (L : ℕ) (p q : ℝ × ℝ × ℝ) : ℝ := ∑ l ∈ Finset.range (L + 1), pole l p q

/-- The cell centre seen from the origin of the expansion. -/
def MpBlock.at (m : MpBlock) (cfg : MpCfg) (c : ℤ × ℤ × ℤ) : ℝ × ℝ × ℝ :=
  (m.coord.x1v c.2.2 - cfg.ox, m.coord.x2v c.2.1 - cfg.oy, m.coord.x3v c.1 - cfg.oz)

/-- Sum over all cells of all MeshBlocks, weighted with the mass of the cell, source times volume. -/
noncomputable def massSum (bs : List MpBlock) (f : MpBlock → ℤ × ℤ × ℤ → ℝ) : ℝ :=
  (bs.map fun m => m.b.total fun c => m.src c * m.vol * f m c).sum

/-- The potential of the cells as point masses, `∇²Φ = src`, expanded up to order `L` at the point `p` seen from the
origin of the expansion. -/
noncomputable def potential (L : ℕ) (cfg : MpCfg) (bs : List MpBlock) (p : ℝ × ℝ × ℝ) : ℝ :=
  -1 / (4 * Real.pi) * massSum bs fun m c => expansion L p (m.at cfg c)

/-- The first moments of the mass about the origin of the expansion vanish. -/
def NoDipole (cfg : MpCfg) (bs : List MpBlock) : Prop :=
  massSum bs (fun m c => (m.at cfg c).1) = 0 ∧ massSum bs (fun m c => (m.at cfg c).2.1) = 0 ∧
  massSum bs (fun m c => (m.at cfg c).2.2) = 0

end Verif.Mg
