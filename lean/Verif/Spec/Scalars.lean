import Verif.Model.Scalars
import Verif.Spec.Reconstruct
import Verif.Model.Integrator
import Mathlib.Algebra.Module.Submodule.Basic
import Mathlib.Algebra.Module.Prod
import Mathlib.Algebra.Module.Pi
import Mathlib.Tactic.Ring

/-!
# What the transport of passive scalars should do
-/
namespace Verif.Scalars
open Verif.Grid Verif.Recon
variable {K : Type} [Field K] [LinearOrder K]

/-- Conditions under which a reconstruction reproduces constants: the loops of the minmod limiter in the x1-direction
reach all scalars (`NSCALARS ≤ NWAVE`), the limiter ratios of PPM are not negative. -/
def Rec.Consistent (ns : Nat) : Rec K → Prop
  | .donor => True
  | .plm mm _ _ nwave => mm = true → (ns : Int) ≤ nwave
  | .ppm _ _ _ w => ∀ i, 0 ≤ w.hp i ∧ 0 ≤ w.hm i

/-- Conditions under which the interface values are limited. `kap` is 1 for donor cell, 2 for PLM on a mesh whose cell
centres are midpoints, `1 + hp` for PPM except on uniform Cartesian directions. -/
def Rec.Limited (third : Bool) (ns : Nat) (kap : K) : Rec K → Prop
  | .donor => 1 ≤ kap
  | .plm mm flat m nwave => 2 ≤ kap ∧ (mm = true → (ns : Int) ≤ nwave) ∧ ∀ i, m.Cell i ∧ m.Mid i ∧
      (mm = false → flat = false → if third then
          2 * (m.xf (i + 1) - m.xv i) ≤ m.xv (i + 1) - m.xv i ∧ 2 * (m.xv i - m.xf i) ≤ m.xv i - m.xv (i - 1)
        else m.Smooth i)
  | .ppm _ uniform curv w => (uniform = false ∨ (curv && !third) = true) ∧
      ∀ i, 1 ≤ w.hp i ∧ w.hp i ≤ kap - 1 ∧ 1 ≤ w.hm i ∧ w.hm i ≤ kap - 1

/-- Mass leaving cell `(k,j,i)` per unit time through its faces. -/
def outflow (d : Dims) (G : Geom K) (H : Flx K) (k j i : Int) : K :=
  (G.a1 (k, j, i + 1) * max (H.x1 (0, k, j, i + 1)) 0 + G.a1 (k, j, i) * max (-H.x1 (0, k, j, i)) 0)
  + (if d.nx2 > 1 then
      G.a2 (k, j + 1, i) * max (H.x2 (0, k, j + 1, i)) 0 + G.a2 (k, j, i) * max (-H.x2 (0, k, j, i)) 0 else 0)
  + (if d.nx3 > 1 then
      G.a3 (k + 1, j, i) * max (H.x3 (0, k + 1, j, i)) 0 + G.a3 (k, j, i) * max (-H.x3 (0, k, j, i)) 0 else 0)

/-- `(k,j,i)` is a cell of the interior of the block. -/
def Active (d : Dims) (k j i : Int) : Prop :=
  (d.ks ≤ k ∧ k ≤ d.ke) ∧ (d.js ≤ j ∧ j ≤ d.je) ∧ (d.is ≤ i ∧ i ≤ d.ie)

/-- The cell `(k,j,i)` and its face neighbours (in the directions the mesh has). -/
def Near (d : Dims) (k j i k' j' i' : Int) : Prop :=
  (k' = k ∧ j' = j ∧ (i' = i ∨ i' = i - 1 ∨ i' = i + 1)) ∨
  (d.nx2 > 1 ∧ k' = k ∧ i' = i ∧ (j' = j - 1 ∨ j' = j + 1)) ∨
  (d.nx3 > 1 ∧ j' = j ∧ i' = i ∧ (k' = k - 1 ∨ k' = k + 1))

/-- The states with which the stages begin. -/
def stageInputs {V : Type} [AddCommGroup V] [Module ℚ V] (g : Integrator.Integ) (P : Integrator.Phys V) (first : Bool) :
    Nat → List Integrator.Stage → Integrator.Regs V → List V
  | _, [], _ => []
  | n, st :: sts, r => r.u :: match Integrator.stageStep g P first n st r with
    | some r' => stageInputs g P first (n + 1) sts r'
    | none => []

/-- The states with which the stages of a step from `u` begin. -/
def stepInputs {V : Type} [AddCommGroup V] [Module ℚ V] (g : Integrator.Integ) (orb : Nat) (sm : Bool)
    (P : Integrator.Phys V) (u : V) : List V :=
  match Integrator.stages g orb sm with
  | none => []
  | some sts => stageInputs g P (match sts with | [] => false | st :: _ => st.orbital) 1 sts
      ⟨u, 0, if g = .ssprk54 then some u else none⟩

/-- States `(u, s)` in which scalar `n` is `q n` times the density in all interior cells. -/
def Proportional (d : Dims) (ns : Nat) (q : Int → ℚ) : Submodule ℚ (A4 ℚ × A4 ℚ) where
  carrier := {p | ∀ n k j i : Int, 0 ≤ n → n < ns → Active d k j i → p.2 (n, k, j, i) = q n * p.1 (0, k, j, i)}
  add_mem' := by
    intro a b ha hb n k j i h1 h2 h3
    simp only [Prod.fst_add, Prod.snd_add, Pi.add_apply]
    rw [ha n k j i h1 h2 h3, hb n k j i h1 h2 h3]; ring
  zero_mem' := by intro n k j i _ _ _; simp
  smul_mem' := by
    intro c a ha n k j i h1 h2 h3
    simp only [Prod.smul_fst, Prod.smul_snd, Pi.smul_apply, smul_eq_mul]
    rw [ha n k j i h1 h2 h3]; ring

/-- States with positive density in the interior. -/
def Positive (d : Dims) (us : A4 ℚ × A4 ℚ) : Prop := ∀ k j i, Active d k j i → 0 < us.1 (0, k, j, i)

end Verif.Scalars
