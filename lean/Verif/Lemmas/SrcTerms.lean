import Verif.Spec.SrcTerms
import Verif.Lemmas.Coord
import Mathlib.Analysis.SpecialFunctions.Sqrt
import Mathlib.Analysis.SpecialFunctions.Trigonometric.Deriv

/-! # Source terms: reduction of the loops to one cell -/
namespace Verif.SrcTerms
open Verif.Grid Verif.Coord Verif.Arr

variable (C : Conf) (d : Dims) (D : Data) (dt : ℝ)

/-- A loop body that adds to momentum and energy of its own cell something that does not depend on the content. -/
structure CellFn (f : ℤ → ℤ → ℤ → A4 ℝ → A4 ℝ) : Prop where
  off : ∀ k j i u n q, q ≠ (k, j, i) → f k j i u (n, q) = u (n, q)
  at_ : ∀ k j i u n, f k j i u (n, k, j, i) = u (n, k, j, i) + f k j i (fun _ => 0) (n, k, j, i)
  only : ∀ k j i n, n < 1 ∨ 4 < n → f k j i (fun _ => 0) (n, k, j, i) = 0

instance (k j i : ℤ) : Decidable (Active d k j i) := by unfold Active; infer_instance

variable {f : ℤ → ℤ → ℤ → A4 ℝ → A4 ℝ}

theorem cells_at (h : CellFn f) (u : A4 ℝ) (n k j i : ℤ) :
    cells d f u (n, k, j, i) = u (n, k, j, i) + if Active d k j i then f k j i (fun _ => 0) (n, k, j, i) else 0 := by
  unfold cells
  rw [loop_cells d f h.off]
  · by_cases ha : Active d k j i
    · rw [if_pos ha, if_pos (show _ ∧ _ from ha), h.at_]
    · rw [if_neg ha, if_neg (show ¬ (_ ∧ _) from ha), add_zero]
  · intro k j i u v e n
    rw [h.at_, h.at_ k j i v, e]

theorem plane_at (h : CellFn f) (u : A4 ℝ) (n k j i : ℤ) :
    plane d f u (n, k, j, i) = u (n, k, j, i) +
      if k = d.ks ∧ (d.js ≤ j ∧ j ≤ d.je) ∧ (d.is ≤ i ∧ i ≤ d.ie) then f k j i (fun _ => 0) (n, k, j, i) else 0 := by
  have h' := cells_fold (prodL (rng d.js d.je) (rng d.is d.ie)) (fun x => (d.ks, x.1, x.2))
    (fun x => f d.ks x.1 x.2) (fun x u n q hq => h.off _ _ _ u n q hq)
    (fun x u v e n => by rw [h.at_, h.at_ _ _ _ v, e])
    (by
      apply List.Nodup.map
      · rintro ⟨a, b⟩ ⟨c, e⟩ h
        simpa using h
      · exact nodup_prodL (nodup_rng _ _) (nodup_rng _ _)) u
  simp only [foldl_prodL] at h'
  by_cases hc : k = d.ks ∧ (d.js ≤ j ∧ j ≤ d.je) ∧ (d.is ≤ i ∧ i ≤ d.ie)
  · rw [if_pos hc]
    obtain ⟨rfl, hj, hi⟩ := hc
    have := h'.1 (j, i) (by simp only [mem_prodL, mem_rng]; exact ⟨hj, hi⟩) n
    rw [← h.at_]
    exact this
  · rw [if_neg hc, add_zero]
    refine h'.2 (k, j, i) ?_ n
    simp only [List.mem_map, mem_prodL, mem_rng, Prod.mk.injEq, Prod.exists]
    rintro ⟨a, b, ⟨ha, hb⟩, rfl, rfl, rfl⟩
    exact hc ⟨rfl, ha, hb⟩

theorem addE_at (k j i : ℤ) (x : ℝ) (u : A4 ℝ) (n : ℤ) :
    addE C k j i x u (n, k, j, i) = u (n, k, j, i) + if C.nonBaro = true ∧ n = 4 then x else 0 := by
  unfold addE
  by_cases h : C.nonBaro = true
  · rw [if_pos h, add_at]; simp [h]
  · rw [if_neg h]; simp [h]
theorem addE_off (k j i : ℤ) (x : ℝ) (u : A4 ℝ) (n : ℤ) (q : ℤ × ℤ × ℤ) (h : q ≠ (k, j, i)) :
    addE C k j i x u (n, q) = u (n, q) := by
  unfold addE
  split
  · exact add_off _ _ _ _ _ _ _ _ h
  · rfl

local macro "cellfn" x:ident : tactic => `(tactic|
  (constructor
   · intro k j i u n q h
     simp only [$x:ident, addE_off, add_off, sub_off, h, ne_eq, not_false_eq_true]
   · intro k j i u n
     simp only [$x:ident, addE_at, add_at, sub_at]
     ring
   · intro k j i n hn
     have n1 : n ≠ 1 := by omega
     have n2 : n ≠ 2 := by omega
     have n3 : n ≠ 3 := by omega
     have n4 : n ≠ 4 := by omega
     simp only [$x:ident, addE_at, add_at, sub_at, n1, n2, n3, n4, and_false, if_false, add_zero, sub_zero]))

theorem rotCyl_fn : CellFn (rotCyl C D dt) := by cellfn rotCyl
theorem rotSph_fn : CellFn (rotSph C d D dt) := by cellfn rotSph
theorem oaCart_fn : CellFn (oaCart C D dt) := by cellfn oaCart
theorem oaCyl3_fn : CellFn (oaCyl3 C D dt) := by cellfn oaCyl3
theorem oaCyl2_fn : CellFn (oaCyl2 C D dt) := by cellfn oaCyl2
theorem oaCylUser_fn : CellFn (oaCylUser C D dt) := by cellfn oaCylUser
theorem oaSph_fn : CellFn (oaSph C d D dt) := by cellfn oaSph
theorem boxCell_fn {n : ℤ} (hn : n = 2 ∨ n = 3) : CellFn (boxCell C D dt n) := by
  rcases hn with rfl | rfl <;> cellfn boxCell

theorem oaCartUser_fn : CellFn (oaCartUser C d D dt) := by
  constructor
  · intro k j i u n q h
    simp only [oaCartUser]
    split_ifs <;> simp only [addE_off, add_off, sub_off, h, ne_eq, not_false_eq_true]
  · intro k j i u n
    simp only [oaCartUser]
    by_cases h3 : d.nx3 > 1
    · simp only [if_pos h3]
      by_cases h4 : D.dvKc2 k i ≠ 0
      · simp only [if_pos h4]
        cases C.mhd <;> simp only [if_true, Bool.false_eq_true, if_false, addE_at, add_at, sub_at] <;> ring
      · simp only [if_neg h4, addE_at, add_at, sub_at]
        ring
    · simp only [if_neg h3, addE_at, add_at, sub_at]
      ring
  · intro k j i n hn
    have n1 : n ≠ 1 := by omega
    have n2 : n ≠ 2 := by omega
    have n3 : n ≠ 3 := by omega
    have n4 : n ≠ 4 := by omega
    simp only [oaCartUser]
    split_ifs <;> simp only [addE_at, add_at, sub_at, n1, n2, n3, n4, and_false, if_false, add_zero, sub_zero]

/-- The bodies of the loops of the other functions, for reference in proofs. -/
noncomputable def pmCell (k j i : ℤ) (u : A4 ℝ) : A4 ℝ :=
  let den := D.prim (0,k,j,i)
  let src := dt * den * ri C.c D.X i * C.gm / x1v D.X C.c i
  let u := sub 1 k j i src u
  addE C k j i (-(dt * 0.5 * (phy1 C.c D.X i * D.F.x1 (0,k,j,i) * C.gm + phy2 C.c D.X i * D.F.x1 (0,k,j,i+1) * C.gm))) u
theorem pointMass_eq : pointMass C d D dt = cells d (pmCell C D dt) := rfl
theorem pmCell_fn : CellFn (pmCell C D dt) := by cellfn pmCell

@[inherit_doc pmCell] def accCell (m : ℤ) (g : ℝ) (k j i : ℤ) (u : A4 ℝ) : A4 ℝ :=
  let src := dt * D.prim (0,k,j,i) * g
  let u := add m k j i src u
  addE C k j i (src * D.prim (m,k,j,i)) u
theorem constAcc1_eq (m : ℤ) (g : ℝ) : constAcc1 C d D dt m g = cells d (accCell C D dt m g) := rfl
theorem accCell_fn {m : ℤ} (hm : m = 1 ∨ m = 2 ∨ m = 3) (g : ℝ) : CellFn (accCell C D dt m g) := by
  rcases hm with rfl | rfl | rfl <;> cellfn accCell

@[inherit_doc pmCell] noncomputable def sgCell (n : ℤ) (x : ℤ → ℤ → ℤ → ℝ) (Fn : A4 ℝ) (m p : ℤ → ℤ → ℤ → ℤ × ℤ × ℤ) (k j i : ℤ)
    (u : A4 ℝ) : A4 ℝ :=
  let hdtodx := 0.5 * dt / x k j i
  let dpl := -(D.phi (k,j,i) - D.phi (m k j i))
  let dpr := -(D.phi (p k j i) - D.phi (k,j,i))
  let u := add n k j i (hdtodx * D.prim (0,k,j,i) * (dpl + dpr)) u
  addE C k j i (hdtodx * (Fn (0,k,j,i) * dpl + Fn (0, p k j i) * dpr)) u
theorem selfGrav1_eq (n : ℤ) (x : ℤ → ℤ → ℤ → ℝ) (Fn : A4 ℝ) (m p : ℤ → ℤ → ℤ → ℤ × ℤ × ℤ) :
    selfGrav1 C d D dt n x Fn m p = cells d (sgCell C D dt n x Fn m p) := rfl
theorem sgCell_fn {n : ℤ} (hn : n = 1 ∨ n = 2 ∨ n = 3) (x : ℤ → ℤ → ℤ → ℝ) (Fn : A4 ℝ) (m p : ℤ → ℤ → ℤ → ℤ × ℤ × ℤ) :
    CellFn (sgCell C D dt n x Fn m p) := by
  rcases hn with rfl | rfl | rfl <;> cellfn sgCell


/-- What `OrbitalAdvectionSourceTerms` adds to a cell. -/
noncomputable def oaI (n k j i : ℤ) : ℝ :=
  match C.c with
  | .cartesian => if C.userVel = false then oaCart C D dt k j i (fun _ => 0) (n,k,j,i) else oaCartUser C d D dt k j i (fun _ => 0) (n,k,j,i)
  | .cylindrical =>
    if C.userVel = false then
      if d.nx3 > 1 then oaCyl3 C D dt k j i (fun _ => 0) (n,k,j,i) else oaCyl2 C D dt k j i (fun _ => 0) (n,k,j,i)
    else if d.nx3 = 1 then oaCylUser C D dt k j i (fun _ => 0) (n,k,j,i) else 0
  | .spherical => oaSph C d D dt k j i (fun _ => 0) (n,k,j,i)
/-- What `ShearingBoxSourceTerms` adds to a cell. -/
noncomputable def boxI (n k j i : ℤ) : ℝ :=
  if C.shbox = 1 then boxCell C D dt 2 k j i (fun _ => 0) (n,k,j,i)
  else if k = d.ks then boxCell C D dt 3 k j i (fun _ => 0) (n,k,j,i) else 0
/-- What `RotatingSystemSourceTerms` adds to a cell. -/
noncomputable def rotI (n k j i : ℤ) : ℝ :=
  match C.c with
  | .cartesian => 0
  | .cylindrical => rotCyl C D dt k j i (fun _ => 0) (n,k,j,i)
  | .spherical => rotSph C d D dt k j i (fun _ => 0) (n,k,j,i)
/-- What `PointMass`, `ConstantAcceleration` and `SelfGravity` add to a cell. -/
noncomputable def pmI (n k j i : ℤ) : ℝ := pmCell C D dt k j i (fun _ => 0) (n,k,j,i)
@[inherit_doc pmI] noncomputable def accI (n k j i : ℤ) : ℝ :=
  accCell C D dt 1 C.g1 k j i (fun _ => 0) (n,k,j,i) + accCell C D dt 2 C.g2 k j i (fun _ => 0) (n,k,j,i)
    + accCell C D dt 3 C.g3 k j i (fun _ => 0) (n,k,j,i)
@[inherit_doc pmI] noncomputable def sgI (n k j i : ℤ) : ℝ :=
  sgCell C D dt 1 (fun _ _ i => dxv D.X.x1 i) D.F.x1 (fun k j i => (k,j,i-1)) (fun k j i => (k,j,i+1)) k j i (fun _ => 0) (n,k,j,i)
  + (if d.nx2 > 1 then sgCell C D dt 2 (fun _ j _ => dxv D.X.x2 j) D.F.x2 (fun k j i => (k,j-1,i)) (fun k j i => (k,j+1,i)) k j i (fun _ => 0) (n,k,j,i) else 0)
  + (if d.nx3 > 1 then sgCell C D dt 3 (fun k _ _ => dxv D.X.x3 k) D.F.x3 (fun k j i => (k-1,j,i)) (fun k j i => (k+1,j,i)) k j i (fun _ => 0) (n,k,j,i) else 0)

/-- What all source terms add to a cell. -/
noncomputable def tot (f : Flags) (n k j i : ℤ) : ℝ :=
  (if f.pointMass then pmI C D dt n k j i else 0) + accI C D dt n k j i + (if C.selfGravity then sgI C d D dt n k j i else 0)
  + (if f.shear = 1 then oaI C d D dt n k j i else if f.shear = 2 then boxI C d D dt n k j i
     else if f.shear = 3 then rotI C d D dt n k j i else 0)

theorem ks_of_nx3 (h : ¬ d.nx3 > 1) {k : ℤ} (hk : d.ks ≤ k ∧ k ≤ d.ke) : k = d.ks := by
  simp only [Dims.ks, Dims.ke, h, if_false] at *
  omega

theorem plane_at' (h : CellFn f) (h3 : ¬ d.nx3 > 1) (u : A4 ℝ) (n k j i : ℤ) :
    plane d f u (n, k, j, i) = u (n, k, j, i) + if Active d k j i then f k j i (fun _ => 0) (n, k, j, i) else 0 := by
  rw [plane_at d h]
  congr 1
  by_cases ha : Active d k j i
  · rw [if_pos ha, if_pos ⟨ks_of_nx3 d h3 ha.1, ha.2⟩]
  · rw [if_neg ha, if_neg]
    rintro ⟨rfl, h2⟩
    exact ha ⟨⟨le_refl _, by simp [Dims.ks, Dims.ke, h3]⟩, h2⟩

theorem orbital_at (u : A4 ℝ) (n k j i : ℤ) :
    orbital C d D dt u (n, k, j, i) = u (n, k, j, i) + if Active d k j i then oaI C d D dt n k j i else 0 := by
  unfold orbital oaI
  cases C.c
  · simp only []
    split
    · exact cells_at d (oaCart_fn C D dt) ..
    · exact cells_at d (oaCartUser_fn C d D dt) ..
  · simp only []
    split
    · split
      · exact cells_at d (oaCyl3_fn C D dt) ..
      · next h => exact plane_at' d (oaCyl2_fn C D dt) h ..
    · split
      · next h => exact plane_at' d (oaCylUser_fn C D dt) (by omega) ..
      · simp
  · exact cells_at d (oaSph_fn C d D dt) ..

theorem shearingBox_at (hd : d.ks ≤ d.ke) (u : A4 ℝ) (n k j i : ℤ) :
    shearingBox C d D dt u (n, k, j, i) = u (n, k, j, i) + if Active d k j i then boxI C d D dt n k j i else 0 := by
  unfold shearingBox boxI
  split
  · exact cells_at d (boxCell_fn C D dt (by simp)) ..
  · rw [plane_at d (boxCell_fn C D dt (by simp))]
    congr 1
    by_cases hk : k = d.ks
    · subst hk
      by_cases h2 : (d.js ≤ j ∧ j ≤ d.je) ∧ (d.is ≤ i ∧ i ≤ d.ie)
      · rw [if_pos ⟨rfl, h2⟩, if_pos ⟨⟨le_refl _, hd⟩, h2⟩, if_pos rfl]
      · rw [if_neg (fun h => h2 h.2), if_neg (fun h => h2 h.2)]
    · rw [if_neg (fun h => hk h.1), if_neg hk]
      simp

theorem rotating_at (u u' : A4 ℝ) (h : rotating C d D dt u = some u') (n k j i : ℤ) :
    u' (n, k, j, i) = u (n, k, j, i) + if Active d k j i then rotI C d D dt n k j i else 0 := by
  unfold rotating at h
  unfold rotI
  cases hc : C.c <;> rw [hc] at h <;> simp only [] at h ⊢
  · simp only [Option.some.injEq] at h
    subst h; simp
  · simp only [Option.some.injEq] at h
    subst h
    exact cells_at d (rotCyl_fn C D dt) ..
  · split at h
    · exact absurd h (by simp)
    · simp only [Option.some.injEq] at h
      subst h
      exact cells_at d (rotSph_fn C d D dt) ..

theorem accCell_zero (m : ℤ) (n k j i : ℤ) : accCell C D dt m 0 k j i (fun _ => 0) (n,k,j,i) = 0 := by
  simp [accCell, addE_at, add_at]

theorem constAcc_at (u : A4 ℝ) (n k j i : ℤ) :
    constAcc C d D dt u (n, k, j, i) = u (n, k, j, i) + if Active d k j i then accI C D dt n k j i else 0 := by
  unfold constAcc accI
  simp only [constAcc1_eq]
  have key : ∀ (m : ℤ) (g : ℝ) (u : A4 ℝ), (m = 1 ∨ m = 2 ∨ m = 3) →
      (if g ≠ 0 then cells d (accCell C D dt m g) u else u) (n, k, j, i) = u (n, k, j, i) +
        if Active d k j i then accCell C D dt m g k j i (fun _ => 0) (n,k,j,i) else 0 := by
    intro m g u hm
    by_cases hg : g = 0
    · subst hg
      rw [accCell_zero]; simp
    · rw [if_pos hg, cells_at d (accCell_fn C D dt hm g)]
  rw [key _ _ _ (by simp), key _ _ _ (by simp), key _ _ _ (by simp)]
  split <;> ring

theorem selfGravity_at (u : A4 ℝ) (n k j i : ℤ) :
    selfGravity C d D dt u (n, k, j, i) = u (n, k, j, i) + if Active d k j i then sgI C d D dt n k j i else 0 := by
  unfold selfGravity sgI
  simp only [selfGrav1_eq]
  split_ifs <;> simp only [cells_at d (sgCell_fn C D dt (by simp : (1:ℤ) = 1 ∨ _ ∨ _) _ _ _ _), cells_at d (sgCell_fn C D dt (by simp : (2:ℤ) = 1 ∨ _ ∨ _) _ _ _ _),
    cells_at d (sgCell_fn C D dt (by simp : (3:ℤ) = 1 ∨ _ ∨ _) _ _ _ _), if_true, if_false, *] <;> ring

theorem accI_zero (h : ¬ (C.g1 ≠ 0 ∨ C.g2 ≠ 0 ∨ C.g3 ≠ 0)) (n k j i : ℤ) : accI C D dt n k j i = 0 := by
  push Not at h
  unfold accI
  rw [h.1, h.2.1, h.2.2, accCell_zero, accCell_zero, accCell_zero]
  norm_num

/-- All source terms of one cell. -/
theorem addSourceTerms_at (hd : d.ks ≤ d.ke) {f : Flags} {u u' : A4 ℝ} (h : addSourceTerms C d D dt f none u = some u') (n k j i : ℤ) :
    u' (n, k, j, i) = u (n, k, j, i) + if Active d k j i then tot C d D dt f n k j i else 0 := by
  unfold addSourceTerms at h
  simp only [Option.bind_eq_bind, Option.bind_some] at h
  generalize e3 : (if C.selfGravity = true then selfGravity C d D dt _ else _) = u3 at h
  have h3 : u3 (n,k,j,i) = u (n,k,j,i) + if Active d k j i then
      (if f.pointMass then pmI C D dt n k j i else 0) + accI C D dt n k j i + (if C.selfGravity then sgI C d D dt n k j i else 0) else 0 := by
    rw [← e3]
    have a1 : ∀ u, (if f.pointMass = true then pointMass C d D dt u else u) (n,k,j,i) =
        u (n,k,j,i) + if Active d k j i then (if f.pointMass then pmI C D dt n k j i else 0) else 0 := by
      intro u
      by_cases hf : f.pointMass = true
      · rw [if_pos hf, if_pos hf, pointMass_eq, cells_at d (pmCell_fn C D dt)]; rfl
      · rw [if_neg hf, if_neg hf]; simp
    have a2 : ∀ u, (if C.g1 ≠ 0 ∨ C.g2 ≠ 0 ∨ C.g3 ≠ 0 then constAcc C d D dt u else u) (n,k,j,i) =
        u (n,k,j,i) + if Active d k j i then accI C D dt n k j i else 0 := by
      intro u
      by_cases hf : C.g1 ≠ 0 ∨ C.g2 ≠ 0 ∨ C.g3 ≠ 0
      · rw [if_pos hf, constAcc_at]
      · rw [if_neg hf, accI_zero C D dt hf]; simp
    have a3 : ∀ u, (if C.selfGravity = true then selfGravity C d D dt u else u) (n,k,j,i) =
        u (n,k,j,i) + if Active d k j i then (if C.selfGravity then sgI C d D dt n k j i else 0) else 0 := by
      intro u
      by_cases hf : C.selfGravity = true
      · rw [if_pos hf, if_pos hf, selfGravity_at]
      · rw [if_neg hf, if_neg hf]; simp
    rw [a3, a2, a1]
    split <;> ring
  have h4 : u' (n,k,j,i) = u3 (n,k,j,i) + if Active d k j i then (if f.shear = 1 then oaI C d D dt n k j i else if f.shear = 2 then boxI C d D dt n k j i
     else if f.shear = 3 then rotI C d D dt n k j i else 0) else 0 := by
    split at h
    · next hs =>
      simp only [Option.some.injEq] at h
      rw [← h, orbital_at, if_pos hs]
    · next hs1 =>
      split at h
      · next hs =>
        simp only [Option.some.injEq] at h
        rw [← h, shearingBox_at C d D dt hd, if_neg hs1, if_pos hs]
      · next hs2 =>
        split at h
        · next hs =>
          rw [rotating_at C d D dt u3 u' (by simpa using h), if_neg hs1, if_neg hs2, if_pos hs]
        · next hs3 =>
          simp only [Option.some.injEq] at h
          rw [← h, if_neg hs1, if_neg hs2, if_neg hs3]; simp
  rw [h4, h3]
  unfold tot
  split <;> ring


section Zero
variable {n : ℤ} (n1 : n ≠ 1) (n2 : n ≠ 2) (n3 : n ≠ 3) (n4 : ¬ (C.nonBaro = true ∧ n = 4)) (k j i : ℤ)
include n1 n2 n3 n4
theorem pmI_zero : pmI C D dt n k j i = 0 := by
  simp only [pmI, pmCell, addE_at, sub_at, n1, n4, if_false, add_zero, sub_zero]
theorem accI_zero' : accI C D dt n k j i = 0 := by
  simp only [accI, accCell, addE_at, add_at, n1, n2, n3, n4, if_false, add_zero]
theorem sgI_zero : sgI C d D dt n k j i = 0 := by
  simp only [sgI, sgCell, addE_at, add_at, n1, n2, n3, n4, if_false, add_zero, ite_self]
theorem boxI_zero : boxI C d D dt n k j i = 0 := by
  simp only [boxI, boxCell, addE_at, add_at, sub_at, n1, n2, n3, n4, if_false, add_zero, sub_zero, ite_self]
theorem rotI_zero : rotI C d D dt n k j i = 0 := by
  unfold rotI
  cases C.c <;> simp only [rotCyl, rotSph, addE_at, add_at, sub_at, n1, n2, n3, n4, if_false, add_zero, sub_zero]
theorem oaI_zero : oaI C d D dt n k j i = 0 := by
  have a1 : oaCart C D dt k j i (fun _ => 0) (n,k,j,i) = 0 := by
    simp only [oaCart, addE_at, add_at, sub_at, n1, n2, n4, if_false, add_zero, sub_zero]
  have a2 : oaCartUser C d D dt k j i (fun _ => 0) (n,k,j,i) = 0 := by
    simp only [oaCartUser]
    split_ifs <;> simp only [addE_at, add_at, sub_at, n1, n2, n4, if_false, add_zero, sub_zero]
  have a3 : oaCyl3 C D dt k j i (fun _ => 0) (n,k,j,i) = 0 := by
    simp only [oaCyl3, addE_at, add_at, sub_at, n1, n2, n3, n4, if_false, add_zero, sub_zero]
  have a4 : oaCyl2 C D dt k j i (fun _ => 0) (n,k,j,i) = 0 := by
    simp only [oaCyl2, addE_at, add_at, sub_at, n1, n2, n4, if_false, add_zero, sub_zero]
  have a5 : oaCylUser C D dt k j i (fun _ => 0) (n,k,j,i) = 0 := by
    simp only [oaCylUser, addE_at, add_at, sub_at, n1, n2, n4, if_false, add_zero, sub_zero]
  have a6 : oaSph C d D dt k j i (fun _ => 0) (n,k,j,i) = 0 := by
    simp only [oaSph, addE_at, add_at, sub_at, n1, n2, n3, n4, if_false, add_zero, sub_zero]
  unfold oaI
  rw [a1, a2, a3, a4, a5, a6]
  cases C.c <;> simp only [ite_self]
theorem tot_zero (f : Flags) : tot C d D dt f n k j i = 0 := by
  unfold tot
  rw [pmI_zero C D dt n1 n2 n3 n4, accI_zero' C D dt n1 n2 n3 n4, sgI_zero C d D dt n1 n2 n3 n4, boxI_zero C d D dt n1 n2 n3 n4,
    rotI_zero C d D dt n1 n2 n3 n4, oaI_zero C d D dt n1 n2 n3 n4]
  simp only [ite_self, add_zero]
end Zero

/-! ## Work -/
section Work
variable {C d D dt}

/-- Work of an increment. -/
def wk (D : Data) (I : ℤ → ℤ → ℤ → ℤ → ℝ) (k j i : ℤ) : ℝ :=
  D.prim (1,k,j,i) * I 1 k j i + D.prim (2,k,j,i) * I 2 k j i + D.prim (3,k,j,i) * I 3 k j i

local macro "vals" "[" xs:Lean.Parser.Tactic.simpLemma,* "]" : tactic =>
  `(tactic| simp only [$xs,*, addE_at, add_at, sub_at, Int.reduceEq, if_true, if_false, and_false, and_true, add_zero, zero_add, sub_zero, zero_sub])

variable {k j i : ℤ}

theorem acc_work (hb : C.nonBaro = true) : accI C D dt 4 k j i = wk D (accI C D dt) k j i := by
  vals [wk, accI, accCell, hb]
  ring

theorem sg_work (hb : C.nonBaro = true) (hT : Through D k j i) : sgI C d D dt 4 k j i = wk D (sgI C d D dt) k j i := by
  have t1 := hT.x1 i (by simp)
  have t1' := hT.x1 (i+1) (by simp)
  have t2 := hT.x2 j (by simp)
  have t2' := hT.x2 (j+1) (by simp)
  have t3 := hT.x3 k (by simp)
  have t3' := hT.x3 (k+1) (by simp)
  unfold wk sgI
  vals [sgCell, hb, t1, t1', t2, t2', t3, t3']
  split_ifs <;> ring

theorem box_work (hb : C.nonBaro = true) (hc : C.c = .cartesian) (hT : Through D k j i) (g : Good .cartesian D.X k j i) :
    boxI C d D dt 4 k j i = wk D (boxI C d D dt) k j i := by
  have t1 := hT.x1 i (by simp)
  have t1' := hT.x1 (i+1) (by simp)
  have w : D.X.x1.xf (i+1) - D.X.x1.xf i ≠ 0 := by have := g.l1; linarith
  unfold wk boxI
  by_cases h1 : C.shbox = 1
  · simp only [if_pos h1]
    vals [boxCell, hb, t1, t1', hc, x1v, mid, g.d1]
    field_simp
    ring
  · simp only [if_neg h1]
    by_cases hk : k = d.ks
    · simp only [if_pos hk]
      vals [boxCell, hb, t1, t1', hc, x1v, mid, g.d1]
      field_simp
      ring
    · simp only [if_neg hk]
      ring


theorem cart_oa_work (hb : C.nonBaro = true) (hc : C.c = .cartesian) (hT : Through D k j i) (hu : C.userVel = false) :
    oaI C d D dt 4 k j i = wk D (oaI C d D dt) k j i
      + dt * shearPower C.mhd (D.bcc (0,k,j,i)) (D.bcc (2,k,j,i)) (D.bcc (1,k,j,i)) (-C.q * C.Omega) 0 := by
  have t1 := hT.x1 i (by simp)
  have t1' := hT.x1 (i+1) (by simp)
  unfold wk oaI shearPower
  rw [hc]
  simp only [hu, if_true]
  vals [oaCart, hb, t1, t1']
  split_ifs <;> ring

theorem cart_user_work (hb : C.nonBaro = true) (hc : C.c = .cartesian) (hT : Through D k j i) (g : Good .cartesian D.X k j i)
    (hu : C.userVel = true) (hv : D.vKf1 k i + D.vKf1 k (i+1) = 2 * D.vKc k i) :
    oaI C d D dt 4 k j i = wk D (oaI C d D dt) k j i
      + (if C.mhd then dt * (D.bcc (1,k,j,i) * D.bcc (0,k,j,i) * D.dvKc1 k i)
          + (if d.nx3 > 1 ∧ D.dvKc2 k i ≠ 0 then D.bcc (1,k,j,i) * D.bcc (2,k,j,i) else 0) else 0) := by
  have t1 := hT.x1 i (by simp)
  have t1' := hT.x1 (i+1) (by simp)
  have t3 := hT.x3 k (by simp)
  have t3' := hT.x3 (k+1) (by simp)
  have hv' : D.vKc k i = (D.vKf1 k i + D.vKf1 k (i+1)) / 2 := by linarith
  unfold wk oaI
  rw [hc]
  simp only [hu, Bool.true_eq_false, if_false]
  unfold oaCartUser
  by_cases h3 : d.nx3 > 1 <;> by_cases h4 : D.dvKc2 k i ≠ 0 <;> by_cases hm : C.mhd = true <;>
    simp only [h3, h4, hm, if_true, if_false, not_true_eq_false, ne_eq, not_false_eq_true, and_true, true_and, and_false, false_and,
      Bool.false_eq_true] <;>
    vals [hb, t1, t1', t3, t3', hc, x1v, mid, hv'] <;> ring

theorem src_j : Sph.src3_j D.X j = Sph.src1_j D.X j := rfl

theorem rot_work_cyl (hb : C.nonBaro = true) (hc : C.c = .cylindrical) (hT : Through D k j i) :
    rotI C d D dt 4 k j i = wk D (rotI C d D dt) k j i := by
  have t1 := hT.x1 i (by simp)
  have t1' := hT.x1 (i+1) (by simp)
  unfold wk rotI
  rw [hc]
  simp only []
  vals [rotCyl, hb, t1, t1']
  ring

theorem rot_work_sph (hb : C.nonBaro = true) (hc : C.c = .spherical) (hT : Through D k j i) :
    rotI C d D dt 4 k j i = wk D (rotI C d D dt) k j i
      + dt * (1 / x1v D.X .spherical i - Sph.src1_i D.X i) * frameVel .spherical D.X d.nx2 C.Omega (k, j, i) ^ 2 *
        D.prim (0,k,j,i) * (D.prim (1,k,j,i) + Sph.src1_j D.X j * D.prim (2,k,j,i)) := by
  have t1 := hT.x1 i (by simp)
  have t1' := hT.x1 (i+1) (by simp)
  have t2 := hT.x2 j (by simp)
  have t2' := hT.x2 (j+1) (by simp)
  unfold wk rotI
  rw [hc]
  simp only []
  vals [rotSph, hb, t1, t1', t2, t2', src_j, frameVel]
  ring

theorem cyl_ri (g : Good .cylindrical D.X k j i) : Cyl.src1_i D.X i = 2 / (D.X.x1.xf i + D.X.x1.xf (i+1)) := by
  have hl := g.l1
  have h0 := g.r0 (by simp)
  have w : D.X.x1.xf (i+1) - D.X.x1.xf i ≠ 0 := by linarith
  have h3 : D.X.x1.xf i + D.X.x1.xf (i+1) ≠ 0 := by linarith
  simp only [Cyl.src1_i, Cyl.vol_i, Cyl.area3_i, g.d1]
  have e : 0.5 * (D.X.x1.xf (i+1) * D.X.x1.xf (i+1) - D.X.x1.xf i * D.X.x1.xf i) =
    (D.X.x1.xf (i+1) - D.X.x1.xf i) * (D.X.x1.xf i + D.X.x1.xf (i+1)) / 2 := by ring
  rw [e]
  field_simp

theorem cyl_rv (g : Good .cylindrical D.X k j i) : 0 < x1v D.X .cylindrical i := by
  have hl := g.l1
  have h0 := g.r0 (by simp)
  simp only [x1v, cyl1]
  apply div_pos
  · have : D.X.x1.xf i ^ 3 < D.X.x1.xf (i+1) ^ 3 := pow_lt_pow_left₀ hl h0 (by norm_num)
    linarith
  · have : D.X.x1.xf i ^ 2 < D.X.x1.xf (i+1) ^ 2 := pow_lt_pow_left₀ hl h0 (by norm_num)
    linarith

theorem sph_rv (g : Good .spherical D.X k j i) : 0 < x1v D.X .spherical i := by
  have hl := g.l1
  have h0 := g.r0 (by simp)
  simp only [x1v]
  apply div_pos
  · have : D.X.x1.xf i ^ 4 < D.X.x1.xf (i+1) ^ 4 := pow_lt_pow_left₀ hl h0 (by norm_num)
    linarith
  · have : D.X.x1.xf i ^ 3 < D.X.x1.xf (i+1) ^ 3 := pow_lt_pow_left₀ hl h0 (by norm_num)
    linarith

theorem sph_ri_rv (g : Good .spherical D.X k j i) :
    0 ≤ Sph.src1_i D.X i - 1 / x1v D.X .spherical i ∧
    Sph.src1_i D.X i - 1 / x1v D.X .spherical i ≤ (D.X.x1.xf (i+1) - D.X.x1.xf i) ^ 2 / (D.X.x1.xf i + D.X.x1.xf (i+1)) ^ 3 := by
  have hl := g.l1
  have h0 := g.r0 (by simp)
  simp only [x1v, Sph.src1_i, Sph.area2_i, Sph.vol_i]
  generalize D.X.x1.xf (i+1) = b at *
  generalize D.X.x1.xf i = a at *
  have hb : 0 < b := by linarith
  have w : b - a ≠ 0 := by linarith
  have s : 0 < a + b := by linarith
  have q : 0 < a ^ 2 + b ^ 2 := by positivity
  have c : 0 < a ^ 2 + a * b + b ^ 2 := by positivity
  have e : 0.5 * (b * b - a * a) / (1 / 3 * (b * b * b - a * a * a)) - 1 / (0.75 * (b ^ 4 - a ^ 4) / (b ^ 3 - a ^ 3)) =
      (b - a) ^ 2 * (a ^ 2 + 4 * (a * b) + b ^ 2) / (6 * (a ^ 2 + a * b + b ^ 2) * (a + b) * (a ^ 2 + b ^ 2)) := by
    have e1 : 0.5 * (b * b - a * a) = (b - a) * (a + b) / 2 := by ring
    have e2 : 1 / 3 * (b * b * b - a * a * a) = (b - a) * (a ^ 2 + a * b + b ^ 2) / 3 := by ring
    have e3 : 0.75 * (b ^ 4 - a ^ 4) = (b - a) * ((a + b) * (a ^ 2 + b ^ 2)) * 3 / 4 := by ring
    have e4 : b ^ 3 - a ^ 3 = (b - a) * (a ^ 2 + a * b + b ^ 2) := by ring
    rw [e1, e2, e3, e4]
    field_simp
    ring
  rw [e]
  refine ⟨by positivity, ?_⟩
  rw [div_le_div_iff₀ (by positivity) (by positivity)]
  have h2 : 0 ≤ a * b := by positivity
  have key : (a ^ 2 + 4 * (a * b) + b ^ 2) * (a + b) ^ 3 ≤ 6 * (a ^ 2 + a * b + b ^ 2) * (a + b) * (a ^ 2 + b ^ 2) := by
    have k1 : (a ^ 2 + 4 * (a * b) + b ^ 2) * (a + b) ^ 2 ≤ 6 * (a ^ 2 + a * b + b ^ 2) * (a ^ 2 + b ^ 2) := by
      nlinarith [mul_nonneg h2 (sq_nonneg (a - b)), sq_nonneg (a - b), sq_nonneg (a ^ 2 - b ^ 2), mul_nonneg h2 h2,
        mul_nonneg h2 q.le, sq_nonneg (a ^ 2), sq_nonneg (b ^ 2), mul_nonneg (sq_nonneg (a - b)) q.le]
    nlinarith [mul_le_mul_of_nonneg_right k1 s.le]
  have := mul_le_mul_of_nonneg_left key (sq_nonneg (b - a))
  nlinarith [this]

theorem pm_work_cyl (hb : C.nonBaro = true) (hc : C.c = .cylindrical) (hT : Through D k j i) (g : Good .cylindrical D.X k j i)
    (ha : 0 < D.X.x1.xf i) :
    pmI C D dt 4 k j i = wk D (pmI C D dt) k j i
      - dt * (C.gm / x1v D.X .cylindrical i) * D.prim (0,k,j,i) * D.prim (1,k,j,i) *
        ((D.X.x1.xf (i+1) - D.X.x1.xf i) ^ 2 / (2 * D.X.x1.xf i * D.X.x1.xf (i+1) * (D.X.x1.xf i + D.X.x1.xf (i+1)))) := by
  have t1 := hT.x1 i (by simp)
  have t1' := hT.x1 (i+1) (by simp)
  have hl := g.l1
  have w : D.X.x1.xf (i+1) - D.X.x1.xf i ≠ 0 := by linarith
  have b0 : 0 < D.X.x1.xf (i+1) := by linarith
  have hri : ri .cylindrical D.X i = 2 / (D.X.x1.xf i + D.X.x1.xf (i+1)) := cyl_ri g
  have rv := (cyl_rv g).ne'
  have a0 : D.X.x1.xf i ≠ 0 := ha.ne'
  have b0' : D.X.x1.xf (i+1) ≠ 0 := b0.ne'
  have ab : D.X.x1.xf i + D.X.x1.xf (i+1) ≠ 0 := by linarith
  unfold wk pmI
  vals [pmCell, hb, t1, t1', hc, hri, phy1, phy2]
  generalize x1v D.X .cylindrical i = rv at *
  field_simp
  ring

theorem pm_work_sph (hb : C.nonBaro = true) (hc : C.c = .spherical) (hT : Through D k j i) :
    pmI C D dt 4 k j i = wk D (pmI C D dt) k j i
      - dt * (C.gm / x1v D.X .spherical i) * D.prim (0,k,j,i) * D.prim (1,k,j,i) *
        (1 / x1v D.X .spherical i - Sph.src1_i D.X i) := by
  have t1 := hT.x1 i (by simp)
  have t1' := hT.x1 (i+1) (by simp)
  unfold wk pmI
  vals [pmCell, hb, t1, t1', hc, ri, phy1, phy2]
  generalize x1v D.X .spherical i = rv at *
  ring

theorem oa_work_cyl (hb : C.nonBaro = true) (hc : C.c = .cylindrical) (h3 : d.nx3 = 1) (hT : Through D k j i) :
    oaI C d D dt 4 k j i = wk D (oaI C d D dt) k j i
      + dt * shearPower C.mhd (D.bcc (0,k,j,i)) (D.bcc (2,k,j,i)) (D.bcc (1,k,j,i))
        (if C.userVel then D.dvKc1 k i - D.vKc k i * Cyl.src1_i D.X i else
          -1.5 * Real.sqrt (C.gm / x1v D.X .cylindrical i) / x1v D.X .cylindrical i) 0 := by
  have t1 := hT.x1 i (by simp)
  have t1' := hT.x1 (i+1) (by simp)
  unfold wk oaI shearPower
  rw [hc]
  simp only []
  by_cases hu : C.userVel = true <;> by_cases hm : C.mhd = true <;>
    simp only [hu, hm, h3, gt_iff_lt, lt_irrefl, Bool.true_eq_false, Bool.false_eq_true, if_true, if_false] <;>
    vals [oaCyl2, oaCylUser, hb, t1, t1', hm, if_true, if_false, Bool.false_eq_true] <;> ring

theorem oa_work_cyl3 (hb : C.nonBaro = true) (hc : C.c = .cylindrical) (h3 : d.nx3 > 1) (hu : C.userVel = false) (hT : Through D k j i) :
    oaI C d D dt 4 k j i = wk D (oaI C d D dt) k j i
      + dt * shearPower C.mhd (D.bcc (0,k,j,i)) (D.bcc (2,k,j,i)) (D.bcc (1,k,j,i))
        (-1.5 * circular C.gm (x1v D.X .cylindrical i) (x3v D.X k) * x1v D.X .cylindrical i / Real.sqrt (x1v D.X .cylindrical i ^ 2 + x3v D.X k ^ 2) ^ 2)
        (-1.5 * circular C.gm (x1v D.X .cylindrical i) (x3v D.X k) * x3v D.X k / Real.sqrt (x1v D.X .cylindrical i ^ 2 + x3v D.X k ^ 2) ^ 2)
      - dt * (C.gm * x3v D.X k / Real.sqrt (x1v D.X .cylindrical i ^ 2 + x3v D.X k ^ 2) ^ 3) * D.prim (0,k,j,i) * D.prim (3,k,j,i) := by
  have t1 := hT.x1 i (by simp)
  have t1' := hT.x1 (i+1) (by simp)
  have t3 := hT.x3 k (by simp)
  have t3' := hT.x3 (k+1) (by simp)
  unfold wk oaI shearPower circular
  rw [hc]
  simp only []
  by_cases hm : C.mhd = true <;>
    simp only [hu, hm, h3, if_true, Bool.false_eq_true, if_false] <;>
    vals [oaCyl3, hb, t1, t1', t3, t3', hm, if_true, if_false, Bool.false_eq_true] <;> ring

theorem oa_work_sph (hb : C.nonBaro = true) (hc : C.c = .spherical) (hT : Through D k j i) :
    oaI C d D dt 4 k j i = wk D (oaI C d D dt) k j i
      + dt * shearPower C.mhd (D.bcc (0,k,j,i)) (D.bcc (1,k,j,i)) (D.bcc (2,k,j,i))
        (D.dvKc1 j i - D.vKc j i * Sph.src1_i D.X i) ((D.dvKc2 j i - Sph.src1_j D.X j * D.vKc j i) * Sph.src1_i D.X i)
      + dt * (1 / x1v D.X .spherical i - Sph.src1_i D.X i) * D.prim (0,k,j,i) *
        (((D.vKc j i + frameVel .spherical D.X d.nx2 C.Omega (k, j, i)) ^ 2 - C.gm / x1v D.X .spherical i) * D.prim (1,k,j,i)
          + (D.vKc j i + frameVel .spherical D.X d.nx2 C.Omega (k, j, i)) ^ 2 * Sph.src1_j D.X j * D.prim (2,k,j,i)) := by
  have t1 := hT.x1 i (by simp)
  have t1' := hT.x1 (i+1) (by simp)
  have t2 := hT.x2 j (by simp)
  have t2' := hT.x2 (j+1) (by simp)
  unfold wk oaI shearPower
  rw [hc]
  simp only []
  by_cases hm : C.mhd = true <;>
    simp only [hm, if_true, Bool.false_eq_true, if_false] <;>
    vals [oaSph, hb, t1, t1', t2, t2', src_j, frameVel, hm, if_true, if_false, Bool.false_eq_true] <;> ring

end Work


theorem ks_le_ke {d : Dims} (hd : d.Ok) : d.ks ≤ d.ke := by
  have := hd.x3
  simp only [Dims.ks, Dims.ke]
  split <;> omega

/-- What the constructor decides. -/
theorem construct_spec {C : Conf} {nx3 : ℤ} {user : Bool} {f : Flags} (h : construct C nx3 user = some f) :
    f.pointMass = (decide (C.gm ≠ 0) && !C.oa) ∧
    f.shear = (if C.oa then 1 else if C.Omega ≠ 0 ∧ C.q ≠ 0 ∧ C.c = .cartesian then 2
      else if C.Omega ≠ 0 ∧ (C.c = .cylindrical ∨ C.c = .spherical) then 3 else 0) ∧
    (C.gm ≠ 0 → C.c ≠ .cartesian) ∧
    (C.gm ≠ 0 → C.oa = false → C.c = .cylindrical → nx3 ≤ 1) ∧
    (f.defined = true ↔ C.gm ≠ 0 ∨ (C.g1 ≠ 0 ∨ C.g2 ≠ 0 ∨ C.g3 ≠ 0) ∨ f.shear ≠ 0 ∨ C.selfGravity = true ∨ user = true) := by
  unfold construct at h
  simp only [Option.bind_eq_bind] at h
  obtain ⟨⟨pm, df⟩, e1, h⟩ := Option.bind_eq_some_iff.mp h
  simp only [] at h
  obtain ⟨sh, e2, h⟩ := Option.bind_eq_some_iff.mp h
  simp only [Option.some.injEq] at h
  subst h
  unfold massFlag at e1
  unfold shearFlag at e2
  have p1 : pm = (decide (C.gm ≠ 0) && !C.oa) ∧ (df = true ↔ C.gm ≠ 0) ∧ (C.gm ≠ 0 → C.c ≠ .cartesian) ∧
      (C.gm ≠ 0 → C.oa = false → C.c = .cylindrical → nx3 ≤ 1) := by
    by_cases h0 : C.gm = 0
    · simp only [h0, ne_eq, not_true_eq_false, if_false, Option.some.injEq, Prod.mk.injEq] at e1
      simp [h0, ← e1.1, ← e1.2]
    · simp only [ne_eq, h0, not_false_eq_true, if_true] at e1
      split at e1
      · exact absurd e1 (by simp)
      · next hc =>
        have hc' : C.c ≠ .cartesian := by intro h; simp [h] at hc
        split at e1
        · next ho =>
          simp only [Option.some.injEq, Prod.mk.injEq] at e1
          simp [h0, ho, ← e1.1, ← e1.2, hc']
        · next ho =>
          split at e1
          · exact absurd e1 (by simp)
          · next h3 =>
            simp only [Option.some.injEq, Prod.mk.injEq] at e1
            simp only [Bool.not_eq_true] at ho
            refine ⟨by simp [h0, ho, ← e1.1], by simp [h0, ← e1.2], fun _ => hc', fun _ _ hh => ?_⟩
            by_contra hl
            exact h3 ⟨hh, by omega⟩
  have p2 : sh = (if C.oa then 1 else if C.Omega ≠ 0 ∧ C.q ≠ 0 ∧ C.c = .cartesian then 2
      else if C.Omega ≠ 0 ∧ (C.c = .cylindrical ∨ C.c = .spherical) then 3 else 0) := by
    split at e2
    · next ho =>
      rw [if_pos ho]
      split at e2
      · simpa using e2.symm
      · exact absurd e2 (by simp)
    · next ho =>
      rw [if_neg ho]
      split at e2
      · next h => rw [if_pos h]; simpa using e2.symm
      · next h =>
        rw [if_neg h]
        split at e2
        · next h => rw [if_pos h]; simpa using e2.symm
        · next h => rw [if_neg h]; simpa using e2.symm
  refine ⟨p1.1, p2, p1.2.2.1, p1.2.2.2, ?_⟩
  rw [← p1.2.1]
  by_cases a1 : C.g1 = 0 <;> by_cases a2 : C.g2 = 0 <;> by_cases a3 : C.g3 = 0 <;> by_cases a4 : sh = 0 <;> cases C.selfGravity <;>
    cases user <;> simp [a1, a2, a3, a4]


section More
variable {C : Conf} {d : Dims} {D : Data} {dt : ℝ} {f : Flags} {u u' : A4 ℝ}

theorem work_eq (hd : d.Ok) (h : addSourceTerms C d D dt f none u = some u') {k j i : ℤ} (ha : Active d k j i) :
    work D u u' (k, j, i) = wk D (tot C d D dt f) k j i ∧ u' (4, k, j, i) - u (4, k, j, i) = tot C d D dt f 4 k j i := by
  have e := fun n => addSourceTerms_at C d D dt (ks_le_ke hd) h n k j i
  simp only [if_pos ha] at e
  unfold work wk
  simp only [e]
  constructor <;> ring

theorem orbit_tot (hcon : construct C d.nx3 false = some f) (ho : OnlyOrbit C) (hc : C.c ≠ .cartesian) (n k j i : ℤ) :
    tot C d D dt f n k j i = if C.oa then oaI C d D dt n k j i else pmI C D dt n k j i + rotI C d D dt n k j i := by
  obtain ⟨h1, h2, -, -, -⟩ := construct_spec hcon
  unfold tot
  rw [accI_zero C D dt (by simp [ho.g1, ho.g2, ho.g3]), ho.sg]
  by_cases hoa : C.oa = true
  · have hs : f.shear = 1 := by rw [h2, if_pos hoa]
    have hpm : f.pointMass = false := by rw [h1]; simp [hoa]
    simp [hs, hpm, hoa]
  · have hs1 : f.shear ≠ 1 := by rw [h2, if_neg hoa]; split_ifs <;> simp
    have hs2 : f.shear ≠ 2 := by rw [h2, if_neg hoa]; split_ifs <;> simp_all
    have hpm : ∀ n, (if f.pointMass = true then pmI C D dt n k j i else 0) = pmI C D dt n k j i := by
      intro n
      by_cases hg : C.gm = 0
      · have : ∀ n, pmI C D dt n k j i = 0 := by intro n; simp [pmI, pmCell, addE_at, sub_at, hg]
        simp [this]
      · have : f.pointMass = true := by rw [h1]; simp [hg, hoa]
        simp [this]
    have hsh : ∀ n, (if f.shear = 3 then rotI C d D dt n k j i else 0) = rotI C d D dt n k j i := by
      intro n
      by_cases hO : C.Omega = 0
      · have : rotI C d D dt n k j i = 0 := by
          unfold rotI
          cases hcc : C.c <;> simp [rotCyl, rotSph, addE_at, add_at, sub_at, hO]
        simp [this]
      · have : f.shear = 3 := by
          rw [h2]
          cases hcc : C.c <;> simp_all
        simp [this]
    simp [hpm, hs1, hs2, hoa, hsh]

theorem circular_sq {gm r z : ℝ} (hg : 0 ≤ gm) (hr : 0 < r) : circular gm r z ^ 2 = pull gm r z := by
  have h0 : 0 < r ^ 2 + z ^ 2 := by positivity
  have h1 := Real.sqrt_pos.mpr h0
  unfold circular pull
  rw [div_pow, mul_pow, Real.sq_sqrt (div_nonneg hg h1.le)]
  field_simp

theorem circular_zero {gm r : ℝ} (hr : 0 < r) : circular gm r 0 = Real.sqrt (gm / r) ∧ pull gm r 0 = gm / r := by
  have e : Real.sqrt (r ^ 2 + 0 ^ 2) = r := by rw [show r ^ 2 + (0:ℝ) ^ 2 = r ^ 2 by ring]; exact Real.sqrt_sq hr.le
  unfold circular pull
  rw [e]
  constructor <;> field_simp

theorem hasDeriv_sqrt_div {gm x : ℝ} (hg : 0 < gm) (hx : 0 < x) :
    HasDerivAt (fun x => Real.sqrt (gm / x)) (-(Real.sqrt (gm / x) / (2 * x))) x := by
  have hd := ((hasDerivAt_inv hx.ne').const_mul gm).sqrt (mul_pos hg (inv_pos.mpr hx)).ne'
  have e : (fun x => Real.sqrt (gm / x)) = fun x => Real.sqrt (gm * x⁻¹) := by funext y; rw [div_eq_mul_inv]
  rw [e]
  convert hd using 1
  have hp : 0 < gm * x⁻¹ := mul_pos hg (inv_pos.mpr hx)
  have hs := Real.sqrt_pos.mpr hp
  have hsq := Real.sq_sqrt hp.le
  rw [div_eq_mul_inv gm x]
  generalize Real.sqrt (gm * x⁻¹) = t at *
  have hgt : gm = t ^ 2 * x := by rw [hsq]; field_simp
  rw [hgt]
  field_simp

theorem hasDeriv_dist_r {r z : ℝ} (hr : 0 < r) :
    HasDerivAt (fun r => Real.sqrt (r ^ 2 + z ^ 2)) (r / Real.sqrt (r ^ 2 + z ^ 2)) r := by
  have h := (((hasDerivAt_pow 2 r).add_const (z ^ 2))).sqrt (by positivity)
  convert h using 1
  norm_num
  rw [mul_div_mul_left _ _ (by norm_num)]

theorem hasDeriv_dist_z {r z : ℝ} (hr : 0 < r) :
    HasDerivAt (fun z => Real.sqrt (r ^ 2 + z ^ 2)) (z / Real.sqrt (r ^ 2 + z ^ 2)) z := by
  have h := (((hasDerivAt_pow 2 z).const_add (r ^ 2))).sqrt (by positivity)
  convert h using 1
  norm_num
  rw [mul_div_mul_left _ _ (by norm_num)]

theorem sum_step (a b : ℤ) (h : a ≤ b + 1) (g : ℤ → ℝ) :
    ∑ i ∈ Finset.Icc a b, g (i+1) - ∑ i ∈ Finset.Icc a b, g i = g (b+1) - g a := by
  induction b, (show a - 1 ≤ b by omega) using Int.le_induction with
  | base => simp
  | succ m hm ih =>
    have e : Finset.Icc a (m+1) = insert (m+1) (Finset.Icc a m) := by
      ext x; simp only [Finset.mem_Icc, Finset.mem_insert]; omega
    have hn : m + 1 ∉ Finset.Icc a m := by simp
    have := ih (by omega)
    rw [e, Finset.sum_insert hn, Finset.sum_insert hn]
    linarith

theorem total_shift (hd : d.Ok) (g : ℤ × ℤ × ℤ → ℝ) (hg : Periodic d g) :
    (total d fun k j i => g (k, j, i+1)) = total d (fun k j i => g (k, j, i)) ∧
    (d.nx2 > 1 → (total d fun k j i => g (k, j+1, i)) = total d (fun k j i => g (k, j, i))) ∧
    (d.nx3 > 1 → (total d fun k j i => g (k+1, j, i)) = total d (fun k j i => g (k, j, i))) := by
  unfold total
  refine ⟨?_, fun h2 => ?_, fun h3 => ?_⟩
  · refine Finset.sum_congr rfl fun k _ => Finset.sum_congr rfl fun j _ => ?_
    have := sum_step d.is d.ie (by have := hd.x1; simp only [Dims.is, Dims.ie]; omega) (fun i => g (k, j, i))
    have e := hg.x1 k j d.is
    have e2 : d.is + d.nx1 = d.ie + 1 := by simp only [Dims.is, Dims.ie]; omega
    rw [e2] at e
    simp only [e] at this
    linarith
  · refine Finset.sum_congr rfl fun k _ => ?_
    have := sum_step d.js d.je (by have := hd.x2; simp only [Dims.js, Dims.je, h2, if_true]; omega)
      (fun j => ∑ i ∈ Finset.Icc d.is d.ie, g (k, j, i))
    have e := fun i => hg.x2 h2 k d.js i
    have e2 : d.js + d.nx2 = d.je + 1 := by simp only [Dims.js, Dims.je, h2, if_true]; omega
    rw [e2] at e
    simp only [e] at this
    linarith
  · have := sum_step d.ks d.ke (by have := hd.x3; simp only [Dims.ks, Dims.ke, h3, if_true]; omega)
      (fun k => ∑ j ∈ Finset.Icc d.js d.je, ∑ i ∈ Finset.Icc d.is d.ie, g (k, j, i))
    have e := fun j i => hg.x3 h3 d.ks j i
    have e2 : d.ks + d.nx3 = d.ke + 1 := by simp only [Dims.ks, Dims.ke, h3, if_true]; omega
    rw [e2] at e
    simp only [e] at this
    linarith

/-- Sum over cells of a function of the cell. -/
noncomputable def tsum3 (d : Dims) (g : ℤ × ℤ × ℤ → ℝ) : ℝ := total d fun k j i => g (k, j, i)

/-- Shifts the sum over a period does not notice. -/
def Inv (d : Dims) (v : ℤ × ℤ × ℤ) : Prop := ∀ g, Periodic d g → tsum3 d (fun q => g (q + v)) = tsum3 d g

theorem per_shift {g : ℤ × ℤ × ℤ → ℝ} (hg : Periodic d g) (v : ℤ × ℤ × ℤ) : Periodic d fun q => g (q + v) := by
  obtain ⟨a, b, c⟩ := v
  constructor
  · intro k j i
    have := hg.x1 (k + a) (j + b) (i + c)
    simpa [add_right_comm] using this
  · intro h k j i
    have := hg.x2 h (k + a) (j + b) (i + c)
    simpa [add_right_comm] using this
  · intro h k j i
    have := hg.x3 h (k + a) (j + b) (i + c)
    simpa [add_right_comm] using this

theorem per_mul {g h : ℤ × ℤ × ℤ → ℝ} (hg : Periodic d g) (hh : Periodic d h) : Periodic d fun q => g q * h q := by
  constructor
  · intro k j i; simp only [hg.x1, hh.x1]
  · intro h2 k j i; simp only [hg.x2 h2, hh.x2 h2]
  · intro h3 k j i; simp only [hg.x3 h3, hh.x3 h3]

theorem Inv.neg {v : ℤ × ℤ × ℤ} (h : Inv d v) : Inv d (-v) := by
  intro g hg
  rw [← h _ (per_shift hg (-v))]
  congr 1
  funext q
  congr 1
  abel

theorem Inv.add {v w : ℤ × ℤ × ℤ} (h : Inv d v) (h' : Inv d w) : Inv d (v + w) := by
  intro g hg
  rw [← h' g hg, ← h _ (per_shift hg w)]
  congr 1
  funext q
  congr 1
  abel

theorem tsum3_add (g h : ℤ × ℤ × ℤ → ℝ) : tsum3 d (fun q => g q + h q) = tsum3 d g + tsum3 d h := by
  simp only [tsum3, total, Finset.sum_add_distrib]
theorem tsum3_smul (c : ℝ) (g : ℤ × ℤ × ℤ → ℝ) : tsum3 d (fun q => c * g q) = c * tsum3 d g := by
  simp only [tsum3, total, Finset.mul_sum]

/-- Second difference along `w` against central difference along `v`. -/
theorem no_pull {v w : ℤ × ℤ × ℤ} (hv : Inv d v) (hw : Inv d w) {p : ℤ × ℤ × ℤ → ℝ} (hp : Periodic d p) :
    tsum3 d (fun q => (p (q + w) - 2 * p q + p (q - w)) * (p (q + v) - p (q - v))) = 0 := by
  have key : ∀ a b c, Inv d c → tsum3 d (fun q => p (q + (a + c)) * p (q + (b + c))) = tsum3 d (fun q => p (q + a) * p (q + b)) := by
    intro a b c hc
    rw [← hc _ (per_mul (per_shift hp a) (per_shift hp b))]
    congr 1
    funext q
    rw [show q + (a + c) = q + c + a by abel, show q + (b + c) = q + c + b by abel]
  have k1 := key (-v) (-w) (v + w) (hv.add hw)
  have k2 := key (-w) v (w + -v) (hw.add hv.neg)
  have k3 := key 0 (-v) v hv
  rw [show -v + (v + w) = w by abel, show -w + (v + w) = v by abel] at k1
  rw [show -w + (w + -v) = -v by abel, show v + (w + -v) = w by abel] at k2
  rw [show 0 + v = v by abel, show -v + v = 0 by abel] at k3
  have e : (fun q => (p (q + w) - 2 * p q + p (q - w)) * (p (q + v) - p (q - v))) = fun q =>
      p (q + w) * p (q + v) + ((-1) * (p (q + -v) * p (q + -w)) + (p (q + -w) * p (q + v) + ((-1) * (p (q + -v) * p (q + w))
        + ((-2) * (p (q + v) * p (q + 0)) + 2 * (p (q + 0) * p (q + -v)))))) := by
    funext q
    rw [add_zero, ← sub_eq_add_neg, ← sub_eq_add_neg]
    ring
  rw [e]
  simp only [tsum3_add, tsum3_smul]
  rw [k1, k3, k2]
  ring

end More

end Verif.SrcTerms
