import Verif.Spec.Diffusion
import Verif.Lemmas.Diffusion
import Mathlib.Tactic.NormNum
import Mathlib.Tactic.FinCases

/-!
# Viscosity (C74)

The viscous momentum flux is the Navier-Stokes stress for linear velocity fields, rigid motions feel none, the energy flux is
the work of the momentum flux. Not so in spherical coordinates in three dimensions, where one component lacks its scale
factor; and the time step allows growing sawtooth modes.
-/
namespace Verif.Diffusion
open Verif.Grid

section
variable {K : Type} [Field K] [LinearOrder K] [IsStrictOrderedRing K]

/-- Divergence of a linear velocity field on equal cells. -/
theorem divVel_linear (d : Dims) {G : Geom K} {M : Met K} {h1 h2 h3 : K} (hC : Cartesian G M (fun _ => h1) (fun _ => h2) (fun _ => h3))
    (hh : 0 < h1 ∧ 0 < h2 ∧ 0 < h3) {v : Fin 3 → K} {A : Fin 3 → Fin 3 → K} (hA : Along d A) {p : A4 K} {o1 o2 o3 : K}
    (hp : LinearVel (fun i => o1 + h1 * i) (fun j => o2 + h2 * j) (fun k => o3 + h3 * k) v A p) (k j i : Int) :
    divVel d G p k j i = A 0 0 + A 1 1 + A 2 2 := by
  have e1 : ∀ k j i, p (1, k, j, i) = _ := hp 0
  have e2 : ∀ k j i, p (2, k, j, i) = _ := hp 1
  have e3 : ∀ k j i, p (3, k, j, i) = _ := hp 2
  have := hh.1.ne'
  have := hh.2.1.ne'
  have := hh.2.2.ne'
  simp only [divVel, hC.a1, hC.a2, hC.a3, hC.vol, e1, e2, e3]
  split
  · split
    · push_cast; field_simp; ring
    · rw [hA.1 ‹_› 1]; push_cast; field_simp; ring
  · rw [hA.2 ‹_› 2]
    split
    · push_cast; field_simp; ring
    · rw [hA.1 ‹_› 1]; push_cast; field_simp; ring

theorem gk (c : Prop) [Decidable c] : (0 : Int) ≤ if c then 1 else 0 := by split <;> omega

theorem comps_fin (nb : Bool) (f1 f2 f3 e : K) (a : Fin 3) :
    comps nb (1 + (a.1 : Int)) f1 f2 f3 e = if a = 0 then f1 else if a = 1 then f2 else f3 := by
  fin_cases a <;> rfl

/-- For a velocity field linear in the coordinates, on a Cartesian mesh of equal cells in one, two or three dimensions, the
viscous flux of each momentum component through each face of the active cells is exactly minus density times viscosity times
the stress; density and viscosity are the means of the two cells. -/
theorem viscous_linear (d : Dims) (V : Vis K) {h1 h2 h3 : K}
    (hC : Cartesian V.G V.M (fun _ => h1) (fun _ => h2) (fun _ => h3)) (hh : 0 < h1 ∧ 0 < h2 ∧ 0 < h3) {v : Fin 3 → K}
    {A : Fin 3 → Fin 3 → K} (hA : Along d A) {o1 o2 o3 : K}
    (hp : LinearVel (fun i => o1 + h1 * i) (fun j => o2 + h2 * j) (fun k => o3 + h3 * k) v A V.pi) (a : Fin 3) {k j i : Int} :
    (d.ks ≤ k ∧ k ≤ d.ke → d.js ≤ j ∧ j ≤ d.je → d.is ≤ i ∧ i ≤ d.ie + 1 →
      (viscousFlux d V).x1 (1 + a.1, k, j, i) = -((V.pi (0, k, j, i) + V.pi (0, k, j, i-1)) / 2
        * ((V.nu (k, j, i) + V.nu (k, j, i-1)) / 2) * stress A a 0)) ∧
    (d.nx2 > 1 → d.ks ≤ k ∧ k ≤ d.ke → d.js ≤ j ∧ j ≤ d.je + 1 → d.is ≤ i ∧ i ≤ d.ie →
      (viscousFlux d V).x2 (1 + a.1, k, j, i) = -((V.pi (0, k, j, i) + V.pi (0, k, j-1, i)) / 2
        * ((V.nu (k, j, i) + V.nu (k, j-1, i)) / 2) * stress A a 1)) ∧
    (d.nx3 > 1 → d.ks ≤ k ∧ k ≤ d.ke + 1 → d.js ≤ j ∧ j ≤ d.je → d.is ≤ i ∧ i ≤ d.ie →
      (viscousFlux d V).x3 (1 + a.1, k, j, i) = -((V.pi (0, k, j, i) + V.pi (0, k-1, j, i)) / 2
        * ((V.nu (k, j, i) + V.nu (k-1, j, i)) / 2) * stress A a 2)) := by
  have dv := divVel_linear d hC hh hA hp
  have e1 : ∀ k j i, V.pi (1, k, j, i) = _ := hp 0
  have e2 : ∀ k j i, V.pi (2, k, j, i) = _ := hp 1
  have e3 : ∀ k j i, V.pi (3, k, j, i) = _ := hp 2
  have n1 := hh.1.ne'
  have n2 := hh.2.1.ne'
  have n3 := hh.2.2.ne'
  have g1 := gk (V.mag = true)
  have g2 := gk (V.mag = true ∧ d.nx2 > 1)
  have g3 := gk (V.mag = true ∧ d.nx3 > 1)
  refine ⟨fun hk hj hi => ?_, fun hd hk hj hi => ?_, fun hd hk hj hi => ?_⟩
  · have x0 : faceXdx V.M V.pi k j i = 2 * A 0 0 := by
      simp only [faceXdx, e1, hC.d1]; push_cast; field_simp; ring
    have x1 : faceXdy d V.M V.pi k j i = A 1 0 + A 0 1 := by
      simp only [faceXdy, e1, e2, hC.d1, hC.d2, hC.h2v, hC.h2f]
      split
      · push_cast; field_simp; ring
      · rw [hA.1 ‹_› 1, hA.1 ‹_› 0]; push_cast; field_simp; ring
    have x2 : faceXdz d V.M V.pi k j i = A 2 0 + A 0 2 := by
      simp only [faceXdz, e1, e3, hC.d1, hC.d3, hC.h31v, hC.h31f, hC.h32v]
      split
      · push_cast; field_simp; ring
      · rw [hA.2 ‹_› 2, hA.2 ‹_› 0]; push_cast; field_simp; ring
    simp only [viscousFlux, visX1, x0, x1, x2, dv]
    rw [if_pos ⟨by omega, by omega, by omega, by omega, by omega, by omega⟩, comps_fin]
    obtain rfl | rfl | rfl : a = 0 ∨ a = 1 ∨ a = 2 := by omega
    all_goals
      simp only [stress, Fin.reduceEq, if_true, if_false, Fin.isValue]
      ring
  · have hc : d.is ≤ i ∧ i ≤ d.ie := hi
    have x0 : faceYdx d V.M V.pi k j i = A 0 1 + A 1 0 := by
      simp only [faceYdx, if_pos hd, e1, e2, hC.d1, hC.d2, hC.h2v]; push_cast; field_simp; ring
    have x1 : faceYdy d V.M V.pi k j i = 2 * A 1 1 := by
      simp only [faceYdy, if_pos hd, e2, hC.d2, hC.h2v, hC.dh2]; push_cast; field_simp; ring
    have x2 : faceYdz d V.M V.pi k j i = A 2 1 + A 1 2 := by
      simp only [faceYdz, if_pos hd, e2, e3, hC.d2, hC.d3, hC.h2v, hC.h31v, hC.h32v, hC.h32f, ite_self]
      split
      · push_cast; field_simp; ring
      · rw [hA.2 ‹_› 2, hA.2 ‹_› 1]; push_cast; field_simp; ring
    simp only [viscousFlux, if_pos hd, visX2, col, if_pos hc, x0, x1, x2, dv]
    rw [if_pos ⟨by omega, by omega, by omega, by omega, by omega, by omega⟩, comps_fin]
    obtain rfl | rfl | rfl : a = 0 ∨ a = 1 ∨ a = 2 := by omega
    all_goals
      simp only [stress, Fin.reduceEq, if_true, if_false, Fin.isValue]
      ring
  · have hc : d.is ≤ i ∧ i ≤ d.ie := hi
    have x0 : faceZdx d V.M V.pi k j i = A 0 2 + A 2 0 := by
      simp only [faceZdx, if_pos hd, e1, e3, hC.d1, hC.d3, hC.h31v]; push_cast; field_simp; ring
    have x1 : faceZdy d V.M V.pi k j i = A 1 2 + A 2 1 := by
      simp only [faceZdy, if_pos hd, e2, e3, hC.d2, hC.d3, hC.h31v, hC.h32v, hC.h2v]; push_cast; field_simp; ring
    have x2 : faceZdz d V.M V.pi k j i = 2 * A 2 2 := by
      simp only [faceZdz, if_pos hd, e3, hC.d3, hC.h31v, hC.h32v, hC.dh31, hC.dh32]; push_cast; field_simp; ring
    simp only [viscousFlux, if_pos hd, visX3, col, if_pos hc, x0, x1, x2, dv]
    rw [if_pos ⟨by omega, by omega, by omega, by omega, by omega, by omega⟩, comps_fin]
    obtain rfl | rfl | rfl : a = 0 ∨ a = 1 ∨ a = 2 := by omega
    all_goals
      simp only [stress, Fin.reduceEq, if_true, if_false, Fin.isValue]
      ring

/-- The energy flux is the work of the momentum flux: the mean velocity of the two cells (with the orbital velocity, if there
is one) times the fluxes of the momentum components. -/
theorem viscous_work (d : Dims) (V : Vis K) (hb : V.nonBaro = true) {k j i : Int} (hk : d.ks ≤ k ∧ k ≤ d.ke)
    (hj : d.js ≤ j ∧ j ≤ d.je) (hi : d.is ≤ i ∧ i ≤ d.ie) :
    let F := viscousFlux d V
    (∀ i', (i' = i ∨ i' = i + 1) → F.x1 (4, k, j, i') = (V.p (1, k, j, i'-1) + V.p (1, k, j, i')) / 2 * F.x1 (1, k, j, i')
        + (V.p (2, k, j, i'-1) + V.p (2, k, j, i')) / 2 * F.x1 (2, k, j, i')
        + (V.p (3, k, j, i'-1) + V.p (3, k, j, i')) / 2 * F.x1 (3, k, j, i')) ∧
      (d.nx2 > 1 → ∀ j', (j' = j ∨ j' = j + 1) → F.x2 (4, k, j', i) = (V.p (1, k, j'-1, i) + V.p (1, k, j', i)) / 2 * F.x2 (1, k, j', i)
        + (V.p (2, k, j'-1, i) + V.p (2, k, j', i)) / 2 * F.x2 (2, k, j', i)
        + (V.p (3, k, j'-1, i) + V.p (3, k, j', i)) / 2 * F.x2 (3, k, j', i)) ∧
      (d.nx3 > 1 → ∀ k', (k' = k ∨ k' = k + 1) → F.x3 (4, k', j, i) = (V.p (1, k'-1, j, i) + V.p (1, k', j, i)) / 2 * F.x3 (1, k', j, i)
        + (V.p (2, k'-1, j, i) + V.p (2, k', j, i)) / 2 * F.x3 (2, k', j, i)
        + (V.p (3, k'-1, j, i) + V.p (3, k', j, i)) / 2 * F.x3 (3, k', j, i)) := by
  have g1 := gk (V.mag = true)
  have g2 := gk (V.mag = true ∧ d.nx2 > 1)
  have g3 := gk (V.mag = true ∧ d.nx3 > 1)
  have c1 : ∀ f1 f2 f3 e : K, comps V.nonBaro 1 f1 f2 f3 e = f1 := fun _ _ _ _ => rfl
  have c2 : ∀ f1 f2 f3 e : K, comps V.nonBaro 2 f1 f2 f3 e = f2 := fun _ _ _ _ => rfl
  have c3 : ∀ f1 f2 f3 e : K, comps V.nonBaro 3 f1 f2 f3 e = f3 := fun _ _ _ _ => rfl
  have c4 : ∀ f1 f2 f3 e : K, comps V.nonBaro 4 f1 f2 f3 e = e := by intro f1 f2 f3 e; rw [hb]; rfl
  refine ⟨fun i' h' => ?_, fun hd j' h' => ?_, fun hd k' h' => ?_⟩
  · have hr : d.ks - (if V.mag = true ∧ d.nx3 > 1 then 1 else 0) ≤ k ∧ k ≤ d.ke + (if V.mag = true ∧ d.nx3 > 1 then 1 else 0) ∧
        d.js - (if V.mag = true ∧ d.nx2 > 1 then 1 else 0) ≤ j ∧ j ≤ d.je + (if V.mag = true ∧ d.nx2 > 1 then 1 else 0) ∧
        d.is ≤ i' ∧ i' ≤ d.ie + 1 := by refine ⟨?_, ?_, ?_, ?_, ?_, ?_⟩ <;> omega
    simp only [viscousFlux, if_pos hr, visX1, c1, c2, c3, c4]
    ring
  · have hr : d.ks - (if V.mag = true ∧ d.nx3 > 1 then 1 else 0) ≤ k ∧ k ≤ d.ke + (if V.mag = true ∧ d.nx3 > 1 then 1 else 0) ∧
        d.js ≤ j' ∧ j' ≤ d.je + 1 ∧ d.is - (if V.mag = true then 1 else 0) ≤ i ∧ i ≤ d.ie + (if V.mag = true then 1 else 0) := by
      refine ⟨?_, ?_, ?_, ?_, ?_, ?_⟩ <;> omega
    simp only [viscousFlux, if_pos hd, if_pos hr, visX2, c1, c2, c3, c4]
    ring
  · have hr : d.ks ≤ k' ∧ k' ≤ d.ke + 1 ∧ d.js - (if V.mag = true ∧ d.nx2 > 1 then 1 else 0) ≤ j ∧
        j ≤ d.je + (if V.mag = true ∧ d.nx2 > 1 then 1 else 0) ∧
        d.is - (if V.mag = true then 1 else 0) ≤ i ∧ i ≤ d.ie + (if V.mag = true then 1 else 0) := by
      refine ⟨?_, ?_, ?_, ?_, ?_, ?_⟩ <;> omega
    simp only [viscousFlux, if_pos hd, if_pos hr, visX3, c1, c2, c3, c4]
    ring

/-- If all derivatives and the divergence used at the faces of a cell vanish, so do all viscous fluxes. -/
theorem no_stress (d : Dims) (V : Vis K) (h : ∀ k j i, d.is - 1 ≤ i →
      (d.is ≤ i → faceXdx V.M V.pi k j i = 0 ∧ faceXdy d V.M V.pi k j i = 0 ∧ faceXdz d V.M V.pi k j i = 0 ∧
        faceYdx d V.M V.pi k j i = 0 ∧ faceYdy d V.M V.pi k j i = 0 ∧ faceYdz d V.M V.pi k j i = 0 ∧
        faceZdx d V.M V.pi k j i = 0 ∧ faceZdy d V.M V.pi k j i = 0 ∧ faceZdz d V.M V.pi k j i = 0) ∧
      divVel d V.G V.pi k j i = 0) (n : Int) {k j i : Int} (hi : d.is ≤ i) :
    ((viscousFlux d V).x1 (n, k, j, i) = 0) ∧ (i ≤ d.ie → (viscousFlux d V).x2 (n, k, j, i) = 0 ∧
      (viscousFlux d V).x3 (n, k, j, i) = 0) := by
  have hc0 : comps V.nonBaro n (0 : K) 0 0 0 = 0 := by unfold comps; split_ifs <;> rfl
  have F := fun k j => (h k j i (by omega)).1 hi
  have D := fun k j => (h k j i (by omega)).2
  have D' := fun k j => (h k j (i-1) (by omega)).2
  refine ⟨?_, fun hi' => ?_⟩
  · simp only [viscousFlux, visX1, F, D, D']
    simp only [mul_zero, add_zero, hc0, ite_self]
  · have hc : d.is ≤ i ∧ i ≤ d.ie := ⟨hi, hi'⟩
    constructor
    · simp only [viscousFlux, visX2, visX2one, col, if_pos hc, F, D]
      simp only [mul_zero, add_zero, hc0, ite_self]
    · simp only [viscousFlux, visX3, visX3one, col, if_pos hc, F, D]
      simp only [mul_zero, add_zero, hc0, ite_self]

/-- A rigid motion, a translation and a rotation, has no viscous fluxes of momentum or energy on any Cartesian mesh, equal
cells or not. -/
theorem viscous_rigid (d : Dims) (V : Vis K) {w1 w2 w3 c1 c2 c3 : Int → K} (hC : Cartesian V.G V.M w1 w2 w3)
    (hw : ∀ x, 0 < w1 x ∧ 0 < w2 x ∧ 0 < w3 x) (hc : ∀ x, c1 (x+1) - c1 x = (w1 x + w1 (x+1)) / 2 ∧
      c2 (x+1) - c2 x = (w2 x + w2 (x+1)) / 2 ∧ c3 (x+1) - c3 x = (w3 x + w3 (x+1)) / 2)
    {v : Fin 3 → K} {A : Fin 3 → Fin 3 → K} (hA : Along d A) (hanti : ∀ a b, A a b = -A b a)
    (hp : LinearVel c1 c2 c3 v A V.pi) (n : Int) {k j i : Int} (hi : d.is ≤ i) :
    ((viscousFlux d V).x1 (n, k, j, i) = 0) ∧ (i ≤ d.ie → (viscousFlux d V).x2 (n, k, j, i) = 0 ∧
      (viscousFlux d V).x3 (n, k, j, i) = 0) := by
  refine no_stress d V (fun k j i _ => ?_) n hi
  have e1 : ∀ k j i, V.pi (1, k, j, i) = _ := hp 0
  have e2 : ∀ k j i, V.pi (2, k, j, i) = _ := hp 1
  have e3 : ∀ k j i, V.pi (3, k, j, i) = _ := hp 2
  have q1 : ∀ x, 0 < c1 (x+1) - c1 x := by intro x; rw [(hc x).1]; linarith [(hw x).1, (hw (x+1)).1]
  have q2 : ∀ x, 0 < c2 (x+1) - c2 x := by intro x; rw [(hc x).2.1]; linarith [(hw x).2.1, (hw (x+1)).2.1]
  have q3 : ∀ x, 0 < c3 (x+1) - c3 x := by intro x; rw [(hc x).2.2]; linarith [(hw x).2.2, (hw (x+1)).2.2]
  have d1 : ∀ x, V.M.dx1v x = c1 (x+1) - c1 x := fun x => (hC.d1 x).trans (hc x).1.symm
  have d2 : ∀ x, V.M.dx2v x = c2 (x+1) - c2 x := fun x => (hC.d2 x).trans (hc x).2.1.symm
  have d3 : ∀ x, V.M.dx3v x = c3 (x+1) - c3 x := fun x => (hC.d3 x).trans (hc x).2.2.symm
  have r1 := (q1 (i-1)).ne'
  have r2 := (q2 (j-1)).ne'
  have r3 := (q3 (k-1)).ne'
  rw [show i - 1 + 1 = i by omega] at r1
  rw [show j - 1 + 1 = j by omega] at r2
  rw [show k - 1 + 1 = k by omega] at r3
  have s1 : c1 i - c1 (i-1) + (c1 (i+1) - c1 i) ≠ 0 := by
    have := q1 i; have := q1 (i-1); rw [show i - 1 + 1 = i by omega] at this; linarith
  have s2 : c2 j - c2 (j-1) + (c2 (j+1) - c2 j) ≠ 0 := by
    have := q2 j; have := q2 (j-1); rw [show j - 1 + 1 = j by omega] at this; linarith
  have s3 : c3 k - c3 (k-1) + (c3 (k+1) - c3 k) ≠ 0 := by
    have := q3 k; have := q3 (k-1); rw [show k - 1 + 1 = k by omega] at this; linarith
  have z : ∀ a, A a a = 0 := by intro a; have := hanti a a; linarith
  have a01 := hanti 1 0
  have a02 := hanti 2 0
  have a12 := hanti 2 1
  have z2 : ¬ d.nx2 > 1 → A 0 1 = 0 ∧ A 1 0 = 0 ∧ A 2 1 = 0 ∧ A 1 2 = 0 := fun h =>
    ⟨hA.1 h 0, by rw [a01, hA.1 h 0, neg_zero], hA.1 h 2, by rw [hanti 1 2, hA.1 h 2, neg_zero]⟩
  have z3 : ¬ d.nx3 > 1 → A 0 2 = 0 ∧ A 2 0 = 0 ∧ A 2 1 = 0 ∧ A 1 2 = 0 := fun h =>
    ⟨hA.2 h 0, by rw [a02, hA.2 h 0, neg_zero], by rw [a12, hA.2 h 1, neg_zero], hA.2 h 1⟩
  refine ⟨fun _ => ⟨?_, ?_, ?_, ?_, ?_, ?_, ?_, ?_, ?_⟩, ?_⟩
  · simp only [faceXdx, e1, z]; ring
  · simp only [faceXdy, e1, e2, z, hC.h2v, hC.h2f, d1, d2, show i - 1 + 1 = i by omega, show j - 1 + 1 = j by omega, a01]
    split
    · field_simp; ring
    · simp only [(z2 ‹_›).1]; ring
  · simp only [faceXdz, e1, e3, z, hC.h31v, hC.h31f, hC.h32v, d1, d3, show i - 1 + 1 = i by omega, show k - 1 + 1 = k by omega, a02]
    split
    · field_simp; ring
    · simp only [(z3 ‹_›).1]; ring
  · simp only [faceYdx, e1, e2, z, hC.h2v, d1, d2, show i - 1 + 1 = i by omega, show j - 1 + 1 = j by omega, a01]
    split
    · field_simp; ring
    · simp only [(z2 ‹_›).1]; ring
  · simp only [faceYdy, e1, e2, z, hC.dh2]; split <;> ring
  · simp only [faceYdz, e2, e3, z, hC.h2v, hC.h31v, hC.h32v, hC.h32f, ite_self, d2, d3, show j - 1 + 1 = j by omega,
      show k - 1 + 1 = k by omega, a12]
    split
    · field_simp; ring
    · split
      · simp only [(z3 ‹_›).2.2.2]; ring
      · rfl
  · simp only [faceZdx, e1, e3, z, hC.h31v, d1, d3, show i - 1 + 1 = i by omega, show k - 1 + 1 = k by omega, a02]
    split
    · field_simp; ring
    · simp only [(z3 ‹_›).1]; ring
  · simp only [faceZdy, e2, e3, z, hC.h2v, hC.h31v, hC.h32v, d2, d3, show j - 1 + 1 = j by omega,
      show k - 1 + 1 = k by omega, a12]
    split
    · field_simp; ring
    · split
      · simp only [(z3 ‹_›).2.2.2]; ring
      · rfl
  · simp only [faceZdz, e1, e2, e3, z, hC.dh31, hC.dh32]; split <;> ring
  · simp only [divVel, hC.a1, hC.a2, hC.a3, hC.vol, e1, e2, e3, z]
    split <;> split <;> ring

/-- Velocities proportional to the scale factors have no stress. -/
theorem no_stress_scale (d : Dims) (V : Vis K) {P Q : K} (h1 : ∀ k j i, V.pi (1, k, j, i) = 0)
    (h2 : ∀ k j i, V.pi (2, k, j, i) = P * V.M.h2v i) (h3 : ∀ k j i, V.pi (3, k, j, i) = Q * V.M.h31v i * V.M.h32v j)
    (n2 : ∀ i, V.M.h2v i ≠ 0) (n3 : ∀ i, V.M.h31v i ≠ 0) (n32 : ∀ j, V.M.h32v j ≠ 0)
    (hP : P = 0 ∨ (∀ j, V.M.dh32vd2 j = 0) ∧ ∀ k j i, V.G.a2 (k, j+1, i) = V.G.a2 (k, j, i))
    (hQ : ∀ k j i, V.G.a3 (k+1, j, i) = V.G.a3 (k, j, i)) (n : Int) {k j i : Int} (hi : d.is ≤ i) :
    ((viscousFlux d V).x1 (n, k, j, i) = 0) ∧ (i ≤ d.ie → (viscousFlux d V).x2 (n, k, j, i) = 0 ∧
      (viscousFlux d V).x3 (n, k, j, i) = 0) := by
  have f2 : ∀ i, P * V.M.h2v i / V.M.h2v i = P := fun i => mul_div_cancel_right₀ _ (n2 i)
  have f3 : ∀ i j, Q * V.M.h31v i * V.M.h32v j / V.M.h31v i = Q * V.M.h32v j := by
    intro i j; have := n3 i; field_simp
  have f32 : ∀ i j, Q * V.M.h31v i * V.M.h32v j / V.M.h32v j = Q * V.M.h31v i := by
    intro i j; have := n32 j; field_simp
  refine no_stress d V (fun k j i _ => ⟨fun _ => ⟨?_, ?_, ?_, ?_, ?_, ?_, ?_, ?_, ?_⟩, ?_⟩) n hi
  · simp only [faceXdx, h1]; ring
  · simp only [faceXdy, h1, h2, f2]; split <;> ring
  · simp only [faceXdz, h1, h3, f3]; split <;> ring
  · simp only [faceYdx, h1, h2, add_div, f2]; split <;> ring
  · simp only [faceYdy, h1, h2]; split <;> ring
  · simp only [faceYdz, h2, h3, f32]
    split
    · ring
    · split
      · ring
      · rfl
  · simp only [faceZdx, h1, h3, add_div, f3]; split <;> ring
  · simp only [faceZdy, h2, h3, add_div, f32]
    split
    · ring
    · split
      · ring
      · rfl
  · simp only [faceZdz, h1, h2, h3]
    rcases hP with hP | hP
    · simp only [hP]; split <;> ring
    · simp only [hP.1]; split <;> ring
  · simp only [divVel, h1, h2, h3, hQ]
    rcases hP with hP | hP
    · simp only [hP]; split <;> split <;> ring
    · simp only [hP.2]; split <;> split <;> ring

/-- The viscous fluxes through the faces of directions 1, 2 and 3 of a block with three dimensions, in any orthogonal
coordinates, for velocities linear in the coordinates apart from the scale factors: density (one) times viscosity (one) times
the covariant derivatives at the face, and minus a third of the divergences of the two cells in the diagonal components.
In the third direction the derivative `c 0` of the first velocity component lacks its scale factors (finding). -/
theorem viscous_curvilinear (d : Dims) (hd2 : d.nx2 > 1) (hd3 : d.nx3 > 1) (V : Vis K) {x1 x2 x3 : Int → K} {a r b c : Fin 3 → K}
    (hL : LinearCov V.M x1 x2 x3 a r b c V.pi) (hx : ∀ x, x1 x < x1 (x+1) ∧ x2 x < x2 (x+1) ∧ x3 x < x3 (x+1))
    (h0 : ∀ k j i, V.pi (0, k, j, i) = 1) (hnu : ∀ q, V.nu q = 1)
    (n2 : ∀ i, V.M.h2v i ≠ 0) (n3 : ∀ i, V.M.h31v i ≠ 0) (n32 : ∀ j, V.M.h32v j ≠ 0) {k j i : Int}
    (hk : d.ks ≤ k ∧ k ≤ d.ke) (hj : d.js ≤ j ∧ j ≤ d.je) (hi : d.is ≤ i ∧ i ≤ d.ie) :
    let F := viscousFlux d V
    let D := divVel d V.G V.pi
    (F.x1 (1, k, j, i) = 1 / 3 * (D k j i + D k j (i-1)) ∧
      F.x1 (2, k, j, i) = -(V.M.h2f i * r 1 + b 0 / V.M.h2f i) ∧
      F.x1 (3, k, j, i) = -(V.M.h31f i * V.M.h32v j * r 2 + c 0 / (V.M.h31f i * V.M.h32v j))) ∧
    (F.x2 (1, k, j, i) = -(b 0 / V.M.h2v i + V.M.h2v i * r 1) ∧
      F.x2 (2, k, j, i) = -(2 * b 1 + (V.pi (1, k, j, i) + V.pi (1, k, j-1, i)) * V.M.dh2vd1 i / V.M.h2v i)
        + 1 / 3 * (D k (j-1) i + D k j i) ∧
      (V.M.pole j = false → F.x2 (3, k, j, i) = -(V.M.h32f j * V.M.h31v i * b 2 / V.M.h2v i
        + V.M.h2v i * c 1 / (V.M.h31v i * V.M.h32f j)))) ∧
    (F.x3 (1, k, j, i) = -(c 0 + V.M.h31v i * V.M.h32v j * r 2) ∧
      F.x3 (2, k, j, i) = -(V.M.h2v i * c 1 / (V.M.h31v i * V.M.h32v j) + V.M.h32v j * V.M.h31v i * b 2 / V.M.h2v i) ∧
      F.x3 (3, k, j, i) = -(2 * c 2 + (V.pi (1, k, j, i) + V.pi (1, k-1, j, i)) * V.M.dh31vd1 i / V.M.h31v i
        + (V.pi (2, k, j, i) + V.pi (2, k-1, j, i)) * V.M.dh32vd2 j / (V.M.h32v j * V.M.h2v i))
        + 1 / 3 * (D (k-1) j i + D k j i)) := by
  intro F D
  have g1 := gk (V.mag = true)
  have g2 := gk (V.mag = true ∧ d.nx2 > 1)
  have g3 := gk (V.mag = true ∧ d.nx3 > 1)
  have c1 : ∀ f1 f2 f3 e : K, comps V.nonBaro 1 f1 f2 f3 e = f1 := fun _ _ _ _ => rfl
  have c2 : ∀ f1 f2 f3 e : K, comps V.nonBaro 2 f1 f2 f3 e = f2 := fun _ _ _ _ => rfl
  have c3 : ∀ f1 f2 f3 e : K, comps V.nonBaro 3 f1 f2 f3 e = f3 := fun _ _ _ _ => rfl
  have hc : d.is ≤ i ∧ i ≤ d.ie := hi
  have ei : i - 1 + 1 = i := by omega
  have ej : j - 1 + 1 = j := by omega
  have ek : k - 1 + 1 = k := by omega
  have q1 := (hx (i-1)).1
  have q2 := (hx (j-1)).2.1
  have q3 := (hx (k-1)).2.2
  have q1' := (hx i).1
  have q2' := (hx j).2.1
  have q3' := (hx k).2.2
  rw [ei] at q1
  rw [ej] at q2
  rw [ek] at q3
  have r1 : x1 i - x1 (i-1) ≠ 0 := by linarith
  have r2 : x2 j - x2 (j-1) ≠ 0 := by linarith
  have r3 : x3 k - x3 (k-1) ≠ 0 := by linarith
  have s1 : x1 i - x1 (i-1) + (x1 (i+1) - x1 i) ≠ 0 := by linarith
  have s2 : x2 j - x2 (j-1) + (x2 (j+1) - x2 j) ≠ 0 := by linarith
  have s3 : x3 k - x3 (k-1) + (x3 (k+1) - x3 k) ≠ 0 := by linarith
  have f2 : ∀ i k j, V.M.h2v i * (a 1 + r 1 * x1 i + b 1 * x2 j + c 1 * x3 k) / V.M.h2v i
      = a 1 + r 1 * x1 i + b 1 * x2 j + c 1 * x3 k := fun i k j => mul_div_cancel_left₀ _ (n2 i)
  have f3 : ∀ i k j, V.M.h31v i * V.M.h32v j * (a 2 + r 2 * x1 i + b 2 * x2 j + c 2 * x3 k) / V.M.h31v i
      = V.M.h32v j * (a 2 + r 2 * x1 i + b 2 * x2 j + c 2 * x3 k) := by
    intro i k j; rw [mul_assoc, mul_div_cancel_left₀ _ (n3 i)]
  have f32 : ∀ i k j, V.M.h31v i * V.M.h32v j * (a 2 + r 2 * x1 i + b 2 * x2 j + c 2 * x3 k) / V.M.h32v j
      = V.M.h31v i * (a 2 + r 2 * x1 i + b 2 * x2 j + c 2 * x3 k) := by
    intro i k j; rw [mul_comm (V.M.h31v i), mul_assoc, mul_div_cancel_left₀ _ (n32 j)]
  have m2 := n2 i
  have m3 := n3 i
  have m32 := n32 j
  have X1 : F.x1 = (viscousFlux d V).x1 := rfl
  have X2 : F.x2 = (viscousFlux d V).x2 := rfl
  have X3 : F.x3 = (viscousFlux d V).x3 := rfl
  have i1 : d.ks - (if V.mag = true ∧ d.nx3 > 1 then 1 else 0) ≤ k ∧ k ≤ d.ke + (if V.mag = true ∧ d.nx3 > 1 then 1 else 0) ∧
      d.js - (if V.mag = true ∧ d.nx2 > 1 then 1 else 0) ≤ j ∧ j ≤ d.je + (if V.mag = true ∧ d.nx2 > 1 then 1 else 0) ∧
      d.is ≤ i ∧ i ≤ d.ie + 1 := by refine ⟨?_, ?_, ?_, ?_, ?_, ?_⟩ <;> omega
  have i2 : d.ks - (if V.mag = true ∧ d.nx3 > 1 then 1 else 0) ≤ k ∧ k ≤ d.ke + (if V.mag = true ∧ d.nx3 > 1 then 1 else 0) ∧
      d.js ≤ j ∧ j ≤ d.je + 1 ∧ d.is - (if V.mag = true then 1 else 0) ≤ i ∧ i ≤ d.ie + (if V.mag = true then 1 else 0) := by
    refine ⟨?_, ?_, ?_, ?_, ?_, ?_⟩ <;> omega
  have i3 : d.ks ≤ k ∧ k ≤ d.ke + 1 ∧ d.js - (if V.mag = true ∧ d.nx2 > 1 then 1 else 0) ≤ j ∧
      j ≤ d.je + (if V.mag = true ∧ d.nx2 > 1 then 1 else 0) ∧
      d.is - (if V.mag = true then 1 else 0) ≤ i ∧ i ≤ d.ie + (if V.mag = true then 1 else 0) := by
    refine ⟨?_, ?_, ?_, ?_, ?_, ?_⟩ <;> omega
  simp only [X1, X2, X3, D]
  simp only [viscousFlux, if_pos i1, if_pos i2, if_pos i3, if_pos hd2, if_pos hd3, visX1, visX2, visX3, col, if_pos hc, c1, c2, c3,
    h0, hnu]
  refine ⟨⟨?_, ?_, ?_⟩, ⟨?_, ?_, fun hpole => ?_⟩, ?_, ?_, ?_⟩
  · simp only [faceXdx, hL.v1]; ring
  · simp only [faceXdy, if_pos hd2, hL.v1, hL.v2, f2, hL.d1, hL.d2, ei, ej]
    have e1 : V.M.h2f i * (a 1 + r 1 * x1 i + b 1 * x2 j + c 1 * x3 k - (a 1 + r 1 * x1 (i-1) + b 1 * x2 j + c 1 * x3 k))
        / (x1 i - x1 (i-1)) = V.M.h2f i * r 1 := by field_simp; ring
    have e2 : 1 / 2 * (a 0 + b 0 * x2 (j+1) + c 0 * x3 k + (a 0 + b 0 * x2 (j+1) + c 0 * x3 k) - (a 0 + b 0 * x2 (j-1) + c 0 * x3 k
        + (a 0 + b 0 * x2 (j-1) + c 0 * x3 k))) / V.M.h2f i / (x2 j - x2 (j-1) + (x2 (j+1) - x2 j)) = b 0 / V.M.h2f i := by
      rw [div_right_comm]; congr 1; field_simp; ring
    rw [e1, e2]; ring
  · simp only [faceXdz, if_pos hd3, hL.v1, hL.v3, f3, hL.d1, hL.d3, ei, ek]
    have e1 : V.M.h31f i * (V.M.h32v j * (a 2 + r 2 * x1 i + b 2 * x2 j + c 2 * x3 k)
        - V.M.h32v j * (a 2 + r 2 * x1 (i-1) + b 2 * x2 j + c 2 * x3 k)) / (x1 i - x1 (i-1)) = V.M.h31f i * V.M.h32v j * r 2 := by
      field_simp; ring
    have e2 : 1 / 2 * (a 0 + b 0 * x2 j + c 0 * x3 (k+1) + (a 0 + b 0 * x2 j + c 0 * x3 (k+1)) - (a 0 + b 0 * x2 j + c 0 * x3 (k-1)
        + (a 0 + b 0 * x2 j + c 0 * x3 (k-1)))) / V.M.h31f i / V.M.h32v j / (x3 k - x3 (k-1) + (x3 (k+1) - x3 k))
        = c 0 / (V.M.h31f i * V.M.h32v j) := by
      rw [div_right_comm, div_right_comm _ (V.M.h31f i), div_div]; congr 1; field_simp; ring
    rw [e1, e2]; ring
  · simp only [faceYdx, if_pos hd2, hL.v1, hL.v2, add_div, f2, hL.d1, hL.d2, ei, ej]
    field_simp; ring
  · simp only [faceYdy, if_pos hd2, hL.v1, hL.v2, hL.d2, ej]
    field_simp; ring
  · simp only [faceYdz, if_pos hd3, hL.v2, hL.v3, f32, hL.d2, hL.d3, ej, ek, hpole]
    have e1 : V.M.h32f j * (V.M.h31v i * (a 2 + r 2 * x1 i + b 2 * x2 j + c 2 * x3 k)
        - V.M.h31v i * (a 2 + r 2 * x1 i + b 2 * x2 (j-1) + c 2 * x3 k)) / V.M.h2v i / (x2 j - x2 (j-1))
        = V.M.h32f j * V.M.h31v i * b 2 / V.M.h2v i := by
      rw [div_right_comm]; congr 1; field_simp; ring
    have e2 : ∀ h : K, 1 / 2 * (V.M.h2v i * (a 1 + r 1 * x1 i + b 1 * x2 j + c 1 * x3 (k+1))
        + V.M.h2v i * (a 1 + r 1 * x1 i + b 1 * x2 (j-1) + c 1 * x3 (k+1))
        - (V.M.h2v i * (a 1 + r 1 * x1 i + b 1 * x2 j + c 1 * x3 (k-1))
          + V.M.h2v i * (a 1 + r 1 * x1 i + b 1 * x2 (j-1) + c 1 * x3 (k-1)))) / V.M.h31v i
        / (x3 k - x3 (k-1) + (x3 (k+1) - x3 k)) / h = V.M.h2v i * c 1 / (V.M.h31v i * h) := by
      intro h
      rw [div_right_comm _ (V.M.h31v i), div_div]; congr 1; field_simp; ring
    rw [e1, e2]
    simp only [Bool.false_eq_true, if_false]
    ring
  · simp only [faceZdx, if_pos hd3, hL.v1, hL.v3, add_div, f3, hL.d1, hL.d3, ei, ek]
    field_simp; ring
  · simp only [faceZdy, if_pos hd3, hL.v2, hL.v3, add_div, f32, hL.d2, hL.d3, ej, ek]
    field_simp; ring
  · simp only [faceZdz, if_pos hd3, hL.v1, hL.v2, hL.v3, hL.d3, ek]
    field_simp; ring

end

section
open Coord (XF x1v x2v x3v)

/-- In cylindrical coordinates a rigid rotation about the axis, with any constant velocity along it, has no viscous fluxes. -/
theorem viscous_rotation_cylindrical (d : Dims) (X : XF) (pole : ℤ → Bool) (V : Vis ℝ) (hG : V.G = Coord.geom X .cylindrical)
    (hM : V.M = met .cylindrical X d.nx2 d.nx3 pole) (hr : ∀ i, x1v X .cylindrical i ≠ 0) {Om w : ℝ}
    (h1 : ∀ k j i, V.pi (1, k, j, i) = 0) (h2 : ∀ k j i, V.pi (2, k, j, i) = Om * x1v X .cylindrical i)
    (h3 : ∀ k j i, V.pi (3, k, j, i) = w) (n : ℤ) {k j i : ℤ} (hi : d.is ≤ i) :
    ((viscousFlux d V).x1 (n, k, j, i) = 0) ∧ (i ≤ d.ie → (viscousFlux d V).x2 (n, k, j, i) = 0 ∧
      (viscousFlux d V).x3 (n, k, j, i) = 0) := by
  refine no_stress_scale d V (P := Om) (Q := w) h1 (by rw [hM]; exact h2)
    (by rw [hM]; intro k j i; rw [h3]; simp only [met, Orbital.h32v]; ring) (by rw [hM]; exact hr)
    (by rw [hM]; intro i; exact one_ne_zero) (by rw [hM]; intro i; exact one_ne_zero) (Or.inr ⟨?_, ?_⟩) ?_ n hi
  · rw [hM]; intro j; rfl
  · rw [hG]; intro k j i; rfl
  · rw [hG]; intro k j i; rfl

/-- In spherical coordinates a rigid rotation about the polar axis has no viscous fluxes. -/
theorem viscous_rotation_spherical (d : Dims) (X : XF) (pole : ℤ → Bool) (V : Vis ℝ) (hG : V.G = Coord.geom X .spherical)
    (hM : V.M = met .spherical X d.nx2 d.nx3 pole) (hr : ∀ i, x1v X .spherical i ≠ 0)
    (hs : ∀ j, Real.sin (x2v X d.nx2 .spherical j) ≠ 0) {Om : ℝ}
    (h1 : ∀ k j i, V.pi (1, k, j, i) = 0) (h2 : ∀ k j i, V.pi (2, k, j, i) = 0)
    (h3 : ∀ k j i, V.pi (3, k, j, i) = Om * x1v X .spherical i * Real.sin (x2v X d.nx2 .spherical j)) (n : ℤ) {k j i : ℤ}
    (hi : d.is ≤ i) :
    ((viscousFlux d V).x1 (n, k, j, i) = 0) ∧ (i ≤ d.ie → (viscousFlux d V).x2 (n, k, j, i) = 0 ∧
      (viscousFlux d V).x3 (n, k, j, i) = 0) := by
  refine no_stress_scale d V (P := 0) (Q := Om) h1 (by intro k j i; rw [h2, zero_mul]) (by rw [hM]; exact h3)
    (by rw [hM]; exact hr) (by rw [hM]; exact hr) (by rw [hM]; exact hs) (Or.inl rfl) ?_ n hi
  rw [hG]; intro k j i; rfl

/-- FINDING: in spherical coordinates in three dimensions `FaceZdx` does not divide the derivative of the radial velocity along
the azimuth by the distance from the axis. For a radial velocity `α φ`, density and viscosity one, the stress of the
azimuthal momentum on a radial face is `α/(r sin θ)`, as it should; the stress of the radial momentum on an azimuthal face,
equal to it by the symmetry of the stress tensor, is `α` at every radius and latitude. -/
theorem viscous_spherical_asymmetric (d : Dims) (hd : d.nx3 > 1) (X : XF) (pole : ℤ → Bool) (V : Vis ℝ)
    (hM : V.M = met .spherical X d.nx2 d.nx3 pole) {al : ℝ} (hx : ∀ k, x3v X k < x3v X (k+1))
    (h0 : ∀ k j i, V.pi (0, k, j, i) = 1) (hnu : ∀ q, V.nu q = 1)
    (h1 : ∀ k j i, V.pi (1, k, j, i) = al * x3v X k) (h3 : ∀ k j i, V.pi (3, k, j, i) = 0) {k j i : ℤ}
    (hk : d.ks ≤ k ∧ k ≤ d.ke) (hj : d.js ≤ j ∧ j ≤ d.je) (hi : d.is ≤ i ∧ i ≤ d.ie) :
    (viscousFlux d V).x1 (3, k, j, i) = -(al / (X.x1.xf i * Real.sin (x2v X d.nx2 .spherical j))) ∧
      (viscousFlux d V).x3 (1, k, j, i) = -al := by
  have g1 := gk (V.mag = true)
  have g2 := gk (V.mag = true ∧ d.nx2 > 1)
  have g3 := gk (V.mag = true ∧ d.nx3 > 1)
  have c1 : ∀ f1 f2 f3 e : ℝ, comps V.nonBaro 1 f1 f2 f3 e = f1 := fun _ _ _ _ => rfl
  have c3 : ∀ f1 f2 f3 e : ℝ, comps V.nonBaro 3 f1 f2 f3 e = f3 := fun _ _ _ _ => rfl
  have hc : d.is ≤ i ∧ i ≤ d.ie := hi
  have q := (sub_pos.2 (hx k))
  have q' := (sub_pos.2 (hx (k-1)))
  rw [show k - 1 + 1 = k by omega] at q'
  have n3 : ¬ d.nx3 = 1 := by omega
  constructor
  · simp only [viscousFlux]
    rw [if_pos ⟨by omega, by omega, by omega, by omega, by omega, by omega⟩]
    simp only [visX1, c3, faceXdz, if_pos hd, h0, hnu, h1, h3, hM, met, if_neg n3, Orbital.h32v, show k - 1 + 1 = k by omega]
    have e : 1 / 2 * (al * x3v X (k+1) + al * x3v X (k+1) - (al * x3v X (k-1) + al * x3v X (k-1)))
        = al * (x3v X k - x3v X (k-1) + (x3v X (k+1) - x3v X k)) := by ring
    have e0 : x3v X k - x3v X (k-1) + (x3v X (k+1) - x3v X k) ≠ 0 := by linarith
    have f : ∀ {D x s : ℝ}, D ≠ 0 → al * D / x / s / D = al / (x * s) := by
      intro D x s hD
      rw [div_right_comm (al * D / x) s D, div_right_comm (al * D) x D, mul_div_cancel_right₀ _ hD, div_div]
    rw [e, f e0]
    ring
  · simp only [viscousFlux, if_pos hd]
    rw [if_pos ⟨by omega, by omega, by omega, by omega, by omega, by omega⟩]
    simp only [visX3, c1, col, if_pos hc, faceZdx, if_pos hd, h0, hnu, h1, h3, hM, met, if_neg n3, show k - 1 + 1 = k by omega]
    have := q'.ne'
    rw [show al * x3v X k - al * x3v X (k-1) = al * (x3v X k - x3v X (k-1)) by ring, mul_div_cancel_right₀ _ this]
    ring

/-- A mesh that meets the hypotheses: radii growing by a constant factor, one cell at polar angle 1, equal azimuthal cells. -/
example : ∃ X : XF, (∀ i, x1v X .cylindrical i ≠ 0) ∧ (∀ i, x1v X .spherical i ≠ 0) ∧
    (∀ j, Real.sin (x2v X 1 .spherical j) ≠ 0) ∧ ∀ k, x3v X k < x3v X (k+1) := by
  have hp : ∀ i : ℤ, (0 : ℝ) < Real.exp i := fun i => Real.exp_pos _
  have hlt : ∀ i : ℤ, Real.exp (i : ℝ) < Real.exp ((i+1 : ℤ) : ℝ) := fun i => Real.exp_lt_exp.2 (by push_cast; linarith)
  refine ⟨⟨⟨fun i => Real.exp i, fun _ => 1⟩, ⟨fun _ => 1, fun _ => 1⟩, ⟨fun k => k, fun _ => 1⟩⟩, fun i => ?_, fun i => ?_,
    fun j => ?_, fun k => ?_⟩
  · simp only [x1v, Coord.cyl1]
    have h1 := pow_lt_pow_left₀ (hlt i) (hp i).le (n := 2) (by decide)
    have h2 := pow_lt_pow_left₀ (hlt i) (hp i).le (n := 3) (by decide)
    exact ne_of_gt (div_pos (mul_pos (by norm_num) (sub_pos.2 h2)) (sub_pos.2 h1))
  · simp only [x1v]
    have h1 := pow_lt_pow_left₀ (hlt i) (hp i).le (n := 4) (by decide)
    have h2 := pow_lt_pow_left₀ (hlt i) (hp i).le (n := 3) (by decide)
    exact ne_of_gt (div_pos (mul_pos (by norm_num) (sub_pos.2 h1)) (sub_pos.2 h2))
  · simp only [x2v, if_true, Coord.mid]
    norm_num
    exact (Real.sin_pos_of_pos_of_lt_pi one_pos (by linarith [Real.two_le_pi])).ne'
  · simp only [x3v, Coord.mid]
    push_cast
    linarith

end

section
variable {K : Type} [Field K] [LinearOrder K] [IsStrictOrderedRing K]

/-- A flow of alternating sign, `a` in even and `-a` in odd cells. -/
def alt (a : K) (i : Int) : K := if i % 2 = 0 then a else -a

theorem alt_succ (a : K) (i : Int) : alt a (i+1) = -alt a i := by
  unfold alt
  rcases Int.emod_two_eq_zero_or_one i with h | h
  · rw [if_pos h, if_neg (c := (i+1) % 2 = 0) (by omega)]
  · rw [if_neg (c := i % 2 = 0) (by omega), if_pos (c := (i+1) % 2 = 0) (by omega), neg_neg]

/-- One stage of an alternating one-dimensional flow along direction 1 with uniform density: the viscous fluxes multiply the
momentum by `1 - 8 w ν/h²`. -/
theorem viscous_alternating (d : Dims) (hd2 : d.nx2 ≤ 1) (hd3 : d.nx3 ≤ 1) (V : Vis K) {h b c r nu a : K}
    (hC : Cartesian V.G V.M (fun _ => h) (fun _ => b) (fun _ => c)) (hh : 0 < h ∧ 0 < b ∧ 0 < c)
    (h0 : ∀ k j i, V.pi (0, k, j, i) = r) (hnu : ∀ q, V.nu q = nu) (h1 : ∀ k j i, V.pi (1, k, j, i) = alt a i)
    {nv : Nat} (hnv : 4 < nv) (w : K) (u : A4 K) {k j i : Int} (hc : Act d k j i) :
    addFluxDivergence d nv V.G (viscousFlux d V) w u (1, k, j, i) = u (1, k, j, i) - 8 * w * nu / h ^ 2 * (r * alt a i) := by
  obtain ⟨hk, hj, hi⟩ := hc
  have n1 := hh.1.ne'
  have n2 := hh.2.1.ne'
  have n3 := hh.2.2.ne'
  have z2 : ¬ d.nx2 > 1 := by omega
  have z3 : ¬ d.nx3 > 1 := by omega
  have dv : ∀ k j i, divVel d V.G V.pi k j i = 0 := by
    intro k j i
    have e := alt_succ a (i-1)
    rw [show i - 1 + 1 = i by omega] at e
    simp only [divVel, if_neg z2, if_neg z3, h1, hC.a1, alt_succ, e]
    ring
  have F : ∀ x, d.is ≤ x ∧ x ≤ d.ie + 1 → (viscousFlux d V).x1 (1, k, j, x) = -(4 * r * nu * alt a x / h) := by
    intro x hx
    have e := alt_succ a (x-1)
    rw [show x - 1 + 1 = x by omega] at e
    have g2 := gk (V.mag = true ∧ d.nx2 > 1)
    have g3 := gk (V.mag = true ∧ d.nx3 > 1)
    have c1 : ∀ f1 f2 f3 e : K, comps V.nonBaro 1 f1 f2 f3 e = f1 := fun _ _ _ _ => rfl
    simp only [viscousFlux]
    rw [if_pos ⟨by omega, by omega, by omega, by omega, by omega, by omega⟩]
    simp only [visX1, c1, faceXdx, h0, hnu, h1, dv, hC.d1, e]
    field_simp
    ring
  rw [addFlux_in d nv V.G (viscousFlux d V) w u (n := 1) ⟨by omega, by omega⟩ hk hj hi]
  simp only [dflx, if_neg z2, if_neg z3, hC.a1, hC.vol, F i ⟨by omega, by omega⟩, F (i+1) ⟨by omega, by omega⟩, alt_succ]
  field_simp
  ring

/-- FINDING: the time step of `NewDiffusionDt` times the Courant number is not a limit of stability in one dimension, where
Courant numbers up to one are accepted. An alternating flow is multiplied by `1 - z + z²/2` in a step of the `vl2`
integrator, `z = 8 ν dt/h²`: half a step for the predictor, whose velocity gives the fluxes of the corrector. The flow grows
exactly when `dt` exceeds `h²/(4ν)`, half the limit. `a1` is the velocity after the predictor, `a2` after the step. -/
theorem viscous_growth (d : Dims) (hd2 : d.nx2 ≤ 1) (hd3 : d.nx3 ≤ 1) (V V1 : Vis K) {h b c r nu a a1 a2 dt : K}
    (hC : Cartesian V.G V.M (fun _ => h) (fun _ => b) (fun _ => c)) (hC1 : Cartesian V1.G V1.M (fun _ => h) (fun _ => b) (fun _ => c))
    (hh : 0 < h ∧ 0 < b ∧ 0 < c) (hr : 0 < r) (hnu : 0 < nu) (ha : a ≠ 0) (hdt : 0 < dt)
    (h0 : ∀ k j i, V.pi (0, k, j, i) = r) (hn : ∀ q, V.nu q = nu) (h1 : ∀ k j i, V.pi (1, k, j, i) = alt a i)
    (h0' : ∀ k j i, V1.pi (0, k, j, i) = r) (hn' : ∀ q, V1.nu q = nu) (h1' : ∀ k j i, V1.pi (1, k, j, i) = alt a1 i)
    {nv : Nat} (hnv : 4 < nv) {u : A4 K} {k j i : Int} (hc : Act d k j i) (hu : u (1, k, j, i) = r * alt a i)
    (hs1 : r * alt a1 i = addFluxDivergence d nv V.G (viscousFlux d V) (dt / 2) u (1, k, j, i))
    (hs2 : r * alt a2 i = addFluxDivergence d nv V1.G (viscousFlux d V1) dt u (1, k, j, i)) :
    |a| < |a2| ↔ h ^ 2 / (4 * nu) < dt := by
  have e1 := viscous_alternating d hd2 hd3 V hC hh h0 hn h1 hnv (dt / 2) u hc
  have e2 := viscous_alternating d hd2 hd3 V1 hC1 hh h0' hn' h1' hnv dt u hc
  rw [hu] at e1 e2
  rw [e1] at hs1
  rw [e2] at hs2
  set z := 8 * dt * nu / h ^ 2 with hz
  have hh2 : 0 < h ^ 2 := pow_pos hh.1 2
  have hz0 : 0 < z := div_pos (by positivity) hh2
  have hz' : 8 * (dt / 2) * nu / h ^ 2 = z / 2 := by rw [hz]; ring
  rw [hz'] at hs1
  have k1 : alt a1 i = (1 - z / 2) * alt a i := by
    have := hr.ne'
    apply mul_left_cancel₀ this
    rw [hs1]; ring
  have k2 : alt a2 i = (1 - z + z ^ 2 / 2) * alt a i := by
    have := hr.ne'
    apply mul_left_cancel₀ this
    rw [hs2, k1]; ring
  have k3 : a2 = (1 - z + z ^ 2 / 2) * a := by
    unfold alt at k2
    split at k2
    · exact k2
    · linarith
  have hp : 0 < 1 - z + z ^ 2 / 2 := by nlinarith [sq_nonneg (z - 1)]
  rw [k3, abs_mul, abs_of_pos hp]
  have ha' := abs_pos.2 ha
  have e : h ^ 2 / (4 * nu) < dt ↔ 2 < z := by
    rw [hz, div_lt_iff₀ (by positivity), lt_div_iff₀ hh2]
    constructor <;> intro h <;> linarith
  rw [e]
  constructor
  · intro hlt
    by_contra hcon
    have : z ^ 2 / 2 ≤ z := by nlinarith
    nlinarith
  · intro hlt
    have : 0 < z ^ 2 / 2 - z := by nlinarith
    nlinarith

/-- Steps within the limit that grow: with `h = 1/8` and `ν = 1/10` a step between the two numbers. -/
example : let d : Dims := ⟨2, 4, 1, 1⟩
    (1/15 : ℚ) ≤ newDt d true 100 (1/1000) (fun _ => 1/8) (fun _ => 1/8) (fun _ => 1/8) (fun _ => 1/10) ∧
    (1/8 : ℚ) ^ 2 / (4 * (1/10)) < 1/15 := by
  refine ⟨by decide +kernel, by norm_num⟩

/-! ## Cases -/

/-- Cubes of side 1/8. -/
def visG : Geom ℚ := ⟨fun _ => 1/64, fun _ => 1/64, fun _ => 1/64, fun _ => 1/512⟩
def visM : Met ℚ := ⟨fun _ => 1/8, fun _ => 1/8, fun _ => 1/8, fun _ => 1, fun _ => 1, fun _ => 1, fun _ => 1, fun _ => 1,
  fun _ => 1, fun _ => 0, fun _ => 0, fun _ => 0, fun _ => false⟩
/-- Density 2 and a velocity gradient with all entries different. -/
def visA : Fin 3 → Fin 3 → ℚ := fun a b => 1 + 3 * a.1 + b.1 ^ 2
def visP : A4 ℚ := fun q => if q.1 = 0 then 2 else
  1 / 3 + (1 + 3 * (q.1 - 1)) * (1/16 + 1/8 * q.2.2.2) + (2 + 3 * (q.1 - 1)) * (1/16 + 1/8 * q.2.2.1)
    + (5 + 3 * (q.1 - 1)) * (1/16 + 1/8 * q.2.1)
def visV : Vis ℚ := ⟨true, false, visG, visM, fun _ => 1/10, visP, visP, fun _ => 0, fun _ => 0, fun _ => 0⟩

/-- All hypotheses of `viscous_linear` and `viscous_work` in three dimensions. -/
example : Cartesian visV.G visV.M (fun _ => 1/8) (fun _ => 1/8) (fun _ => 1/8) ∧ Along ⟨2, 4, 4, 4⟩ visA ∧
    LinearVel (fun i => 1/16 + 1/8 * (i : ℚ)) (fun j => 1/16 + 1/8 * (j : ℚ)) (fun k => 1/16 + 1/8 * (k : ℚ)) (fun _ => 1/3) visA visV.pi ∧
    visV.nonBaro = true := by
  refine ⟨by constructor <;> intros <;> norm_num [visV, visG, visM], ⟨fun h => absurd (by decide) h, fun h => absurd (by decide) h⟩,
    fun a k j i => ?_, rfl⟩
  obtain rfl | rfl | rfl : a = 0 ∨ a = 1 ∨ a = 2 := by omega
  all_goals norm_num [visV, visP, visA]

/-- The flux of the first momentum component through a face of direction 3: `-2 · (1/10) · (A₁₃ + A₃₁)`. -/
example : (viscousFlux ⟨2, 4, 4, 4⟩ visV).x3 (1, 3, 2, 4) = -(2 * (1/10) * (5 + 7)) := by decide +kernel

/-- A rigid rotation of unequal cells. -/
example : let w : Int → ℚ := fun x => if x < 3 then 1 else 2
    let c : Int → ℚ := fun x => if x < 3 then x else 2 * x - 5/2;
    (∀ x, 0 < w x) ∧ (∀ x, c (x+1) - c x = (w x + w (x+1)) / 2) ∧
    (∀ a b : Fin 3, (![![0, 2, -3], ![-2, 0, 5], ![3, -5, 0]] a b : ℚ) = -![![0, 2, -3], ![-2, 0, 5], ![3, -5, 0]] b a) := by
  refine ⟨fun x => by dsimp only; split <;> norm_num, fun x => ?_, by decide +kernel⟩
  dsimp only
  rcases lt_trichotomy x 2 with h | h | h
  · rw [if_pos (c := x + 1 < 3) (by omega), if_pos (c := x < 3) (by omega), if_pos (by omega), if_pos (by omega)]
    push_cast; ring
  · subst h; norm_num
  · rw [if_neg (c := x + 1 < 3) (by omega), if_neg (c := x < 3) (by omega), if_neg (by omega), if_neg (by omega)]
    push_cast; ring

/-- Radii `2^i` (and other scale factors that are not one) with a field that has all derivatives. -/
example : ∃ (M : Met ℚ) (p : A4 ℚ) (a r b c : Fin 3 → ℚ),
    LinearCov M (fun i => 3 * i) (fun j => 2 * j) (fun k => (k : ℚ)) a r b c p ∧ (∀ q, p (0, q) = 1) ∧ (∀ i, M.h2v i ≠ 0) ∧
      (∀ i, M.h31v i ≠ 0) ∧ (∀ j, M.h32v j ≠ 0) ∧ (∀ x, r x ≠ 0 ∧ b x ≠ 0 ∧ c x ≠ 0) := by
  refine ⟨⟨fun _ => 3, fun _ => 2, fun _ => 1, fun i => 2 ^ i, fun i => 2 ^ i, fun i => 3 ^ i, fun i => 3 ^ i, fun i => 5 ^ i,
    fun i => 5 ^ i, fun _ => 1, fun _ => 1, fun _ => 1, fun _ => false⟩,
    fun q => if q.1 = 0 then 1 else if q.1 = 1 then 7 + 3 * (2 * q.2.2.1) + 4 * q.2.1
      else if q.1 = 2 then 2 ^ q.2.2.2 * (7 + 2 * (3 * q.2.2.2) + 3 * (2 * q.2.2.1) + 4 * q.2.1)
      else 3 ^ q.2.2.2 * 5 ^ q.2.2.1 * (7 + 2 * (3 * q.2.2.2) + 3 * (2 * q.2.2.1) + 4 * q.2.1),
    fun _ => 7, fun _ => 2, fun _ => 3, fun _ => 4, ?_, fun q => rfl, ?_, ?_, ?_, fun _ => ⟨by norm_num, by norm_num, by norm_num⟩⟩
  · constructor
    · intro i; push_cast; ring
    · intro i; push_cast; ring
    · intro i; push_cast; ring
    all_goals (intro k j i; rfl)
  all_goals (intro i; exact zpow_ne_zero _ (by norm_num))

end
end Verif.Diffusion
