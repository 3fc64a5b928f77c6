import Verif.Spec.Diffusion
import Verif.Lemmas.Diffusion
import Mathlib.Data.Sign.Basic
import Mathlib.Tactic.NormNum

/-!
# Heat conduction (C73)

Heat flows from hot to cold, each face's flux enters the energy once, and with the time step of `NewDiffusionDt` a gas of
uniform density takes no temperature outside the range it had. With strong density contrasts no such bound holds.
-/
namespace Verif.Diffusion
open Verif.Grid

section
variable {K : Type} [Field K]

/-- `AddDiffusionEnergyFlux` adds the flux of every face of every active cell exactly once to the energy flux, in the
directions that exist, and changes nothing else. -/
theorem energy_flux_once (d : Dims) (hd : 0 < d.nx1) (S : FF K) (F : Flx K) (n k j i : Int) :
    let F' := addEnergyFlux d S F
    F'.x1 (n, k, j, i) = F.x1 (n, k, j, i) +
        (if n = 4 ∧ (d.ks ≤ k ∧ k ≤ d.ke) ∧ (d.js ≤ j ∧ j ≤ d.je) ∧ d.is ≤ i ∧ i ≤ d.ie + 1 then S.x1f (k, j, i) else 0) ∧
      F'.x2 (n, k, j, i) = F.x2 (n, k, j, i) +
        (if d.nx2 > 1 ∧ n = 4 ∧ (d.ks ≤ k ∧ k ≤ d.ke) ∧ (d.js ≤ j ∧ j ≤ d.je + 1) ∧ d.is ≤ i ∧ i ≤ d.ie then S.x2f (k, j, i) else 0) ∧
      F'.x3 (n, k, j, i) = F.x3 (n, k, j, i) +
        (if d.nx3 > 1 ∧ n = 4 ∧ (d.ks ≤ k ∧ k ≤ d.ke + 1) ∧ (d.js ≤ j ∧ j ≤ d.je) ∧ d.is ≤ i ∧ i ≤ d.ie then S.x3f (k, j, i) else 0) :=
  ⟨addEnergy_x1 d (by simp only [Dims.is, Dims.ie]; omega) S F n k j i,
    addEnergy_x2 d (by simp only [Dims.js, Dims.je]; split <;> omega) S F n k j i,
    addEnergy_x3 d (by simp only [Dims.ks, Dims.ke]; split <;> omega) S F n k j i⟩

example : (0 : Int) < (⟨2, 8, 8, 1⟩ : Dims).nx1 := by decide

end

section
variable {K : Type} [Field K] [LinearOrder K]

/-- Where the temperature is the same everywhere no heat flows. -/
theorem conduction_isothermal (d : Dims) (mag : Bool) (M : Met K) (kappa : A3 K) (p : A4 K) (T : K)
    (h : ∀ k j i, p (4, k, j, i) / p (0, k, j, i) = T) (q : Int × Int × Int) :
    let S := thermalFlux d mag M kappa p
    S.x1f q = 0 ∧ S.x2f q = 0 ∧ S.x3f q = 0 := by
  simp only [thermalFlux, h, sub_self, zero_div, mul_zero, ite_self, and_self]

variable [IsStrictOrderedRing K]

/-- Heat flows from the hotter to the colder of the two cells at a face, whatever the coordinates, and not at all between
cells of equal temperature; at every face of the active cells in the directions that exist. -/
theorem conduction_downhill (d : Dims) (mag : Bool) (M : Met K) (kappa : A3 K) (p : A4 K)
    (hk : ∀ q, 0 < kappa q) (hp : ∀ q, 0 < p (0, q))
    (hM : ∀ x, 0 < M.dx1v x ∧ 0 < M.dx2v x ∧ 0 < M.dx3v x ∧ 0 < M.h2v x ∧ 0 < M.h31v x ∧ 0 < M.h32v x) {k j i : Int} :
    let S := thermalFlux d mag M kappa p
    let T : Int × Int × Int → K := fun q => p (4, q) / p (0, q)
    (d.ks ≤ k ∧ k ≤ d.ke → d.js ≤ j ∧ j ≤ d.je → d.is ≤ i ∧ i ≤ d.ie + 1 →
        SignType.sign (S.x1f (k, j, i)) = SignType.sign (T (k, j, i - 1) - T (k, j, i))) ∧
      (d.nx2 > 1 → d.ks ≤ k ∧ k ≤ d.ke → d.js ≤ j ∧ j ≤ d.je + 1 → d.is ≤ i ∧ i ≤ d.ie →
        SignType.sign (S.x2f (k, j, i)) = SignType.sign (T (k, j - 1, i) - T (k, j, i))) ∧
      (d.nx3 > 1 → d.ks ≤ k ∧ k ≤ d.ke + 1 → d.js ≤ j ∧ j ≤ d.je → d.is ≤ i ∧ i ≤ d.ie →
        SignType.sign (S.x3f (k, j, i)) = SignType.sign (T (k - 1, j, i) - T (k, j, i))) := by
  have key : ∀ a b a' b' c x y : K, 0 < a → 0 < b → 0 < a' → 0 < b' → 0 < c →
      SignType.sign (0 - 1 / 2 * (a' + b') * (1 / 2 * (a + b)) * ((y - x) / c)) = SignType.sign (x - y) := by
    intro a b a' b' c x y ha hb ha' hb' hc
    have e : 0 - 1 / 2 * (a' + b') * (1 / 2 * (a + b)) * ((y - x) / c) = (1 / 2 * (a' + b') * (1 / 2 * (a + b)) / c) * (x - y) := by
      ring
    have h : 0 < 1 / 2 * (a' + b') * (1 / 2 * (a + b)) / c := div_pos (mul_pos (by linarith) (by linarith)) hc
    rw [e, sign_mul, sign_pos h, one_mul]
  have gk : ∀ (c : Prop) [Decidable c], (0 : Int) ≤ if c then 1 else 0 := by intro c _; split <;> omega
  have g1 := gk (mag = true)
  have g2 := gk (mag = true ∧ d.nx2 > 1)
  have g3 := gk (mag = true ∧ d.nx3 > 1)
  simp only [thermalFlux]
  refine ⟨fun h1 h2 h3 => ?_, fun hd h1 h2 h3 => ?_, fun hd h1 h2 h3 => ?_⟩
  · rw [if_pos ⟨by omega, by omega, by omega, by omega, by omega, by omega⟩]
    exact key _ _ _ _ _ _ _ (hp _) (hp _) (hk _) (hk _) (hM _).1
  · rw [if_pos ⟨hd, by omega, by omega, by omega, by omega, by omega, by omega⟩, div_div]
    exact key _ _ _ _ _ _ _ (hp _) (hp _) (hk _) (hk _) (mul_pos (hM _).2.2.2.1 (hM _).2.1)
  · rw [if_pos ⟨hd, by omega, by omega, by omega, by omega, by omega, by omega⟩, div_div, div_div]
    exact key _ _ _ _ _ _ _ (hp _) (hp _) (hk _) (hk _) (mul_pos (hM _).2.2.1 (mul_pos (hM _).2.2.2.2.1 (hM _).2.2.2.2.2))

/-- Share of the neighbour at a face with mean coefficient `kf`, cell widths `a` (this cell) and `b`. -/
theorem share_le {g dt kf a b f : K} (hg : 0 ≤ g) (hg1 : g ≤ 1) (hdt : 0 ≤ dt) (hk : 0 ≤ kf) (ha : 0 < a) (hb : 0 < b)
    (h1 : dt * kf ≤ f * a ^ 2) (h2 : dt * kf ≤ f * b ^ 2) (hf : 0 ≤ f) :
    0 ≤ g * dt * kf / (a * ((a + b) / 2)) ∧ g * dt * kf / (a * ((a + b) / 2)) ≤ f := by
  have hp : 0 < a * ((a + b) / 2) := mul_pos ha (by linarith)
  refine ⟨div_nonneg (mul_nonneg (mul_nonneg hg hdt) hk) hp.le, ?_⟩
  rw [div_le_iff₀ hp]
  have h3 : g * dt * kf ≤ dt * kf := by
    have := mul_le_mul_of_nonneg_right hg1 (mul_nonneg hdt hk)
    linarith [mul_assoc g dt kf]
  refine h3.trans ?_
  rcases le_total a b with hab | hab
  · refine h1.trans (mul_le_mul_of_nonneg_left ?_ hf)
    nlinarith
  · refine h2.trans (mul_le_mul_of_nonneg_left ?_ hf)
    nlinarith

theorem mix {t x y lo hi c c' f : K} (hc : 0 ≤ c ∧ c ≤ f) (hc' : 0 ≤ c' ∧ c' ≤ f) (hx : lo ≤ x ∧ x ≤ hi) (hy : lo ≤ y ∧ y ≤ hi)
    (ht : lo ≤ t ∧ t ≤ hi) :
    2 * (f * (lo - t)) ≤ c * (x - t) + c' * (y - t) ∧ c * (x - t) + c' * (y - t) ≤ 2 * (f * (hi - t)) := by
  have aux : ∀ {c x : K}, 0 ≤ c ∧ c ≤ f → lo ≤ x ∧ x ≤ hi → f * (lo - t) ≤ c * (x - t) ∧ c * (x - t) ≤ f * (hi - t) := by
    intro c x hc hx
    constructor
    · have h1 := mul_le_mul_of_nonneg_left (sub_le_sub_right hx.1 t) hc.1
      have h2 := mul_le_mul_of_nonneg_right hc.2 (sub_nonneg.2 ht.1)
      linarith
    · have h1 := mul_le_mul_of_nonneg_left (sub_le_sub_right hx.2 t) hc.1
      have h2 := mul_le_mul_of_nonneg_right hc.2 (sub_nonneg.2 ht.2)
      linarith
  have h1 := aux hc hx
  have h2 := aux hc' hy
  exact ⟨by linarith [h1.1, h2.1], by linarith [h1.2, h2.2]⟩

/-- The flux divergence in a Cartesian cell, direction by direction. -/
theorem cart_dflx (d : Dims) {G : Geom K} {M : Met K} {w1 w2 w3 : Int → K} (hC : Cartesian G M w1 w2 w3)
    (hw : ∀ x, 0 < w1 x ∧ 0 < w2 x ∧ 0 < w3 x) (F : Flx K) (n k j i : Int) :
    dflx d G F n k j i / G.vol (k, j, i) = (F.x1 (n, k, j, i+1) - F.x1 (n, k, j, i)) / w1 i
      + (if d.nx2 > 1 then (F.x2 (n, k, j+1, i) - F.x2 (n, k, j, i)) / w2 j else 0)
      + (if d.nx3 > 1 then (F.x3 (n, k+1, j, i) - F.x3 (n, k, j, i)) / w3 k else 0) := by
  have h1 := (hw i).1.ne'
  have h2 := (hw j).2.1.ne'
  have h3 := (hw k).2.2.ne'
  simp only [dflx, hC.a1, hC.a2, hC.a3, hC.vol]
  split <;> split <;> field_simp <;> ring

/-- Heat gained across the two faces of one direction, in temperature. -/
theorem two_faces {g dt r w wm wp km kp T Tm Tp : K} (hr : r ≠ 0) (hw : 0 < w) (hm : 0 < wm) (hp : 0 < wp) :
    -(g * dt / r) * (((0 - kp * (1 / 2 * (r + r)) * ((Tp - T) / ((w + wp) / 2)))
        - (0 - km * (1 / 2 * (r + r)) * ((T - Tm) / ((wm + w) / 2)))) / w)
      = g * dt * km / (w * ((w + wm) / 2)) * (Tm - T) + g * dt * kp / (w * ((w + wp) / 2)) * (Tp - T) := by
  have h1 : w ≠ 0 := hw.ne'
  have h2 : w + wp ≠ 0 := by linarith
  have h3 : wm + w ≠ 0 := by linarith
  have h4 : w + wm ≠ 0 := by linarith
  field_simp
  ring

/-- A conduction step with the fluxes of `ThermalFluxIso` alone, on a Cartesian mesh, of a gas with uniform density around the
cell and `0 < γ - 1 ≤ 1`: if `dt κ` of a cell and its neighbours is at most `fac` times the square of each of their widths,
the new temperature of the cell is within the range of the temperatures the cell and its neighbours had. `kin` is the rest of
the energy (kinetic and magnetic). -/
theorem conduction_bounds (d : Dims) (mag : Bool) {G : Geom K} {M : Met K} {w1 w2 w3 : Int → K} (hC : Cartesian G M w1 w2 w3)
    (hw : ∀ x, 0 < w1 x ∧ 0 < w2 x ∧ 0 < w3 x) (kappa : A3 K) (p u : A4 K) {nv : Nat} (hnv : 4 < nv) {k j i : Int}
    (hc : Act d k j i) {g dt r kin lo hi : K} (hg : 0 < g) (hg1 : g ≤ 1) (hdt : 0 ≤ dt) (hr : 0 < r)
    (hrho : ∀ q, Next d k j i q → p (0, q) = r) (hkap : ∀ q, Next d k j i q → 0 ≤ kappa q)
    (hlim : ∀ q q', Next d k j i q → Next d k j i q' → dt * kappa q ≤ fac d * w1 q'.2.2 ^ 2 ∧
      (d.nx2 > 1 → dt * kappa q ≤ fac d * w2 q'.2.1 ^ 2) ∧ (d.nx3 > 1 → dt * kappa q ≤ fac d * w3 q'.1 ^ 2))
    (hT : ∀ q, Next d k j i q → lo ≤ p (4, q) / p (0, q) ∧ p (4, q) / p (0, q) ≤ hi)
    (hu : u (4, k, j, i) = p (4, k, j, i) / g + kin) :
    let u' := addFluxDivergence d nv G (addEnergyFlux d (thermalFlux d mag M kappa p) noFlux) dt u
    lo ≤ g * (u' (4, k, j, i) - kin) / r ∧ g * (u' (4, k, j, i) - kin) / r ≤ hi := by
  intro u'
  obtain ⟨hk, hj, hi'⟩ := hc
  have n0 : Next d k j i (k, j, i) := Or.inl rfl
  have n1 : Next d k j i (k, j, i-1) := Or.inr (Or.inl rfl)
  have n2 : Next d k j i (k, j, i+1) := Or.inr (Or.inr (Or.inl rfl))
  have n3 : d.nx2 > 1 → Next d k j i (k, j-1, i) := fun h => Or.inr (Or.inr (Or.inr (Or.inl ⟨h, Or.inl rfl⟩)))
  have n4 : d.nx2 > 1 → Next d k j i (k, j+1, i) := fun h => Or.inr (Or.inr (Or.inr (Or.inl ⟨h, Or.inr rfl⟩)))
  have n5 : d.nx3 > 1 → Next d k j i (k-1, j, i) := fun h => Or.inr (Or.inr (Or.inr (Or.inr ⟨h, Or.inl rfl⟩)))
  have n6 : d.nx3 > 1 → Next d k j i (k+1, j, i) := fun h => Or.inr (Or.inr (Or.inr (Or.inr ⟨h, Or.inr rfl⟩)))
  have gk : ∀ (c : Prop) [Decidable c], (0 : Int) ≤ if c then 1 else 0 := by intro c _; split <;> omega
  have g1 := gk (mag = true)
  have g2 := gk (mag = true ∧ d.nx2 > 1)
  have g3 := gk (mag = true ∧ d.nx3 > 1)
  have hf0 : (0 : K) ≤ fac d := by unfold fac; split <;> [norm_num; (split <;> norm_num)]
  set S := thermalFlux d mag M kappa p with hS
  -- the fluxes of the six faces
  have f1 : (addEnergyFlux d S noFlux).x1 (4, k, j, i) = 0 - 1 / 2 * (kappa (k, j, i) + kappa (k, j, i - 1)) * (1 / 2 * (r + r))
      * ((p (4, k, j, i) / r - p (4, k, j, i - 1) / r) / ((w1 (i - 1) + w1 i) / 2)) := by
    rw [addEnergy_x1 d (by simp only [Dims.is, Dims.ie] at *; omega), if_pos ⟨rfl, hk, hj, by omega, by omega⟩]
    simp only [hS, thermalFlux, noFlux]
    rw [if_pos ⟨by omega, by omega, by omega, by omega, by omega, by omega⟩, hrho _ n0, hrho _ n1, hC.d1]
    rw [show i - 1 + 1 = i by omega, zero_add]
  have f2 : (addEnergyFlux d S noFlux).x1 (4, k, j, i+1) = 0 - 1 / 2 * (kappa (k, j, i+1) + kappa (k, j, i)) * (1 / 2 * (r + r))
      * ((p (4, k, j, i+1) / r - p (4, k, j, i) / r) / ((w1 i + w1 (i+1)) / 2)) := by
    rw [addEnergy_x1 d (by simp only [Dims.is, Dims.ie] at *; omega), if_pos ⟨rfl, hk, hj, by omega, by omega⟩]
    simp only [hS, thermalFlux, noFlux]
    rw [if_pos ⟨by omega, by omega, by omega, by omega, by omega, by omega⟩, show i + 1 - 1 = i by omega, hrho _ n0, hrho _ n2,
      hC.d1, zero_add]
  have f3 : d.nx2 > 1 → (addEnergyFlux d S noFlux).x2 (4, k, j, i) = 0 - 1 / 2 * (kappa (k, j, i) + kappa (k, j - 1, i))
      * (1 / 2 * (r + r)) * ((p (4, k, j, i) / r - p (4, k, j - 1, i) / r) / ((w2 (j - 1) + w2 j) / 2)) := by
    intro h2
    rw [addEnergy_x2 d (by omega), if_pos ⟨h2, rfl, hk, by omega, by omega⟩]
    simp only [hS, thermalFlux, noFlux]
    rw [if_pos ⟨h2, by omega, by omega, by omega, by omega, by omega, by omega⟩, hrho _ n0, hrho _ (n3 h2), hC.d2, hC.h2v]
    rw [show j - 1 + 1 = j by omega, zero_add, div_one]
  have f4 : d.nx2 > 1 → (addEnergyFlux d S noFlux).x2 (4, k, j+1, i) = 0 - 1 / 2 * (kappa (k, j+1, i) + kappa (k, j, i))
      * (1 / 2 * (r + r)) * ((p (4, k, j+1, i) / r - p (4, k, j, i) / r) / ((w2 j + w2 (j+1)) / 2)) := by
    intro h2
    rw [addEnergy_x2 d (by omega), if_pos ⟨h2, rfl, hk, by omega, by omega⟩]
    simp only [hS, thermalFlux, noFlux]
    rw [if_pos ⟨h2, by omega, by omega, by omega, by omega, by omega, by omega⟩, show j + 1 - 1 = j by omega, hrho _ n0,
      hrho _ (n4 h2), hC.d2, hC.h2v, zero_add, div_one]
  have f5 : d.nx3 > 1 → (addEnergyFlux d S noFlux).x3 (4, k, j, i) = 0 - 1 / 2 * (kappa (k, j, i) + kappa (k - 1, j, i))
      * (1 / 2 * (r + r)) * ((p (4, k, j, i) / r - p (4, k - 1, j, i) / r) / ((w3 (k - 1) + w3 k) / 2)) := by
    intro h3
    rw [addEnergy_x3 d (by omega), if_pos ⟨h3, rfl, by omega, hj, by omega⟩]
    simp only [hS, thermalFlux, noFlux]
    rw [if_pos ⟨h3, by omega, by omega, by omega, by omega, by omega, by omega⟩, hrho _ n0, hrho _ (n5 h3), hC.d3, hC.h31v, hC.h32v]
    rw [show k - 1 + 1 = k by omega, zero_add, div_one, div_one]
  have f6 : d.nx3 > 1 → (addEnergyFlux d S noFlux).x3 (4, k+1, j, i) = 0 - 1 / 2 * (kappa (k+1, j, i) + kappa (k, j, i))
      * (1 / 2 * (r + r)) * ((p (4, k+1, j, i) / r - p (4, k, j, i) / r) / ((w3 k + w3 (k+1)) / 2)) := by
    intro h3
    rw [addEnergy_x3 d (by omega), if_pos ⟨h3, rfl, by omega, hj, by omega⟩]
    simp only [hS, thermalFlux, noFlux]
    rw [if_pos ⟨h3, by omega, by omega, by omega, by omega, by omega, by omega⟩, show k + 1 - 1 = k by omega, hrho _ n0,
      hrho _ (n6 h3), hC.d3, hC.h31v, hC.h32v, zero_add, div_one, div_one]
  -- the new temperature
  have e : g * (u' (4, k, j, i) - kin) / r = p (4, k, j, i) / r +
      -(g * dt / r) * (dflx d G (addEnergyFlux d S noFlux) 4 k j i / G.vol (k, j, i)) := by
    have h := addFlux_in d nv G (addEnergyFlux d S noFlux) dt u (n := 4) ⟨by omega, by omega⟩ hk hj hi'
    have h' : u' (4, k, j, i) = u (4, k, j, i) - dt * dflx d G (addEnergyFlux d S noFlux) 4 k j i / G.vol (k, j, i) := h
    rw [h', hu, mul_div_assoc]
    have := hg.ne'
    field_simp
    ring
  rw [e, cart_dflx d hC hw, f1, f2]
  have sh : ∀ (w : Int → K) (c c' : Int) (q q' : Int × Int × Int), Next d k j i q → Next d k j i q' → 0 < w c → 0 < w c' →
      dt * kappa q ≤ fac d * w c ^ 2 → dt * kappa q' ≤ fac d * w c ^ 2 → dt * kappa q ≤ fac d * w c' ^ 2 →
      dt * kappa q' ≤ fac d * w c' ^ 2 →
      0 ≤ g * dt * (1 / 2 * (kappa q + kappa q')) / (w c * ((w c + w c') / 2)) ∧
        g * dt * (1 / 2 * (kappa q + kappa q')) / (w c * ((w c + w c') / 2)) ≤ fac d := by
    intro w c c' q q' hq hq' hc hc' a1 a2 a3 a4
    refine share_le hg.le hg1 hdt ?_ hc hc' ?_ ?_ hf0
    · have := hkap q hq; have := hkap q' hq'; linarith
    · linarith
    · linarith
  have T0 := hT _ n0
  have T1 := hT _ n1
  have T2 := hT _ n2
  rw [hrho _ n0] at T0
  rw [hrho _ n1] at T1
  rw [hrho _ n2] at T2
  have s1 := sh w1 i (i-1) (k, j, i) (k, j, i-1) n0 n1 (hw _).1 (hw _).1 (hlim _ _ n0 n0).1 (hlim _ _ n1 n0).1
    (hlim _ _ n0 n1).1 (hlim _ _ n1 n1).1
  have s2 := sh w1 i (i+1) (k, j, i+1) (k, j, i) n2 n0 (hw _).1 (hw _).1 (hlim _ _ n2 n0).1 (hlim _ _ n0 n0).1
    (hlim _ _ n2 n2).1 (hlim _ _ n0 n2).1
  have m1 := mix s1 s2 T1 T2 T0
  have x1 := two_faces (g := g) (dt := dt) (km := 1 / 2 * (kappa (k, j, i) + kappa (k, j, i - 1)))
    (kp := 1 / 2 * (kappa (k, j, i+1) + kappa (k, j, i))) (T := p (4, k, j, i) / r) (Tm := p (4, k, j, i - 1) / r)
    (Tp := p (4, k, j, i+1) / r) hr.ne' (hw i).1 (hw (i-1)).1 (hw (i+1)).1
  rw [mul_add, mul_add, x1]
  by_cases h2 : d.nx2 > 1
  · have T3 := hT _ (n3 h2)
    have T4 := hT _ (n4 h2)
    rw [hrho _ (n3 h2)] at T3
    rw [hrho _ (n4 h2)] at T4
    have s3 := sh w2 j (j-1) (k, j, i) (k, j-1, i) n0 (n3 h2) (hw _).2.1 (hw _).2.1 ((hlim _ _ n0 n0).2.1 h2)
      ((hlim _ _ (n3 h2) n0).2.1 h2) ((hlim _ _ n0 (n3 h2)).2.1 h2) ((hlim _ _ (n3 h2) (n3 h2)).2.1 h2)
    have s4 := sh w2 j (j+1) (k, j+1, i) (k, j, i) (n4 h2) n0 (hw _).2.1 (hw _).2.1 ((hlim _ _ (n4 h2) n0).2.1 h2)
      ((hlim _ _ n0 n0).2.1 h2) ((hlim _ _ (n4 h2) (n4 h2)).2.1 h2) ((hlim _ _ n0 (n4 h2)).2.1 h2)
    have m3 := mix s3 s4 T3 T4 T0
    have x2 := two_faces (g := g) (dt := dt) (km := 1 / 2 * (kappa (k, j, i) + kappa (k, j - 1, i)))
      (kp := 1 / 2 * (kappa (k, j+1, i) + kappa (k, j, i))) (T := p (4, k, j, i) / r) (Tm := p (4, k, j - 1, i) / r)
      (Tp := p (4, k, j+1, i) / r) hr.ne' (hw j).2.1 (hw (j-1)).2.1 (hw (j+1)).2.1
    rw [if_pos h2, f3 h2, f4 h2, x2]
    by_cases h3 : d.nx3 > 1
    · have T5 := hT _ (n5 h3)
      have T6 := hT _ (n6 h3)
      rw [hrho _ (n5 h3)] at T5
      rw [hrho _ (n6 h3)] at T6
      have s5 := sh w3 k (k-1) (k, j, i) (k-1, j, i) n0 (n5 h3) (hw _).2.2 (hw _).2.2 ((hlim _ _ n0 n0).2.2 h3)
        ((hlim _ _ (n5 h3) n0).2.2 h3) ((hlim _ _ n0 (n5 h3)).2.2 h3) ((hlim _ _ (n5 h3) (n5 h3)).2.2 h3)
      have s6 := sh w3 k (k+1) (k+1, j, i) (k, j, i) (n6 h3) n0 (hw _).2.2 (hw _).2.2 ((hlim _ _ (n6 h3) n0).2.2 h3)
        ((hlim _ _ n0 n0).2.2 h3) ((hlim _ _ (n6 h3) (n6 h3)).2.2 h3) ((hlim _ _ n0 (n6 h3)).2.2 h3)
      have m5 := mix s5 s6 T5 T6 T0
      have x3 := two_faces (g := g) (dt := dt) (km := 1 / 2 * (kappa (k, j, i) + kappa (k - 1, j, i)))
        (kp := 1 / 2 * (kappa (k+1, j, i) + kappa (k, j, i))) (T := p (4, k, j, i) / r) (Tm := p (4, k - 1, j, i) / r)
        (Tp := p (4, k+1, j, i) / r) hr.ne' (hw k).2.2 (hw (k-1)).2.2 (hw (k+1)).2.2
      rw [if_pos h3, f5 h3, f6 h3, x3]
      have hf : fac d = (1 / 6 : K) := if_pos h3
      rw [hf] at m1 m3 m5
      constructor <;> linarith [m1.1, m1.2, m3.1, m3.2, m5.1, m5.2, T0.1, T0.2]
    · rw [if_neg h3, mul_zero, add_zero]
      have hf : fac d = (1 / 4 : K) := by unfold fac; rw [if_neg h3, if_pos h2]
      rw [hf] at m1 m3
      constructor <;> linarith [m1.1, m1.2, m3.1, m3.2, T0.1, T0.2]
  · rw [if_neg h2, mul_zero, add_zero]
    by_cases h3 : d.nx3 > 1
    · have T5 := hT _ (n5 h3)
      have T6 := hT _ (n6 h3)
      rw [hrho _ (n5 h3)] at T5
      rw [hrho _ (n6 h3)] at T6
      have s5 := sh w3 k (k-1) (k, j, i) (k-1, j, i) n0 (n5 h3) (hw _).2.2 (hw _).2.2 ((hlim _ _ n0 n0).2.2 h3)
        ((hlim _ _ (n5 h3) n0).2.2 h3) ((hlim _ _ n0 (n5 h3)).2.2 h3) ((hlim _ _ (n5 h3) (n5 h3)).2.2 h3)
      have s6 := sh w3 k (k+1) (k+1, j, i) (k, j, i) (n6 h3) n0 (hw _).2.2 (hw _).2.2 ((hlim _ _ (n6 h3) n0).2.2 h3)
        ((hlim _ _ n0 n0).2.2 h3) ((hlim _ _ (n6 h3) (n6 h3)).2.2 h3) ((hlim _ _ n0 (n6 h3)).2.2 h3)
      have m5 := mix s5 s6 T5 T6 T0
      have x3 := two_faces (g := g) (dt := dt) (km := 1 / 2 * (kappa (k, j, i) + kappa (k - 1, j, i)))
        (kp := 1 / 2 * (kappa (k+1, j, i) + kappa (k, j, i))) (T := p (4, k, j, i) / r) (Tm := p (4, k - 1, j, i) / r)
        (Tp := p (4, k+1, j, i) / r) hr.ne' (hw k).2.2 (hw (k-1)).2.2 (hw (k+1)).2.2
      rw [if_pos h3, f5 h3, f6 h3, x3]
      have hf : fac d = (1 / 6 : K) := if_pos h3
      rw [hf] at m1 m5
      constructor <;> linarith [m1.1, m1.2, m5.1, m5.2, T0.1, T0.2]
    · rw [if_neg h3, mul_zero, add_zero]
      have hf : fac d = (1 / 2 : K) := by unfold fac; rw [if_neg h3, if_neg h2]
      rw [hf] at m1
      constructor <;> linarith [m1.1, m1.2, T0.1, T0.2]

/-- With the time step of `NewDiffusionDt`: on a mesh of equal cells with one conductivity, no cell of a gas of uniform
density leaves the range of temperatures around it. -/
theorem conduction_within (d : Dims) (hng : 0 ≤ d.ng) (mag : Bool) {G : Geom K} {M : Met K} {h1 h2 h3 : K}
    (hC : Cartesian G M (fun _ => h1) (fun _ => h2) (fun _ => h3)) (hh : 0 < h1 ∧ 0 < h2 ∧ 0 < h3) {kap realMax tiny : K}
    (hkap : 0 < kap) (htiny : 0 ≤ tiny) (p u : A4 K) {nv : Nat} (hnv : 4 < nv) {k j i : Int}
    (hc : Act d k j i) {g dt r kin lo hi : K} (hg : 0 < g) (hg1 : g ≤ 1) (hdt : 0 ≤ dt)
    (hlim : dt ≤ newDt d true realMax tiny (fun _ => h1) (fun _ => h2) (fun _ => h3) fun _ => kap) (hr : 0 < r)
    (hrho : ∀ q, Next d k j i q → p (0, q) = r)
    (hT : ∀ q, Next d k j i q → lo ≤ p (4, q) / p (0, q) ∧ p (4, q) / p (0, q) ≤ hi)
    (hu : u (4, k, j, i) = p (4, k, j, i) / g + kin) :
    let u' := addFluxDivergence d nv G (addEnergyFlux d (thermalFlux d mag M (fun _ => kap) p) noFlux) dt u
    lo ≤ g * (u' (4, k, j, i) - kin) / r ∧ g * (u' (4, k, j, i) - kin) / r ≤ hi := by
  have hf0 : (0 : K) ≤ fac d := by unfold fac; split <;> [norm_num; (split <;> norm_num)]
  have h := hlim.trans (newDt_le d realMax tiny _ _ _ _ hc.1 hc.2.1
    (i := i) ⟨by have := hc.2.2.1; omega, by have := hc.2.2.2; omega⟩)
  rw [le_div_iff₀ (by linarith)] at h
  have h' : dt * kap ≤ fac d * least d (fun _ => h1) (fun _ => h2) (fun _ => h3) (k, j, i) ^ 2 := by
    have := mul_nonneg hdt htiny
    linarith
  have l0 : 0 < least d (fun _ => h1) (fun _ => h2) (fun _ => h3) (k, j, i) := by
    unfold least; dsimp only; split <;> split <;> simp only [lt_min_iff, hh, and_self]
  have l1 : least d (fun _ => h1) (fun _ => h2) (fun _ => h3) (k, j, i) ≤ h1 := by
    unfold least; dsimp only; split <;> split <;> simp
  have l2 : d.nx2 > 1 → least d (fun _ => h1) (fun _ => h2) (fun _ => h3) (k, j, i) ≤ h2 := by
    intro h; unfold least; dsimp only; rw [if_pos h]; split <;> simp
  have l3 : d.nx3 > 1 → least d (fun _ => h1) (fun _ => h2) (fun _ => h3) (k, j, i) ≤ h3 := by
    intro h; unfold least; dsimp only; rw [if_pos h]; simp
  have up : ∀ {x : K}, least d (fun _ => h1) (fun _ => h2) (fun _ => h3) (k, j, i) ≤ x → dt * kap ≤ fac d * x ^ 2 := by
    intro x hx
    exact h'.trans (mul_le_mul_of_nonneg_left (pow_le_pow_left₀ l0.le hx 2) hf0)
  exact conduction_bounds d mag hC (fun _ => hh) (fun _ => kap) p u hnv hc hg hg1 hdt hr hrho (fun _ _ => hkap.le)
    (fun _ _ _ _ => ⟨up l1, fun h => up (l2 h), fun h => up (l3 h)⟩) hT hu

/-- A plane Cartesian mesh with squares of side `1/8`, two active cells across. -/
def exG : Geom ℚ := ⟨fun _ => 1/64, fun _ => 1/64, fun _ => 1/64, fun _ => 1/512⟩
def exM : Met ℚ := ⟨fun _ => 1/8, fun _ => 1/8, fun _ => 1/8, fun _ => 1, fun _ => 1, fun _ => 1, fun _ => 1, fun _ => 1,
  fun _ => 1, fun _ => 0, fun _ => 0, fun _ => 0, fun _ => false⟩
def exHot : A4 ℚ := fun q => if q.1 = 0 then 2 else if q.1 = 4 then (if q.2 = (0, 2, 3) then 6 else 2) else 0

example : Cartesian exG exM (fun _ => 1/8) (fun _ => 1/8) (fun _ => 1/8) := by
  constructor <;> intros <;> norm_num [exG, exM]

/-- A hot cell (temperature 3 among ones) cools to 29/15 within an allowed time step. -/
example : let d : Dims := ⟨2, 4, 4, 1⟩
    (1/32 : ℚ) ≤ newDt d true 100 (1/100) (fun _ => 1/8) (fun _ => 1/8) (fun _ => 1/8) (fun _ => 1/10) ∧
    Act d 0 2 3 ∧ (∀ q, exHot (0, q) = 2) ∧
    (2/3 : ℚ) * (addFluxDivergence d 5 exG (addEnergyFlux d (thermalFlux d false exM (fun _ => 1/10) exHot) noFlux) (1/32)
      (fun q => if q.1 = 4 then exHot q * (3/2) else 0) (4, 0, 2, 3)) / 2 = 29/15 := by
  refine ⟨by decide +kernel, ⟨by decide, by decide, by decide⟩, fun q => rfl, by decide +kernel⟩

/-- FINDING: the conductive flux carries the mean density of the two cells, the time step knows only `κ`. In a thin cell
among dense ones any positive time step, however far below the limit, takes more heat than there is: from positive densities
and pressures comes a negative pressure. -/
theorem conduction_undershoots (d : Dims) (h2 : d.nx2 ≤ 1) (h3 : d.nx3 ≤ 1) (mag : Bool) {G : Geom K} {M : Met K} {h a b : K}
    (hC : Cartesian G M (fun _ => h) (fun _ => a) (fun _ => b)) (hh : 0 < h ∧ 0 < a ∧ 0 < b) {k j i : Int}
    (hc : Act d k j i) {nv : Nat} (hnv : 4 < nv) {g dt kap : K} (hg : 0 < g) (hdt : 0 < dt) (hkap : 0 < kap) :
    ∃ p : A4 K, (∀ q, 0 < p (0, q) ∧ 0 < p (4, q)) ∧ ∀ (u : A4 K) (kin : K), u (4, k, j, i) = p (4, k, j, i) / g + kin →
      g * (addFluxDivergence d nv G (addEnergyFlux d (thermalFlux d mag M (fun _ => kap) p) noFlux) dt u (4, k, j, i) - kin) < 0 := by
  obtain ⟨hk, hj, hi⟩ := hc
  set R : K := 2 * h ^ 2 / (g * dt * kap) with hR
  have hh0 := hh.1
  have hpos : 0 < g * dt * kap := mul_pos (mul_pos hg hdt) hkap
  have hR0 : 0 < R := div_pos (by positivity) hpos
  refine ⟨fun q => if q.2 = (k, j, i) then 1 else if q.1 = 0 then R else R / 2, fun q => ?_, fun u kin hu => ?_⟩
  · dsimp only
    split
    · exact ⟨one_pos, one_pos⟩
    · simp only [if_true]; exact ⟨hR0, by rw [if_neg (by decide)]; linarith⟩
  · set p : A4 K := fun q => if q.2 = (k, j, i) then 1 else if q.1 = 0 then R else R / 2 with hp
    have n1 : (k, j, i - 1) ≠ (k, j, i) := by simp
    have n2 : (k, j, i + 1) ≠ (k, j, i) := by simp
    have p1 : p (0, k, j, i) = 1 ∧ p (4, k, j, i) = 1 := ⟨if_pos rfl, if_pos rfl⟩
    have p2 : p (0, k, j, i - 1) = R ∧ p (4, k, j, i - 1) = R / 2 := by
      refine ⟨(if_neg n1).trans (if_pos rfl), (if_neg n1).trans (if_neg (show ¬((4 : Int) = 0) by decide))⟩
    have p3 : p (0, k, j, i + 1) = R ∧ p (4, k, j, i + 1) = R / 2 := by
      refine ⟨(if_neg n2).trans (if_pos rfl), (if_neg n2).trans (if_neg (show ¬((4 : Int) = 0) by decide))⟩
    have gk : ∀ (c : Prop) [Decidable c], (0 : Int) ≤ if c then 1 else 0 := by intro c _; split <;> omega
    have g2 := gk (mag = true ∧ d.nx2 > 1)
    have g3 := gk (mag = true ∧ d.nx3 > 1)
    have hR' := hR0.ne'
    have f1 : (addEnergyFlux d (thermalFlux d mag M (fun _ => kap) p) noFlux).x1 (4, k, j, i)
        = -(kap * (1 / 2 * (1 + R)) * (1 / 2) / h) := by
      rw [addEnergy_x1 d (by simp only [Dims.is, Dims.ie] at *; omega), if_pos ⟨rfl, hk, hj, by omega, by omega⟩]
      simp only [thermalFlux, noFlux]
      rw [if_pos ⟨by omega, by omega, by omega, by omega, by omega, by omega⟩, p1.1, p1.2, p2.1, p2.2, hC.d1]
      have := hh0.ne'
      field_simp
      ring
    have f2 : (addEnergyFlux d (thermalFlux d mag M (fun _ => kap) p) noFlux).x1 (4, k, j, i + 1)
        = kap * (1 / 2 * (1 + R)) * (1 / 2) / h := by
      rw [addEnergy_x1 d (by simp only [Dims.is, Dims.ie] at *; omega), if_pos ⟨rfl, hk, hj, by omega, by omega⟩]
      simp only [thermalFlux, noFlux]
      rw [if_pos ⟨by omega, by omega, by omega, by omega, by omega, by omega⟩, show i + 1 - 1 = i by omega, p1.1, p1.2, p3.1,
        p3.2, hC.d1]
      have := hh0.ne'
      field_simp
      ring
    have e := addFlux_in d nv G (addEnergyFlux d (thermalFlux d mag M (fun _ => kap) p) noFlux) dt u (n := 4)
      ⟨by omega, by omega⟩ hk hj hi
    rw [e, hu, p1.2, mul_div_assoc, cart_dflx d hC (fun _ => hh), f1, f2, if_neg (by omega), if_neg (by omega)]
    have e2 : g * (1 / g + kin - dt * ((kap * (1 / 2 * (1 + R)) * (1 / 2) / h - -(kap * (1 / 2 * (1 + R)) * (1 / 2) / h)) / h
        + 0 + 0) - kin) = -(g * dt * kap / (2 * h ^ 2)) := by
      have := hh0.ne'
      have := hg.ne'
      have := hdt.ne'
      have := hkap.ne'
      rw [hR]
      field_simp
      ring
    rw [e2]
    exact neg_neg_of_pos (div_pos hpos (by positivity))

/-- A thousandth of the allowed time step. -/
example : let d : Dims := ⟨2, 4, 1, 1⟩
    Act d 0 0 3 ∧ (1000 * (1/20000) : ℚ) ≤ newDt d true 100 (1/100) (fun _ => 1/8) (fun _ => 1/8) (fun _ => 1/8) (fun _ => 1/10) :=
  ⟨⟨by decide, by decide, by decide⟩, by decide +kernel⟩

end
end Verif.Diffusion
