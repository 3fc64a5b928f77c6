import Verif.Lemmas.SrHydro
import Verif.Lemmas.Eos
import Mathlib.Tactic.NormNum

/-!
# Special relativistic hydrodynamics: conserved and primitive variables
-/
namespace Verif.Sr
open Verif.Grid
open Verif.Eos (Col col putCol cells In cells_hit cells_keep col_putCol col_putCol_ne)

/-- The conserved variables are the density, the energy density and the momentum density of the perfect fluid in the
frame of the grid: `rho u⁰`, `T⁰⁰` and `T⁰ⁱ`. -/
theorem conserved_are_stress (gamma : ℝ) (hg : gamma ≠ 1) (w : Prim) (U : Fin 4 → ℝ) (hU : FourVel w U) :
    (toCons gamma w).d = w.rho * U 0 ∧ (toCons gamma w).e = stress gamma w U 0 0 ∧
    (toCons gamma w).m1 = stress gamma w U 0 1 ∧ (toCons gamma w).m2 = stress gamma w U 0 2 ∧
    (toCons gamma w).m3 = stress gamma w U 0 3 := by
  have h1 : gamma - 1 ≠ 0 := sub_ne_zero.mpr hg
  have hu := hU.unit
  simp only [Fin.sum_univ_four, eta] at hu
  simp [Fin.ext_iff] at hu
  have hl : lorentz w.u1 w.u2 w.u3 = U 0 := by
    unfold lorentz
    rw [← hU.x, ← hU.y, ← hU.z, show 1 + U 1 ^ 2 + U 2 ^ 2 + U 3 ^ 2 = U 0 ^ 2 by linarith]
    exact Real.sqrt_sq hU.future.le
  simp only [toCons, stress, enth, eta, hl]
  simp [Fin.ext_iff]
  rw [hU.x, hU.y, hU.z]
  refine ⟨?_, ?_, ?_, ?_⟩ <;> field_simp <;> ring

/-- A gas at 3/5 of the speed of light. -/
example : FourVel ⟨1, 1, 3/4, 0, 0⟩ ![5/4, 3/4, 0, 0] := by
  refine ⟨rfl, rfl, rfl, ?_, ?_⟩
  · norm_num
  · simp only [Fin.sum_univ_four]
    norm_num [eta, Fin.ext_iff]
    rw [show (![5/4, 3/4, 0, 0] : Fin 4 → ℝ) 2 = 0 from rfl, show (![5/4, 3/4, 0, 0] : Fin 4 → ℝ) 3 = 0 from rfl]
    ring

/-- The energy of a physical state exceeds its momentum. -/
theorem energy_exceeds_momentum (gamma : ℝ) (w : Prim) (h : Phys gamma w) :
    0 < (toCons gamma w).e ∧ msq (toCons gamma w) < (toCons gamma w).e ^ 2 := by
  obtain ⟨h1, -⟩ := toCons_weak gamma w h
  exact ⟨h1.e, h1.lt⟩

example : Phys (5/3) ⟨1, 1, 3/4, 0, 0⟩ := by constructor <;> norm_num

theorem prim_of_cons (gamma : ℝ) (w : Prim) (h : Phys gamma w) :
    w.rho = (toCons gamma w).d * rt (toCons gamma w).e (msq (toCons gamma w)) w.p ∧
    w.u1 = (toCons gamma w).m1 / ((toCons gamma w).e + w.p) / rt (toCons gamma w).e (msq (toCons gamma w)) w.p ∧
    w.u2 = (toCons gamma w).m2 / ((toCons gamma w).e + w.p) / rt (toCons gamma w).e (msq (toCons gamma w)) w.p ∧
    w.u3 = (toCons gamma w).m3 / ((toCons gamma w).e + w.p) / rt (toCons gamma w).e (msq (toCons gamma w)) w.p := by
  obtain ⟨-, -, -, h4, h5⟩ := toCons_weak gamma w h
  have hg := lorentz_pos w.u1 w.u2 w.u3
  have hg1 : 0 < gamma - 1 := by linarith [h.gt]
  have hgam : 0 < gamma := by linarith [h.gt]
  have hW : 0 < w.rho + gamma / (gamma - 1) * w.p := by have := h.rho; have := h.p; positivity
  rw [h4, h5]
  refine ⟨?_, ?_, ?_, ?_⟩ <;> simp only [toCons]
  · field_simp
  all_goals
    generalize lorentz w.u1 w.u2 w.u3 = G at *
    generalize w.rho + gamma / (gamma - 1) * w.p = W at *
    field_simp

/-- The conserved variables determine the primitive ones: two physical states with the same conserved variables are
the same. -/
theorem conserved_determine_primitives (gamma : ℝ) (w w' : Prim) (h : Phys gamma w) (h' : Phys gamma w')
    (he : toCons gamma w = toCons gamma w') : w = w' := by
  have key : ∀ a b : Prim, Phys gamma a → Phys gamma b → toCons gamma a = toCons gamma b → ¬ a.p < b.p := by
    intro a b ha hb hab hlt
    obtain ⟨L, hd, f1, -, -⟩ := toCons_weak gamma a ha
    obtain ⟨-, -, f2, -, -⟩ := toCons_weak gamma b hb
    rw [← hab] at f2
    have hu := nx_upper L ha.gt hd ha.p.le hlt.le
    rw [f1, f2] at hu
    have hv : msq (toCons gamma a) / (((toCons gamma a).e + a.p) * ((toCons gamma a).e + b.p)) < 1 := by
      have := L.e
      have := ha.p
      have := hb.p
      rw [div_lt_one (by positivity)]
      nlinarith [L.lt, mul_pos ha.p hb.p]
    have hgam : 0 < gamma := by linarith [ha.gt]
    have h1 : (gamma - 1) / gamma ≤ 1 / 2 := by
      rw [div_le_div_iff₀ hgam (by norm_num)]; linarith [ha.le]
    have h2 : 0 < (gamma - 1) / gamma := div_pos (by linarith [ha.gt]) hgam
    nlinarith [sub_pos.mpr hlt, mul_pos h2 (sub_pos.mpr hv)]
  have hp : w.p = w'.p := le_antisymm (not_lt.mp (key w' w h' h he.symm)) (not_lt.mp (key w w' h h' he))
  obtain ⟨a1, a2, a3, a4⟩ := prim_of_cons gamma w h
  obtain ⟨b1, b2, b3, b4⟩ := prim_of_cons gamma w' h'
  rw [← he, ← hp] at b1 b2 b3 b4
  ext
  · rw [a1, b1]
  · exact hp
  · rw [a2, b2]
  · rw [a3, b3]
  · rw [a4, b4]

theorem eps_eq : eps = 1 / 10 ^ 12 := rfl

theorem invert_of_loop {gamma mm old : ℝ} {q : Cons} {s : Nat → ℝ} {n : Nat}
    (h : nhLoop gamma q.d q.e mm maxIter 0 (fun _ => max old (nhMin q.e)) = (s, n)) (hn : n < 15) {p : ℝ}
    (hp : s ((n + 1) % 3) = p) :
    invert gamma q mm old = some (⟨q.d / nhGamma q.e mm p, p, nhGamma q.e mm p * (q.m1 / nhA q.e p),
      nhGamma q.e mm p * (q.m2 / nhA q.e p), nhGamma q.e mm p * (q.m3 / nhA q.e p)⟩, nhGamma q.e mm p) := by
  subst hp
  unfold invert
  simp only [h]
  exact if_neg (by unfold maxIter; omega)

theorem invert_exact (gamma : ℝ) (w : Prim) (h : Phys gamma w) (hs : Slow (toCons gamma w)) (hp : eps < w.p) :
    invert gamma (toCons gamma w) (msq (toCons gamma w)) w.p = some (w, lorentz w.u1 w.u2 w.u3) := by
  have A := toCons_fix gamma w h hs
  obtain ⟨-, -, -, h4, h5⟩ := toCons_weak gamma w h
  obtain ⟨a1, a2, a3, a4⟩ := prim_of_cons gamma w h
  have hN := (A.step hp.le hp.le).1
  rw [A.fix] at hN
  have hg : nhGamma (toCons gamma w).e (msq (toCons gamma w)) w.p = lorentz w.u1 w.u2 w.u3 := by
    rw [nhGamma_eq A.L A.slow hp.le, h4, one_div_one_div]
  have hloop : nhLoop gamma (toCons gamma w).d (toCons gamma w).e (msq (toCons gamma w)) maxIter 0
      (fun _ => max w.p (nhMin (toCons gamma w).e)) = (Function.update (fun _ => w.p) 1 w.p, 0) := by
    rw [nhMin_eq A.L, max_eq_left hp.le]
    unfold maxIter nhLoop
    simp only
    rw [body0 rfl]
    simp only [hN, nhMin_eq A.L]
    rw [if_pos]
    simp [hp, eps_pos]
  rw [invert_of_loop hloop (by norm_num) (p := w.p) (by simp), nhA_eq A.L hp.le, hg]
  congr 2
  rw [h4] at a1 a2 a3 a4
  have hl := lorentz_pos w.u1 w.u2 w.u3
  ext
  · simp only; rw [a1]; ring
  · rfl
  · simp only; conv_rhs => rw [a2]
    field_simp
  · simp only; conv_rhs => rw [a3]
    field_simp
  · simp only; conv_rhs => rw [a4]
    field_simp

theorem limits_keep (P : Par) (w : Prim) (h : Phys P.gamma w) (hs : Slow (toCons P.gamma w)) (hd : P.dfloor ≤ w.rho)
    (hpf : P.pfloor ≤ w.p) : limits P (toCons P.gamma w) = ⟨toCons P.gamma w, msq (toCons P.gamma w), false⟩ := by
  have hl := lorentz_ge w.u1 w.u2 w.u3
  have hg1 : 0 < P.gamma - 1 := by linarith [h.gt]
  obtain ⟨-, -, -, -, h5⟩ := toCons_weak P.gamma w h
  have h1 : ¬ (toCons P.gamma w).d < P.dfloor := by
    simp only [toCons]; nlinarith [h.rho]
  have h2 : ¬ (toCons P.gamma w).e < P.dfloor + P.pfloor / (P.gamma - 1) := by
    have a1 : P.pfloor / (P.gamma - 1) ≤ w.p / (P.gamma - 1) := div_le_div_of_nonneg_right hpf hg1.le
    have a2 : P.gamma / (P.gamma - 1) * w.p = w.p / (P.gamma - 1) + w.p := by field_simp; ring
    have a3 : 0 < w.p / (P.gamma - 1) := div_pos h.p hg1
    rw [a2] at h5
    have a4 : 1 ≤ lorentz w.u1 w.u2 w.u3 ^ 2 := by nlinarith
    have := h.rho
    have := h.p
    nlinarith
  have h3 : ¬ msq (toCons P.gamma w) > (1 - eps) * (toCons P.gamma w).e ^ 2 := not_lt.mpr hs
  unfold limits
  simp only [h1, h2, if_false, decide_false, Bool.or_self]
  unfold msq at h3
  rw [if_neg h3]
  rfl

/-- Primitive to conserved and back: a state above the floors and below the ceiling of the Lorentz factor is recovered
exactly and the conserved variables are not changed, if the array of primitives still holds the pressure. -/
theorem primitive_round_trip (P : Par) (w old : Prim) (h : Phys P.gamma w) (hs : Slow (toCons P.gamma w))
    (hp : 1 / 10 ^ 12 < w.p) (hd : P.dfloor ≤ w.rho) (hpf : P.pfloor ≤ w.p) (hg0 : 0 ≤ P.gammaMax)
    (hg : LorentzLe w P.gammaMax) (ho : old.p = w.p) :
    toPrimCell P (toCons P.gamma w) old = (toCons P.gamma w, w) := by
  have hr : rhoAdd P w = 0 := max_eq_right (by linarith)
  have hq : pAdd P w = 0 := max_eq_right (by linarith)
  have hgg : ¬ lorentz w.u1 w.u2 w.u3 > P.gammaMax := by
    rw [not_lt]
    exact Real.sqrt_le_iff.mpr ⟨hg0, hg⟩
  have hinv := invert_exact P.gamma w h hs hp
  unfold toPrimCell
  simp only [limits_keep P w h hs hd hpf, ho, max_eq_left hpf]
  unfold invertTwice
  simp only [hinv, hr, hq, lt_irrefl, or_self, if_false, orOld, Option.isSome_some]
  unfold ceil
  simp only [hgg, if_false, not_lt.mpr hd, not_lt.mpr hpf, decide_false, Bool.or_self, if_true]
  rfl

/-- The inversion from any starting pressure: if it reports success for the conserved variables of a physical state, the
pressure is right to within `(4-gamma)/(2-gamma) 10⁻¹²`, the density of the conserved variables is kept exactly, and
the energy of the result differs by no more than this error times `gamma/(gamma-1)` and the square of the Lorentz
factor; the momentum differs by the velocity times the difference in energy. -/
theorem inversion_accuracy (gamma : ℝ) (w : Prim) (h : Phys gamma w) (hg2 : gamma < 2) (hs : Slow (toCons gamma w))
    (hp : 1 / 10 ^ 12 ≤ w.p) (old : ℝ) (x : Prim) (g : ℝ)
    (hx : invert gamma (toCons gamma w) (msq (toCons gamma w)) old = some (x, g)) :
    |x.p - w.p| ≤ (4 - gamma) / (2 - gamma) / 10 ^ 12 ∧
    g = lorentz x.u1 x.u2 x.u3 ∧
    (toCons gamma x).d = (toCons gamma w).d ∧
    |(toCons gamma x).e - (toCons gamma w).e| ≤ gamma / (gamma - 1) * g ^ 2 * ((4 - gamma) / (2 - gamma) / 10 ^ 12) ∧
    (toCons gamma x).m1 - (toCons gamma w).m1 = x.u1 / g * ((toCons gamma x).e - (toCons gamma w).e) ∧
    (toCons gamma x).m2 - (toCons gamma w).m2 = x.u2 / g * ((toCons gamma x).e - (toCons gamma w).e) ∧
    (toCons gamma x).m3 - (toCons gamma w).m3 = x.u3 / g * ((toCons gamma x).e - (toCons gamma w).e) := by
  have A := toCons_fix gamma w h hs
  have hp' : eps ≤ w.p := hp
  have hacc := A.found hg2 hp' rfl rfl hx
  obtain ⟨i1, i2, i3, i4, i5, i6⟩ := invert_some hx
  rw [nhMin_eq A.L] at i1
  have hx0 : (0 : ℝ) ≤ x.p := by linarith [eps_pos]
  rw [nhGamma_eq A.L A.slow i1.le] at i2
  rw [nhA_eq A.L i1.le] at i4 i5 i6
  have hrt := A.L.rt_pos hx0
  have hsq := A.L.rtsq hx0
  obtain ⟨-, -, t, t1, t2, t3⟩ := A.step hp' i1.le
  have hgam : 0 < gamma := by linarith [h.gt]
  have hg1 : 0 < gamma - 1 := by linarith [h.gt]
  have ha : 0 < (toCons gamma w).e + x.p := by linarith [A.L.e]
  have hnx : nx gamma (toCons gamma w).d (toCons gamma w).e (msq (toCons gamma w)) x.p
    = (gamma - 1) / gamma * (((toCons gamma w).e + x.p) * rt (toCons gamma w).e (msq (toCons gamma w)) x.p ^ 2
      - (toCons gamma w).d * rt (toCons gamma w).e (msq (toCons gamma w)) x.p) := rfl
  have hmm : msq (toCons gamma w) = (toCons gamma w).m1 ^ 2 + (toCons gamma w).m2 ^ 2 + (toCons gamma w).m3 ^ 2 := rfl
  have hlor : lorentz x.u1 x.u2 x.u3 = g := by
    unfold lorentz
    rw [show 1 + x.u1 ^ 2 + x.u2 ^ 2 + x.u3 ^ 2 = g ^ 2 by
      rw [i4, i5, i6, i2]
      generalize rt (toCons gamma w).e (msq (toCons gamma w)) x.p = r at *
      have e : (r : ℝ) ^ 2 * ((toCons gamma w).e + x.p) ^ 2 + msq (toCons gamma w) = ((toCons gamma w).e + x.p) ^ 2 := by
        rw [hsq]; field_simp; ring
      rw [hmm] at e
      field_simp
      linarith]
    exact Real.sqrt_sq (by rw [i2]; positivity)
  have hgp : 0 < g := by rw [i2]; positivity
  -- the enthalpy of the result
  have hE : (toCons gamma x).e - (toCons gamma w).e = gamma / (gamma - 1) * g ^ 2
      * (x.p - nx gamma (toCons gamma w).d (toCons gamma w).e (msq (toCons gamma w)) x.p) := by
    rw [hnx]
    have : (toCons gamma x).e = (x.rho + gamma / (gamma - 1) * x.p) * g * g - x.p := by simp only [toCons, hlor]
    rw [this, i3, i2]
    generalize rt (toCons gamma w).e (msq (toCons gamma w)) x.p = r at *
    generalize (toCons gamma w).d = d at *
    generalize (toCons gamma w).e = e at *
    field_simp
    ring
  have hM : ∀ m u : ℝ, u = g * (m / ((toCons gamma w).e + x.p)) →
      (x.rho + gamma / (gamma - 1) * x.p) * g * u - m = u / g * ((toCons gamma x).e - (toCons gamma w).e) := by
    intro m u hu
    have : (toCons gamma x).e = (x.rho + gamma / (gamma - 1) * x.p) * g * g - x.p := by simp only [toCons, hlor]
    rw [this, hu]
    field_simp
    ring
  have hC : (4 - gamma) / (2 - gamma) * eps = (4 - gamma) / (2 - gamma) / 10 ^ 12 := by rw [eps_eq]; ring
  rw [hC] at hacc
  refine ⟨hacc, hlor.symm, ?_, ?_, ?_, ?_, ?_⟩
  · simp only [toCons]
    rw [hlor]
    change x.rho * g = (toCons gamma w).d
    rw [i3]; field_simp
  · rw [hE, abs_mul, abs_of_pos (by positivity : 0 < gamma / (gamma - 1) * g ^ 2)]
    refine mul_le_mul_of_nonneg_left (le_trans ?_ hacc) (by positivity)
    have e : x.p - nx gamma (toCons gamma w).d (toCons gamma w).e (msq (toCons gamma w)) x.p = (1 - t) * (x.p - w.p) := by
      linarith
    have hk : 2 * (gamma - 1) / gamma ≤ 1 := by rw [div_le_one hgam]; linarith
    have hc : 0 < (gamma - 1) / gamma := div_pos hg1 hgam
    rw [e, abs_mul, abs_of_nonneg (by linarith)]
    have := abs_nonneg (x.p - w.p)
    nlinarith
  · have := hM _ _ i4
    conv_lhs => rw [show (toCons gamma x).m1 = (x.rho + gamma / (gamma - 1) * x.p) * g * x.u1 by simp only [toCons, hlor]]
    exact this
  · have := hM _ _ i5
    conv_lhs => rw [show (toCons gamma x).m2 = (x.rho + gamma / (gamma - 1) * x.p) * g * x.u2 by simp only [toCons, hlor]]
    exact this
  · have := hM _ _ i6
    conv_lhs => rw [show (toCons gamma x).m3 = (x.rho + gamma / (gamma - 1) * x.p) * g * x.u3 by simp only [toCons, hlor]]
    exact this

/-- A moving gas meets the hypotheses of both theorems. -/
example : Phys (3/2) ⟨1, 1, 3/4, 0, 0⟩ ∧ Slow (toCons (3/2) ⟨1, 1, 3/4, 0, 0⟩) ∧ LorentzLe ⟨1, 1, 3/4, 0, 0⟩ 1000 := by
  have h : lorentz (3/4) 0 0 = 5/4 := by
    unfold lorentz
    rw [show (1 : ℝ) + (3/4) ^ 2 + 0 ^ 2 + 0 ^ 2 = (5/4) ^ 2 by norm_num]
    exact Real.sqrt_sq (by norm_num)
  refine ⟨by constructor <;> norm_num, ?_, ?_⟩
  · simp only [Slow, msq, toCons, h]; norm_num
  · simp only [LorentzLe]; norm_num

end Verif.Sr
