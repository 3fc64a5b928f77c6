import Verif.Model.GenEos
import Verif.Props.Hydrogen
import Mathlib.Tactic.Linarith
import Mathlib.Tactic.FieldSimp
import Mathlib.Tactic.Ring
import Mathlib.Algebra.Order.Field.Basic

/-!
# C97: conversions and floors for a general equation of state
-/

namespace Verif.GenEos
open Verif.Eos (Col magP)

namespace Spec
variable {K : Type} [Field K] [LinearOrder K]

/-- Energy of the gas: total energy without kinetic and magnetic energy. -/
def internal (mag : Bool) (b u : Col K) : K :=
  u 4 - (u 1 ^ 2 + u 2 ^ 2 + u 3 ^ 2) / (2 * u 0) -
    (if mag then (b 0 ^ 2 + b 1 ^ 2 + b 2 ^ 2) / 2 else 0)

/-- Conserved and primitive variables describe the same state. -/
structure Same (pres : K → K → K) (mag : Bool) (b w u : Col K) : Prop where
  dens : u 0 = w 0
  mom : ∀ n, 1 ≤ n → n ≤ 3 → u n = w 0 * w n
  press : w 4 = pres (w 0) (internal mag b u)

end Spec

section
variable {K : Type} [Field K] [LinearOrder K] [IsStrictOrderedRing K]

theorem upd (u : Col K) (a c : K) : (Function.update (Function.update u 0 a) 4 c) 0 = a ∧
    (Function.update (Function.update u 0 a) 4 c) 1 = u 1 ∧
    (Function.update (Function.update u 0 a) 4 c) 2 = u 2 ∧
    (Function.update (Function.update u 0 a) 4 c) 3 = u 3 ∧
    (Function.update (Function.update u 0 a) 4 c) 4 = c := by
  simp [Function.update]

theorem upd5 (u : Col K) (a0 a1 a2 a3 a4 : K) :
    let v := Function.update (Function.update (Function.update (Function.update (Function.update u 0 a0)
      1 a1) 2 a2) 3 a3) 4 a4
    v 0 = a0 ∧ v 1 = a1 ∧ v 2 = a2 ∧ v 3 = a3 ∧ v 4 = a4 := by
  simp [Function.update]

theorem three {P : Int → Prop} (h1 : P 1) (h2 : P 2) (h3 : P 3) : ∀ n, 1 ≤ n → n ≤ 3 → P n := by
  intro n a b
  have : n = 1 ∨ n = 2 ∨ n = 3 := by omega
  rcases this with rfl | rfl | rfl <;> assumption

/-- Conserved to primitive: the two describe the same state; density and internal energy keep their
floors and change only below them; the momentum does not change. -/
theorem gen_cons_to_prim (q : Par K) (hd : 0 < q.dfloor) (pres : K → K → K) (mag : Bool) (b u w : Col K) :
    let r := toPrim q pres mag b u w
    Spec.Same pres mag b r.2 r.1 ∧ r.1 0 = max (u 0) q.dfloor ∧ (∀ n, 1 ≤ n → n ≤ 3 → r.1 n = u n) ∧
    q.efloor ≤ Spec.internal mag b r.1 ∧
    (q.efloor < Spec.internal mag b (Function.update u 0 (max (u 0) q.dfloor)) → r.1 4 = u 4) := by
  intro r
  have hm : (if u 0 > q.dfloor then u 0 else q.dfloor) = max (u 0) q.dfloor := by
    split
    · rename_i h; exact (max_eq_left h.le).symm
    · rename_i h; exact (max_eq_right (not_lt.1 h)).symm
  have hp : 0 < max (u 0) q.dfloor := lt_max_of_lt_right hd
  have hb : magP mag b = if mag then (b 0 ^ 2 + b 1 ^ 2 + b 2 ^ 2) / 2 else 0 := by
    unfold magP
    split <;> ring
  obtain ⟨d, hd'⟩ : ∃ d, d = max (u 0) q.dfloor := ⟨_, rfl⟩
  rw [← hd'] at hm hp
  obtain ⟨ke, hke⟩ : ∃ ke, ke = 1/2 * (1 / d) * (u 1 ^ 2 + u 2 ^ 2 + u 3 ^ 2) := ⟨_, rfl⟩
  obtain ⟨ue, hue⟩ : ∃ ue, ue = if u 4 - ke - magP mag b > q.efloor then u 4 else
      q.efloor + ke + magP mag b := ⟨_, rfl⟩
  have hr : r = (Function.update (Function.update u 0 d) 4 ue,
      Function.update (Function.update (Function.update (Function.update (Function.update w 0 d)
        1 (u 1 * (1 / d))) 2 (u 2 * (1 / d))) 3 (u 3 * (1 / d))) 4 (pres d (ue - ke - magP mag b))) := by
    simp only [r, toPrim, hm, ← hke, ← hue]
  obtain ⟨a0, a1, a2, a3, a4⟩ := upd u d ue
  obtain ⟨c0, c1, c2, c3, c4⟩ := upd5 w d (u 1 * (1 / d)) (u 2 * (1 / d)) (u 3 * (1 / d))
    (pres d (ue - ke - magP mag b))
  rw [hr, ← hd']
  dsimp only at c0 c1 c2 c3 c4 ⊢
  have hint : Spec.internal mag b (Function.update (Function.update u 0 d) 4 ue) =
      ue - ke - magP mag b := by
    unfold Spec.internal
    rw [a0, a1, a2, a3, a4, hb, hke]
    congr 2
    field_simp
  have hne := hp.ne'
  refine ⟨⟨by rw [a0, c0], ?_, by rw [hint, c0, c4]⟩, a0, three a1 a2 a3, ?_, ?_⟩
  · rw [c0]
    refine three ?_ ?_ ?_
    · rw [a1, c1]; field_simp
    · rw [a2, c2]; field_simp
    · rw [a3, c3]; field_simp
  · rw [hint, hue]
    split
    · rename_i h; exact h.le
    · linarith
  · intro h
    have e : Spec.internal mag b (Function.update u 0 d) = u 4 - ke - magP mag b := by
      unfold Spec.internal
      have : (Function.update u 0 d) 0 = d ∧ (Function.update u 0 d) 1 = u 1 ∧
          (Function.update u 0 d) 2 = u 2 ∧ (Function.update u 0 d) 3 = u 3 ∧
          (Function.update u 0 d) 4 = u 4 := by simp [Function.update]
      obtain ⟨e0, e1, e2, e3, e4⟩ := this
      rw [e0, e1, e2, e3, e4, hb, hke]
      congr 2
      field_simp
    rw [e] at h
    rw [a4, hue, if_pos h]

/-- Primitive to conserved: the two describe the same state, if `pres` inverts `eg` there. -/
theorem gen_prim_to_cons (pres eg : K → K → K) (mag : Bool) (b w u : Col K) (h0 : w 0 ≠ 0)
    (hi : pres (w 0) (eg (w 0) (w 4)) = w 4) :
    Spec.Same pres mag b w (toCons eg mag b w u) ∧
      Spec.internal mag b (toCons eg mag b w u) = eg (w 0) (w 4) := by
  obtain ⟨c0, c1, c2, c3, c4⟩ := upd5 u (w 0) (w 1 * w 0) (w 2 * w 0) (w 3 * w 0)
    (eg (w 0) (w 4) + 1/2 * (w 0 * (w 1 ^ 2 + w 2 ^ 2 + w 3 ^ 2)
      + if mag then b 0 ^ 2 + b 1 ^ 2 + b 2 ^ 2 else 0))
  have hint : Spec.internal mag b (toCons eg mag b w u) = eg (w 0) (w 4) := by
    unfold Spec.internal toCons
    rw [c0, c1, c2, c3, c4]
    cases mag
    · simp only [Bool.false_eq_true, if_false]
      field_simp
      ring
    · simp only [if_true]
      field_simp
      ring
  refine ⟨⟨c0, three ?_ ?_ ?_, by rw [hint, hi]⟩, hint⟩
  · exact c1.trans (mul_comm _ _)
  · exact c2.trans (mul_comm _ _)
  · exact c3.trans (mul_comm _ _)

/-- Two conserved states that describe the same primitive variables agree if `eg` inverts `pres`. -/
theorem same_cons {pres eg : K → K → K} {mag : Bool} {b w u v : Col K} (hu : Spec.Same pres mag b w u)
    (hv : Spec.Same pres mag b w v)
    (h : ∀ e f, (e = Spec.internal mag b u ∧ f = Spec.internal mag b v) →
      pres (w 0) e = pres (w 0) f → e = f) : ∀ n, 0 ≤ n → n ≤ 4 → u n = v n := by
  have e0 : u 0 = v 0 := hu.dens.trans hv.dens.symm
  have em : ∀ n, 1 ≤ n → n ≤ 3 → u n = v n := fun n a c => (hu.mom n a c).trans (hv.mom n a c).symm
  have e1 := em 1 (by omega) (by omega)
  have e2 := em 2 (by omega) (by omega)
  have e3 := em 3 (by omega) (by omega)
  have ei := h _ _ ⟨rfl, rfl⟩ (hu.press.symm.trans hv.press)
  have e4 : u 4 = v 4 := by
    unfold Spec.internal at ei
    rw [e0, e1, e2, e3] at ei
    linarith
  intro n a c
  have : n = 0 ∨ n = 1 ∨ n = 2 ∨ n = 3 ∨ n = 4 := by omega
  rcases this with rfl | rfl | rfl | rfl | rfl <;> assumption

/-- Primitive to conserved and back, above the floors: nothing changes. -/
theorem gen_round_trip (q : Par K) (hd : 0 < q.dfloor) (pres eg : K → K → K) (mag : Bool)
    (b w u w' : Col K) (h0 : q.dfloor ≤ w 0) (he : q.efloor < eg (w 0) (w 4))
    (hi : pres (w 0) (eg (w 0) (w 4)) = w 4) :
    let r := toPrim q pres mag b (toCons eg mag b w u) w'
    (∀ n, 0 ≤ n → n ≤ 4 → r.2 n = w n) ∧ ∀ n, 0 ≤ n → n ≤ 4 → r.1 n = toCons eg mag b w u n := by
  have hw : 0 < w 0 := lt_of_lt_of_le hd h0
  obtain ⟨hs, hint⟩ := gen_prim_to_cons pres eg mag b w u hw.ne' hi
  obtain ⟨k1, k2, k3, -, k5⟩ := gen_cons_to_prim q hd pres mag b (toCons eg mag b w u) w'
  generalize toCons eg mag b w u = v at *
  intro r
  have hm : max (v 0) q.dfloor = v 0 := max_eq_left (by rw [hs.dens]; exact h0)
  rw [hm, Function.update_eq_self] at k5
  rw [hm] at k2
  have k4 := k5 (by rw [hint]; exact he)
  have hall : ∀ n, 0 ≤ n → n ≤ 4 → r.1 n = v n := by
    intro n a c
    have : n = 0 ∨ (1 ≤ n ∧ n ≤ 3) ∨ n = 4 := by omega
    rcases this with rfl | ⟨a, c⟩ | rfl
    · exact k2
    · exact k3 n a c
    · exact k4
  refine ⟨?_, hall⟩
  have i2 : Spec.internal mag b r.1 = Spec.internal mag b v := by
    unfold Spec.internal
    rw [hall 0 (by omega) (by omega), hall 1 (by omega) (by omega), hall 2 (by omega) (by omega),
      hall 3 (by omega) (by omega), hall 4 (by omega) (by omega)]
  have d0 : r.2 0 = w 0 := k1.dens.symm.trans (k2.trans hs.dens)
  intro n a c
  have : n = 0 ∨ (1 ≤ n ∧ n ≤ 3) ∨ n = 4 := by omega
  rcases this with rfl | ⟨a, c⟩ | rfl
  · exact d0
  · have e1 := k1.mom n a c
    have e2 := hs.mom n a c
    rw [k3 n a c, e2, d0] at e1
    exact (mul_left_cancel₀ hw.ne' e1).symm
  · rw [k1.press, hs.press, d0, i2]

/-- The conserved variables after the conversion, converted back: nothing changes. -/
theorem gen_cons_round_trip (q : Par K) (hd : 0 < q.dfloor) (pres eg : K → K → K) (mag : Bool)
    (b u w u' : Col K) (hi : ∀ d e, q.dfloor ≤ d → q.efloor ≤ e → eg d (pres d e) = e) :
    let r := toPrim q pres mag b u w
    ∀ n, 0 ≤ n → n ≤ 4 → toCons eg mag b r.2 u' n = r.1 n := by
  intro r
  obtain ⟨k1, k2, -, k4, -⟩ := gen_cons_to_prim q hd pres mag b u w
  have d0 : r.2 0 = max (u 0) q.dfloor := k1.dens.symm.trans k2
  have hf : q.dfloor ≤ r.2 0 := by rw [d0]; exact le_max_right _ _
  have hp : eg (r.2 0) (r.2 4) = Spec.internal mag b r.1 := by
    rw [k1.press]
    exact hi _ _ hf k4
  have hq : pres (r.2 0) (eg (r.2 0) (r.2 4)) = r.2 4 := by rw [hp]; exact k1.press.symm
  obtain ⟨hs, hint⟩ := gen_prim_to_cons pres eg mag b r.2 u' (lt_of_lt_of_le hd hf).ne' hq
  refine same_cons (eg := eg) hs k1 ?_
  rintro e f ⟨rfl, rfl⟩ -
  rw [hint, hp]

/-- Floors on both sets of variables where both floors act, or none of them. -/
theorem gen_floors_partial (q : Par K) (mag : Bool) (b w u : Col K) :
    let r := primConsFloors q mag b w u
    r.1 0 = max (w 0) q.dfloor ∧ r.2 0 = max (w 0) q.dfloor ∧
    (q.pfloor < w 4 → q.efloor < w 4 → r.1 4 = w 4 ∧ r.2 4 = u 4) ∧
    (w 4 ≤ q.pfloor → w 4 ≤ q.efloor → r.1 4 = q.pfloor ∧
      r.2 4 = q.efloor + max (w 0) q.dfloor * (w 1 ^ 2 + w 2 ^ 2 + w 3 ^ 2) / 2 +
        if mag then (b 0 ^ 2 + b 1 ^ 2 + b 2 ^ 2) / 2 else 0) := by
  intro r
  have hm : (if w 0 > q.dfloor then w 0 else q.dfloor) = max (w 0) q.dfloor := by
    split
    · rename_i h; exact (max_eq_left h.le).symm
    · rename_i h; exact (max_eq_right (not_lt.1 h)).symm
  obtain ⟨a0, -, -, -, a4⟩ := upd w (if w 0 > q.dfloor then w 0 else q.dfloor)
    (if w 4 > q.pfloor then w 4 else q.pfloor)
  obtain ⟨c0, -, -, -, c4⟩ := upd u (if w 0 > q.dfloor then w 0 else q.dfloor)
    (if w 4 > q.efloor then u 4 else q.efloor + 1/2 * (if w 0 > q.dfloor then w 0 else q.dfloor) *
      (w 1 ^ 2 + w 2 ^ 2 + w 3 ^ 2) + magP mag b)
  refine ⟨a0.trans hm, c0.trans hm, ?_, ?_⟩
  · intro h1 h2
    exact ⟨a4.trans (if_pos h1), c4.trans (if_pos h2)⟩
  · intro h1 h2
    refine ⟨a4.trans (if_neg (not_lt.2 h1)), (c4.trans (if_neg (not_lt.2 h2))).trans ?_⟩
    rw [hm]
    unfold magP
    cases mag
    · simp only [Bool.false_eq_true, if_false]; ring
    · simp only [if_true]; ring

/-- Finding: `ApplyPrimitiveConservedFloors` compares the pressure with the floor of the energy. For an
ideal gas with `1 < gamma < 2` and the default floor of the energy, a consistent state with a pressure
between the two floors loses energy although its energy is above the floor, and its pressure stays. -/
theorem floors_inconsistent (gamma : K) (h1 : 1 < gamma) (h2 : gamma < 2) (dfloor tiny p : K)
    (mag : Bool) (b w u : Col K) (hd : dfloor < w 0) (hw : 0 < w 0)
    (hs : Spec.Same (idealPres gamma) mag b w u) (ha : p < w 4) (hb : w 4 ≤ p / (gamma - 1)) :
    let q := floors gamma dfloor tiny none (some p)
    let r := primConsFloors q mag b w u
    q.efloor < Spec.internal mag b u ∧ r.1 4 = w 4 ∧ r.2 4 < u 4 ∧
      Spec.internal mag b r.2 = q.efloor := by
  intro q r
  have g : 0 < gamma - 1 := by linarith
  have g1 : gamma - 1 < 1 := by linarith
  have qe : q.efloor = p / (gamma - 1) := rfl
  have qp : q.pfloor = p := rfl
  have qd : q.dfloor = dfloor := rfl
  have he : Spec.internal mag b u = w 4 / (gamma - 1) := by
    rw [eq_div_iff g.ne', hs.press]
    unfold idealPres
    ring
  have lt : q.efloor < Spec.internal mag b u := by
    rw [he, qe]
    exact div_lt_div_of_pos_right ha g
  have hm : (if w 0 > q.dfloor then w 0 else q.dfloor) = w 0 := if_pos (by rw [qd]; exact hd)
  obtain ⟨a0, -, -, -, a4⟩ := upd w (if w 0 > q.dfloor then w 0 else q.dfloor)
    (if w 4 > q.pfloor then w 4 else q.pfloor)
  obtain ⟨c0, c1, c2, c3, c4⟩ := upd u (if w 0 > q.dfloor then w 0 else q.dfloor)
    (if w 4 > q.efloor then u 4 else q.efloor + 1/2 * (if w 0 > q.dfloor then w 0 else q.dfloor) *
      (w 1 ^ 2 + w 2 ^ 2 + w 3 ^ 2) + magP mag b)
  rw [hm, if_neg (show ¬ w 4 > q.efloor by rw [qe]; exact not_lt.2 hb)] at c0 c1 c2 c3 c4
  have hr2 : r.2 = Function.update (Function.update u 0 (w 0)) 4
      (q.efloor + 1/2 * w 0 * (w 1 ^ 2 + w 2 ^ 2 + w 3 ^ 2) + magP mag b) := by
    simp only [r, primConsFloors, hm]
    rw [if_neg (show ¬ w 4 > q.efloor by rw [qe]; exact not_lt.2 hb)]
  have m1 := hs.mom 1 (by omega) (by omega)
  have m2 := hs.mom 2 (by omega) (by omega)
  have m3 := hs.mom 3 (by omega) (by omega)
  have hk : (u 1 ^ 2 + u 2 ^ 2 + u 3 ^ 2) / (2 * w 0) = 1/2 * w 0 * (w 1 ^ 2 + w 2 ^ 2 + w 3 ^ 2) := by
    rw [m1, m2, m3]
    field_simp
  have hbm : magP mag b = if mag then (b 0 ^ 2 + b 1 ^ 2 + b 2 ^ 2) / 2 else 0 := by
    unfold magP
    split <;> ring
  have hint : Spec.internal mag b r.2 = q.efloor := by
    rw [hr2]
    unfold Spec.internal
    rw [c0, c1, c2, c3, c4, hk, hbm]
    ring
  refine ⟨lt, a4.trans (if_pos (by rw [qp]; exact ha)), ?_, hint⟩
  rw [← hint] at lt
  have e0 : r.2 0 = u 0 := by rw [hr2, c0, hs.dens]
  have e1 : r.2 1 = u 1 := by rw [hr2]; exact c1
  have e2 : r.2 2 = u 2 := by rw [hr2]; exact c2
  have e3 : r.2 3 = u 3 := by rw [hr2]; exact c3
  unfold Spec.internal at lt
  rw [e0, e1, e2, e3] at lt
  linarith

/-- Ideal gas: the two functions are inverse of each other. -/
theorem ideal_inverse (gamma : K) (h1 : gamma ≠ 1) (rho p e : K) :
    idealPres gamma rho (idealEg gamma rho p) = p ∧ idealEg gamma rho (idealPres gamma rho e) = e := by
  have : gamma - 1 ≠ 0 := sub_ne_zero.2 h1
  unfold idealPres idealEg
  constructor <;> field_simp

end

/-- Finding: the conversion keeps the floor of the energy only. For hydrogen with the default floors
(`gamma` is 2 unless given, so both floors are equal) the gas at the floor of the energy has a pressure
below two thirds of the floor of the pressure. -/
theorem hydrogen_below_floor (dfloor tiny p rho T : ℝ) (hr : 0 < rho) (hT : 0 < T) :
    let q := floors 2 dfloor tiny none (some p)
    Hydrogen.engT rho T = q.efloor → Hydrogen.presT rho T < 2 / 3 * q.pfloor := by
  intro q h
  have qe : q.efloor = p := by
    change p / (2 - 1) = p
    norm_num
  have qp : q.pfloor = p := rfl
  rw [qe] at h
  rw [qp, ← h]
  unfold Hydrogen.presT Hydrogen.engT
  have := mul_pos (Hydrogen.frac_pos rho T) hr
  linarith

/-! ### Non-vacuity -/

/-- `floors_inconsistent`: floor 2/3, pressure 3/4, energy 9/8 becomes 1. -/
example : let w : Col ℚ := fun n => if n = 0 then 1 else if n = 4 then 3 / 4 else 0
    let u : Col ℚ := fun n => if n = 0 then 1 else if n = 4 then 9 / 8 else 0
    Spec.Same (idealPres (5 / 3)) false (fun _ => 0) w u ∧ (2 / 3 : ℚ) < w 4 ∧
      w 4 ≤ (2 / 3 : ℚ) / (5 / 3 - 1) := by
  refine ⟨⟨by norm_num, three (by norm_num) (by norm_num) (by norm_num), ?_⟩, by norm_num, by norm_num⟩
  norm_num [idealPres, Spec.internal]

/-- `hydrogen_below_floor`: the temperature exists. -/
example : ∃ T, 0 < T ∧ Hydrogen.engT 1 T = (floors 2 1 1 none (some (1 / 10)) : Par ℝ).efloor :=
  (Hydrogen.energy_temperature 1 _ one_pos (by norm_num [floors])).exists

/-- `gen_round_trip`: an ideal gas above the floors. -/
example : (1 / 2 : ℚ) < idealEg (5 / 3) 1 1 ∧ idealPres (5 / 3 : ℚ) 1 (idealEg (5 / 3) 1 1) = 1 := by
  norm_num [idealEg, idealPres]

end Verif.GenEos
