import Verif.Model.Ran2
import Mathlib.Tactic.Linarith
import Mathlib.Tactic.NormNum
import Mathlib.Data.Int.ModEq
import Mathlib.RingTheory.Coprime.Lemmas
import Mathlib.RingTheory.Int.Basic
import Mathlib.Algebra.Order.Field.Basic
import Mathlib.Tactic.Positivity
import Mathlib.Tactic.NormNum.GCD

/-!
# C50: `ran2`

The reference is stated with modular arithmetic only: two multiplicative congruential generators
`x ↦ 40014 x mod 2147483563`, `x ↦ 40692 x mod 2147483399`, and a 32-entry shuffle table.
-/
namespace Verif.Ran2

theorem ck_some {x : Int} (h0 : -9223372036854775808 ≤ x) (h1 : x < 9223372036854775808) :
    ck x = some x := by
  unfold ck; rw [if_pos]; constructor <;> norm_num <;> assumption

theorem schrage1 {x : Int} (h0 : 0 ≤ x) (h1 : x < 2147483563) :
    schrage IA1 IQ1 IR1 IMR1 x = some (40014 * x % 2147483563) := by
  unfold schrage
  simp only [IA1, IQ1, IR1, IMR1]
  rw [Int.tdiv_eq_ediv_of_nonneg h0]
  have hk0 : 0 ≤ x / 53668 := by omega
  have hk1 : x / 53668 ≤ 40014 := by omega
  rw [ck_some (by omega) (by omega)]; simp only [Option.bind_eq_bind, Option.bind_some]
  rw [ck_some (by omega) (by omega)]; simp only [Option.bind_some]
  rw [ck_some (by omega) (by omega)]; simp only [Option.bind_some]
  rw [ck_some (by omega) (by omega)]; simp only [Option.bind_some]
  rw [ck_some (by omega) (by omega)]; simp only [Option.bind_some]
  rw [ck_some (by omega) (by omega)]; simp only [Option.bind_some]
  split
  · rw [ck_some (by omega) (by omega)]; congr 1; omega
  · congr 1; omega

theorem schrage2 {x : Int} (h0 : 0 ≤ x) (h1 : x < 2147483563) :
    schrage IA2 IQ2 IR2 IMR2 x = some (40692 * x % 2147483399) := by
  unfold schrage
  simp only [IA2, IQ2, IR2, IMR2]
  rw [Int.tdiv_eq_ediv_of_nonneg h0]
  have hk0 : 0 ≤ x / 52774 := by omega
  have hk1 : x / 52774 ≤ 40692 := by omega
  rw [ck_some (by omega) (by omega)]; simp only [Option.bind_eq_bind, Option.bind_some]
  rw [ck_some (by omega) (by omega)]; simp only [Option.bind_some]
  rw [ck_some (by omega) (by omega)]; simp only [Option.bind_some]
  rw [ck_some (by omega) (by omega)]; simp only [Option.bind_some]
  rw [ck_some (by omega) (by omega)]; simp only [Option.bind_some]
  rw [ck_some (by omega) (by omega)]; simp only [Option.bind_some]
  split
  · rw [ck_some (by omega) (by omega)]; congr 1; omega
  · congr 1; omega

theorem mul_step (a n x m : Int) (k : Nat) : a ^ k * (a * x % m) % m = a ^ (k + 1) * x % m := by
  rw [Int.mul_emod, Int.emod_emod, ← Int.mul_emod, pow_succ, mul_assoc]

theorem emod_range (y : Int) : 0 ≤ y % 2147483563 ∧ y % 2147483563 < 2147483563 := by omega

theorem load_eq (n : Nat) : ∀ (x : Int) (iv : List Int), 0 ≤ x → x < 2147483563 → iv.length = 32 →
    ∃ iv', load n x iv = some (40014 ^ n * x % 2147483563, iv') ∧ iv'.length = 32 ∧
      (∀ j, j < n → j < 32 → iv'[j]? = some (40014 ^ (n - j) * x % 2147483563)) ∧
      (∀ j, n ≤ j → iv'[j]? = iv[j]?) := by
  induction n with
  | zero =>
    intro x iv h0 h1 hl
    refine ⟨iv, ?_, hl, by omega, fun _ _ => rfl⟩
    simp only [load, pow_zero, one_mul]
    rw [Int.emod_eq_of_lt h0 h1]
  | succ n ih =>
    intro x iv h0 h1 hl
    obtain ⟨iv', e, l, a, b⟩ := ih (40014 * x % 2147483563)
      (if n < NTAB then iv.set n (40014 * x % 2147483563) else iv) (emod_range _).1 (emod_range _).2
      (by split <;> simp [hl])
    refine ⟨iv', ?_, l, ?_, ?_⟩
    · simp only [load, schrage1 h0 h1, Option.bind_eq_bind, Option.bind_some]
      rw [e, mul_step _ 0]
    · intro j hj hj'
      rcases Nat.lt_or_ge j n with h | h
      · rw [a j h hj', mul_step _ 0]
        congr 4; omega
      · have : j = n := by omega
        subst this
        rw [b j le_rfl]
        have : j < NTAB := hj'
        rw [if_pos this, List.getElem?_set_self (by omega)]
        congr 3
        rw [show j + 1 - j = 1 by omega, pow_one]
    · intro j hj
      rw [b j (by omega)]
      split
      · rw [List.getElem?_set_ne (by omega)]
      · rfl

/-- The static variables as left by any earlier calls. -/
structure Good (s : Statics) : Prop where
  len : s.iv.length = 32
  tab : ∀ v ∈ s.iv, 0 ≤ v ∧ v ≤ 2147483562
  x2 : 0 ≤ s.idum2 ∧ s.idum2 < 2147483563
  iy : 0 ≤ s.iy ∧ s.iy ≤ 2147483562

theorem good0 : Good statics0 := by
  refine ⟨by simp [statics0, NTAB], ?_, by decide, by decide⟩
  intro v hv
  simp only [statics0, List.mem_replicate] at hv
  omega

/-- The combined output: `v - y`, brought into `1 .. 2147483562`. -/
def combine (v y : Int) : Int := if v - y < 1 then v - y + 2147483562 else v - y

theorem nonzero {x : Int} (h0 : 1 ≤ x) (h1 : x < 2147483563) (k : Nat) :
    1 ≤ 40014 ^ k * x % 2147483563 := by
  have h := emod_range (40014 ^ k * x)
  rcases Int.lt_or_eq_of_le h.1 with h' | h'
  · omega
  · exfalso
    have hd : (2147483563 : Int) ∣ 40014 ^ k * x := Int.dvd_of_emod_eq_zero h'.symm
    have hg : IsCoprime (2147483563 : Int) (40014 ^ k) := by
      apply IsCoprime.pow_right
      rw [Int.isCoprime_iff_gcd_eq_one]; norm_num
    have := hg.dvd_of_dvd_mul_left hd
    have := Int.le_of_dvd (by omega) this
    omega

theorem next_eq {x : Int} {s : Statics} (h0 : 0 ≤ x) (h1 : x < 2147483563) (g : Good s) :
    ∃ v, s.iv[(s.iy / 67108862).toNat]? = some v ∧ 0 ≤ s.iy / 67108862 ∧ s.iy / 67108862 < 32 ∧
      next x s = some (40014 * x % 2147483563,
        ⟨40692 * s.idum2 % 2147483399, combine v (40692 * s.idum2 % 2147483399),
          s.iv.set (s.iy / 67108862).toNat (40014 * x % 2147483563)⟩) ∧
      0 ≤ v ∧ v ≤ 2147483562 := by
  have hj0 : 0 ≤ s.iy / 67108862 := by have := g.iy; omega
  have hj1 : s.iy / 67108862 < 32 := by have := g.iy; omega
  have hlt : (s.iy / 67108862).toNat < s.iv.length := by rw [g.len]; omega
  have hv := g.tab _ (List.getElem_mem hlt)
  refine ⟨s.iv[(s.iy / 67108862).toNat], List.getElem?_eq_getElem hlt, hj0, hj1, ?_, hv⟩
  have hN : NDIV = 67108862 := by decide
  unfold next
  simp only [schrage1 h0 h1, schrage2 g.x2.1 g.x2.2, Option.bind_eq_bind, Option.bind_some, hN,
    Int.tdiv_eq_ediv_of_nonneg g.iy.1]
  rw [if_neg (by omega), List.getElem?_eq_getElem hlt]
  generalize s.iv[(s.iy / 67108862).toNat] = v at *
  simp only
  have h2 : 0 ≤ 40692 * s.idum2 % 2147483399 ∧ 40692 * s.idum2 % 2147483399 < 2147483399 := by omega
  generalize 40692 * s.idum2 % 2147483399 = y at *
  rw [ck_some (by omega) (by omega)]
  simp only [Option.bind_some, combine, IMM1, IMR1]
  split
  · rw [ck_some (by omega) (by omega)]; rfl
  · rfl

/-- A draw that does not initialise (`idum > 0`): both congruential states advance by the modular
recurrence, the slot is in range, the result is the shuffled difference. -/
theorem draw_continue {x : Int} {s : Statics} (h0 : 0 < x) (h1 : x < 2147483563) (g : Good s) :
    ∃ v, s.iv[(s.iy / 67108862).toNat]? = some v ∧ 0 ≤ s.iy / 67108862 ∧ s.iy / 67108862 < 32 ∧
      ran2 x s = some (value (combine v (40692 * s.idum2 % 2147483399)), 40014 * x % 2147483563,
        ⟨40692 * s.idum2 % 2147483399, combine v (40692 * s.idum2 % 2147483399),
          s.iv.set (s.iy / 67108862).toNat (40014 * x % 2147483563)⟩) := by
  obtain ⟨v, a, b, c, d, _⟩ := next_eq h0.le h1 g
  refine ⟨v, a, b, c, ?_⟩
  unfold ran2
  rw [if_neg (by omega)]
  simp only [Option.bind_eq_bind, Option.bind_some, d]

theorem init_eq {x : Int} {s : Statics} (h0 : x ≤ 0) (h1 : -2147483563 < x) (hl : s.iv.length = 32) :
    ∃ iv, init x s = some (40014 ^ 40 * max 1 (-x) % 2147483563,
        ⟨max 1 (-x), 40014 ^ 40 * max 1 (-x) % 2147483563, iv⟩) ∧ iv.length = 32 ∧
      ∀ j, j < 32 → iv[j]? = some (40014 ^ (40 - j) * max 1 (-x) % 2147483563) := by
  have hm : (if -x < 1 then (1 : Int) else -x) = max 1 (-x) := by omega
  obtain ⟨iv, e, l, a, _⟩ := load_eq 40 (max 1 (-x)) s.iv (by omega) (by omega) hl
  refine ⟨iv, ?_, l, fun j hj => a j (by omega) hj⟩
  unfold init
  rw [ck_some (by omega) (by omega)]
  simp only [Option.bind_eq_bind, Option.bind_some, hm, show NTAB + 8 = 40 from rfl, e]
  rw [a 0 (by omega) (by omega)]

/-- A draw that initialises with seed `x ≤ 0`: the table holds `40014^(40-j) seed`, the first state
is `40014^40 seed` and the second one the seed; then one draw as in `draw_continue`. -/
theorem draw_init {x : Int} {s : Statics} (h0 : x ≤ 0) (h1 : -2147483563 < x)
    (hl : s.iv.length = 32) :
    ∃ (iv : List Int) (v j : Int), iv.length = 32 ∧
      (∀ i, i < 32 → iv[i]? = some (40014 ^ (40 - i) * max 1 (-x) % 2147483563)) ∧
      j = 40014 ^ 40 * max 1 (-x) % 2147483563 / 67108862 ∧ 0 ≤ j ∧ j < 32 ∧
      iv[j.toNat]? = some v ∧
      ran2 x s = some (value (combine v (40692 * max 1 (-x) % 2147483399)),
        40014 ^ 41 * max 1 (-x) % 2147483563,
        ⟨40692 * max 1 (-x) % 2147483399, combine v (40692 * max 1 (-x) % 2147483399),
          iv.set j.toNat (40014 ^ 41 * max 1 (-x) % 2147483563)⟩) := by
  obtain ⟨iv, e, l, a⟩ := init_eq h0 h1 hl
  have hx := emod_range (40014 ^ 40 * max 1 (-x))
  have g : Good ⟨max 1 (-x), 40014 ^ 40 * max 1 (-x) % 2147483563, iv⟩ := by
    refine ⟨l, ?_, by constructor <;> simp only <;> omega, by constructor <;> simp only <;> omega⟩
    intro v hv
    obtain ⟨j, hj, rfl⟩ := List.getElem_of_mem hv
    have := a j (by simp only at hj; omega)
    rw [List.getElem?_eq_getElem hj] at this
    simp only [Option.some.injEq] at this
    rw [this]
    have := emod_range (40014 ^ (40 - j) * max 1 (-x))
    omega
  obtain ⟨v, b, c, d, f, _⟩ := next_eq hx.1 hx.2 g
  refine ⟨iv, v, _, l, a, rfl, c, d, b, ?_⟩
  unfold ran2
  rw [if_pos h0]
  simp only [Option.bind_eq_bind, Option.bind_some, e, f]
  rw [show (40014 : Int) * (40014 ^ 40 * max 1 (-x) % 2147483563) % 2147483563
    = 40014 ^ 41 * max 1 (-x) % 2147483563 from by
      have := mul_step 40014 0 (40014 ^ 40 * max 1 (-x)) 2147483563 0
      rw [Int.mul_emod, Int.emod_emod, ← Int.mul_emod, ← mul_assoc, ← pow_succ']]

theorem value_range {iy : Int} (h0 : 1 ≤ iy) (h1 : iy ≤ 2147483562) :
    0 < value iy ∧ value iy < 1 ∧ value iy = iy / 2147483563 := by
  have a : (1 : Rat) ≤ iy := by exact_mod_cast h0
  have b : (iy : Rat) ≤ 2147483562 := by exact_mod_cast h1
  have hc : ¬ (iy : Rat) / (IMR1 : Int) > 1 - 1 / 2 ^ 52 := by
    simp only [IMR1]; push_cast
    rw [gt_iff_lt, not_lt, div_le_iff₀ (by norm_num)]
    norm_num; linarith
  have hv : value iy = iy / 2147483563 := by
    unfold value; rw [if_neg hc]; simp [IMR1]
  refine ⟨?_, ?_, hv⟩
  · rw [hv]; apply div_pos <;> linarith
  · rw [hv, div_lt_one (by norm_num)]; linarith

theorem combine_range {v y : Int} (h0 : 0 ≤ v) (h1 : v ≤ 2147483562) (h2 : 0 ≤ y) (h3 : y < 2147483399) :
    1 ≤ combine v y ∧ combine v y ≤ 2147483562 := by
  unfold combine; split <;> omega

/-- One call from any reachable state with any seed of magnitude below the first modulus: no
overflow, no index out of range; the value lies strictly between 0 and 1 and is a multiple of
`1/2147483563`; the new `*idum` is positive (the generator goes on without re-initialising) and
below the modulus; the static variables stay in range. -/
theorem draw_safe {x : Int} {s : Statics} (h0 : -2147483563 < x) (h1 : x < 2147483563) (g : Good s) :
    ∃ y x' s', ran2 x s = some (y, x', s') ∧ 0 < y ∧ y < 1 ∧ y = s'.iy / 2147483563 ∧ 1 ≤ s'.iy ∧
      s'.iy ≤ 2147483562 ∧ 0 < x' ∧ x' < 2147483563 ∧ Good s' := by
  rcases lt_or_ge 0 x with hx | hx
  · obtain ⟨v, a, b, c, d⟩ := draw_continue hx h1 g
    have hv := g.tab v (List.mem_of_getElem? a)
    have h2 : 0 ≤ 40692 * s.idum2 % 2147483399 ∧ 40692 * s.idum2 % 2147483399 < 2147483399 := by omega
    have hc := combine_range hv.1 hv.2 h2.1 h2.2
    have hr := value_range hc.1 hc.2
    have hx' := nonzero (x := x) (by omega) h1 1
    have hx'' := emod_range (40014 * x)
    rw [pow_one] at hx'
    refine ⟨_, _, _, d, hr.1, hr.2.1, hr.2.2, hc.1, hc.2, by omega, by omega, ?_⟩
    refine ⟨by simp [g.len], ?_, ⟨h2.1, by simp only; omega⟩, ⟨by simp only; omega, hc.2⟩⟩
    intro w hw
    rcases List.mem_or_eq_of_mem_set hw with h | h
    · exact g.tab w h
    · omega
  · obtain ⟨iv, v, j, l, a, hj, b, c, d, e⟩ := draw_init hx h0 g.len
    have tab : ∀ w ∈ iv, 0 ≤ w ∧ w ≤ 2147483562 := by
      intro w hw
      obtain ⟨i, hi, rfl⟩ := List.getElem_of_mem hw
      have := a i (by omega)
      rw [List.getElem?_eq_getElem hi] at this
      simp only [Option.some.injEq] at this
      rw [this]
      have := emod_range (40014 ^ (40 - i) * max 1 (-x))
      omega
    have hv := tab v (List.mem_of_getElem? d)
    have h2 : 0 ≤ 40692 * max 1 (-x) % 2147483399 ∧ 40692 * max 1 (-x) % 2147483399 < 2147483399 := by omega
    have hc := combine_range hv.1 hv.2 h2.1 h2.2
    have hr := value_range hc.1 hc.2
    have hx' := nonzero (x := max 1 (-x)) (by omega) (by omega) 41
    have hx'' := emod_range (40014 ^ 41 * max 1 (-x))
    refine ⟨_, _, _, e, hr.1, hr.2.1, hr.2.2, hc.1, hc.2, by omega, by omega, ?_⟩
    refine ⟨by simp [l], ?_, ⟨h2.1, by simp only; omega⟩, ⟨by simp only; omega, hc.2⟩⟩
    intro w hw
    rcases List.mem_or_eq_of_mem_set hw with h | h
    · exact tab w h
    · omega

/-- A sequence of calls: `none` in the list continues with the current `*idum`, `some x` passes a
fresh seed (another caller's variable). Result: the values returned. -/
def draws : List (Option Int) → Int → Statics → Option (List Rat)
  | [], _, _ => some []
  | c :: cs, x, s =>
    match ran2 (c.getD x) s with
    | none => none
    | some (y, x', s') => (draws cs x' s').map (y :: ·)

/-- From program start, any number of draws with any (re)seeding below the modulus: all calls are
free of overflow and of out-of-range accesses, and every value lies strictly between 0 and 1. -/
theorem draws_safe (cs : List (Option Int)) (x : Int) (hx : -2147483563 < x ∧ x < 2147483563)
    (hc : ∀ y, some y ∈ cs → -2147483563 < y ∧ y < 2147483563) :
    ∃ ys, draws cs x statics0 = some ys ∧ ys.length = cs.length ∧ ∀ y ∈ ys, 0 < y ∧ y < 1 := by
  have key : ∀ (cs : List (Option Int)) (x : Int) (s : Statics), -2147483563 < x → x < 2147483563 →
      Good s → (∀ y, some y ∈ cs → -2147483563 < y ∧ y < 2147483563) →
      ∃ ys, draws cs x s = some ys ∧ ys.length = cs.length ∧ ∀ y ∈ ys, 0 < y ∧ y < 1 := by
    intro cs
    induction cs with
    | nil => intro x s _ _ _ _; exact ⟨[], rfl, rfl, by simp⟩
    | cons c cs ih =>
      intro x s h0 h1 g hc
      have hb : -2147483563 < c.getD x ∧ c.getD x < 2147483563 := by
        cases c with
        | none => exact ⟨h0, h1⟩
        | some z => exact hc z List.mem_cons_self
      obtain ⟨y, x', s', e, y0, y1, _, _, _, x0, x1, g'⟩ := draw_safe hb.1 hb.2 g
      obtain ⟨ys, e', l, p⟩ := ih x' s' (by omega) x1 g' (fun z hz => hc z (List.mem_cons_of_mem _ hz))
      refine ⟨y :: ys, ?_, by simp [l], ?_⟩
      · simp only [draws, e, e', Option.map_some]
      · intro z hz
        rcases List.mem_cons.1 hz with rfl | hz
        · exact ⟨y0, y1⟩
        · exact p z hz
  exact key cs x statics0 hx.1 hx.2 good0 hc

example : -2147483563 < (-1 : Int) ∧ (-1 : Int) < 2147483563 := by decide

/-- The bound on the seed is needed: with seed `-10^12` the first draw leaves `iy` beyond the table
range and the second draw reads the shuffle table at index 1025. -/
theorem large_seed_out_of_range :
    ∃ x s, (init (-1000000000000) statics0).bind (fun r => next r.1 r.2) = some (x, s) ∧ 0 < x ∧
      s.iy.tdiv NDIV = 1025 ∧ s.iv.length = 32 ∧ ran2 x s = none := by
  refine ⟨_, _, rfl, by decide +kernel, by decide +kernel, by decide +kernel, ?_⟩
  unfold ran2
  rw [if_neg (by decide +kernel)]
  simp only [Option.bind_eq_bind, Option.bind_some]
  rw [show next _ _ = none from by decide +kernel]
  rfl

end Verif.Ran2
