import Verif.Props.SrHydro

/-!
# Special relativistic hydrodynamics: success and failure of the inversion, floors, the loops over cells
-/
namespace Verif.Sr
open Verif.Grid
open Verif.Eos (Col col putCol cells In cells_hit cells_keep col_putCol col_putCol_ne)

/-! ## Gas at rest: the inversion succeeds from any starting pressure -/

theorem rest_cons (gamma rho p : ℝ) : toCons gamma ⟨rho, p, 0, 0, 0⟩ = ⟨rho, rho + gamma / (gamma - 1) * p - p, 0, 0, 0⟩ := by
  have : lorentz 0 0 0 = 1 := by unfold lorentz; simp
  simp [toCons, this]

/-- Gas at rest with a pressure above `10⁻¹²`: whatever pressure the array of primitives held, the inversion succeeds,
density and velocity are exact, and the pressure is right to within `(gamma-1) 10⁻¹²`. -/
theorem rest_found (gamma rho p old : ℝ) (h : Phys gamma ⟨rho, p, 0, 0, 0⟩) (hp : 1 / 10 ^ 12 < p) :
    ∃ p', invert gamma (toCons gamma ⟨rho, p, 0, 0, 0⟩) 0 old = some (⟨rho, p', 0, 0, 0⟩, 1)
      ∧ |p' - p| ≤ (gamma - 1) / 10 ^ 12 := by
  have hs : Slow (toCons gamma ⟨rho, p, 0, 0, 0⟩) := by
    rw [rest_cons]; unfold Slow msq
    simp only
    have : (0 : ℝ) ≤ (1 - 1 / 10 ^ 12) * (rho + gamma / (gamma - 1) * p - p) ^ 2 :=
      mul_nonneg (by norm_num) (sq_nonneg _)
    linarith
  have A := toCons_fix gamma _ h hs
  have hm : msq (toCons gamma ⟨rho, p, 0, 0, 0⟩) = 0 := by rw [rest_cons]; simp [msq]
  rw [hm] at A
  simp only at A
  have hp' : eps < p := hp
  have he := eps_pos
  have hgam : 0 < gamma := by linarith [h.gt]
  have hg1 : 0 < gamma - 1 := by linarith [h.gt]
  have hrt : ∀ x, rt (toCons gamma ⟨rho, p, 0, 0, 0⟩).e 0 x = 1 := by intro x; simp [rt]
  set c := (gamma - 1) / gamma with hc
  have hc1 : c * gamma = gamma - 1 := by rw [hc]; field_simp
  have hc0 : 0 < c := div_pos hg1 hgam
  have hc2 : c ≤ 1 / 2 := by rw [hc, div_le_iff₀ hgam]; linarith [h.le]
  set d := (toCons gamma ⟨rho, p, 0, 0, 0⟩).d with hd
  set e := (toCons gamma ⟨rho, p, 0, 0, 0⟩).e with hee
  have hnx : ∀ x, nx gamma d e 0 x = p + c * (x - p) := by
    intro x
    have h1 : nx gamma d e 0 x = c * ((e + x) - d) := by unfold nx; rw [hrt, ← hc]; ring
    have h2 : nx gamma d e 0 p = c * ((e + p) - d) := by unfold nx; rw [hrt, ← hc]; ring
    rw [A.fix] at h2
    linarith
  have hN : ∀ x, eps ≤ x → nhNext gamma d e 0 x = p + c * (x - p) := by
    intro x hx; rw [(A.step hp'.le hx).1, hnx]
  have hge : ∀ x, eps ≤ x → eps ≤ p + c * (x - p) := by intro x hx; nlinarith
  -- the result for a given pressure
  have fin : ∀ (s : Nat → ℝ) (n : Nat) (p' : ℝ), nhLoop gamma d e 0 maxIter 0 (fun _ => max old (nhMin e)) = (s, n) →
      n < 15 → s ((n + 1) % 3) = p' → eps ≤ p' → |p' - p| ≤ (gamma - 1) * eps →
      ∃ p', invert gamma (toCons gamma ⟨rho, p, 0, 0, 0⟩) 0 old = some (⟨rho, p', 0, 0, 0⟩, 1)
        ∧ |p' - p| ≤ (gamma - 1) / 10 ^ 12 := by
    intro s n p' hl hn hsp hpe hpp
    refine ⟨p', ?_, ?_⟩
    · have hl' : nhLoop gamma (toCons gamma ⟨rho, p, 0, 0, 0⟩).d (toCons gamma ⟨rho, p, 0, 0, 0⟩).e 0 maxIter 0
          (fun _ => max old (nhMin (toCons gamma ⟨rho, p, 0, 0, 0⟩).e)) = (s, n) := hl
      rw [invert_of_loop hl' hn hsp]
      have hG : nhGamma (toCons gamma ⟨rho, p, 0, 0, 0⟩).e 0 p' = 1 := by
        rw [nhGamma_eq A.L A.slow hpe, hrt]; norm_num
      rw [hG]
      simp [rest_cons]
    · rw [show (gamma - 1) / 10 ^ 12 = (gamma - 1) * eps by rw [eps_eq]; ring]; exact hpp
  have conv : ∀ x, |p + c * (x - p) - x| < eps → |p + c * (x - p) - p| ≤ (gamma - 1) * eps := by
    intro x hx
    have e1 : p + c * (x - p) - x = -((1 - c) * (x - p)) := by ring
    have e2 : p + c * (x - p) - p = c * (x - p) := by ring
    rw [e1, abs_neg, abs_mul, abs_of_pos (by linarith : 0 < 1 - c)] at hx
    rw [e2, abs_mul, abs_of_pos hc0]
    have e3 : c = (gamma - 1) * (1 - c) := by linarith
    calc c * |x - p| = (gamma - 1) * ((1 - c) * |x - p|) := by rw [← mul_assoc, ← e3]
      _ ≤ (gamma - 1) * eps := mul_le_mul_of_nonneg_left hx.le hg1.le
  have hmin : nhMin e = eps := nhMin_eq A.L
  set x0 := max old eps with hx0
  have hx0e : eps ≤ x0 := le_max_right _ _
  set x1 := p + c * (x0 - p) with hx1
  set x2 := p + c * (x1 - p) with hx2
  have hx1e : eps ≤ x1 := hge _ hx0e
  have hx2e : eps ≤ x2 := hge _ hx1e
  have L0 : nhLoop gamma d e 0 maxIter 0 (fun _ => max old (nhMin e)) = nhLoop gamma d e 0 15 0 (fun _ => x0) := by
    rw [hmin]; rfl
  -- first pass
  by_cases b0 : x1 > eps ∧ |x1 - x0| < eps
  · refine fin (Function.update (fun _ => x0) 1 x1) 0 x1 ?_ (by norm_num) (by simp) hx1e (conv _ b0.2)
    rw [L0]
    unfold nhLoop
    simp only
    rw [body0 rfl]
    simp only [hN _ hx0e, hmin, ← hx1, b0]
    simp
  have L1 : nhLoop gamma d e 0 15 0 (fun _ => x0) = nhLoop gamma d e 0 14 1 (Function.update (fun _ => x0) 1 x1) := by
    conv_lhs => unfold nhLoop
    simp only
    rw [body0 rfl]
    simp only [hN _ hx0e, hmin, ← hx1, b0]
    simp
  -- second pass
  by_cases b1 : x2 > eps ∧ |x2 - x1| < eps
  · refine fin (Function.update (Function.update (fun _ => x0) 1 x1) 2 x2) 1 x2 ?_ (by norm_num) (by simp) hx2e
      (conv _ b1.2)
    rw [L0, L1]
    unfold nhLoop
    simp only
    rw [body1 rfl]
    simp only [Function.update_self, hN _ hx1e, hmin, ← hx2, b1]
    simp
  have L2 : nhLoop gamma d e 0 14 1 (Function.update (fun _ => x0) 1 x1)
      = nhLoop gamma d e 0 13 2 (Function.update (Function.update (fun _ => x0) 1 x1) 2 x2) := by
    conv_lhs => unfold nhLoop
    simp only
    rw [body1 rfl]
    simp only [Function.update_self, hN _ hx1e, hmin, ← hx2, b1]
    simp
  -- third pass: the accelerated value is exact
  have hne : x1 - x0 ≠ 0 := by
    intro hh
    apply b0
    have : (1 - c) * (x0 - p) = 0 := by rw [hx1] at hh; linarith
    rcases mul_eq_zero.mp this with h' | h'
    · exact absurd h' (by linarith)
    · have : x1 = p := by rw [hx1, h']; ring
      rw [this] at hh ⊢
      exact ⟨hp', by rw [hh]; simpa using he⟩
  have hrr : (x2 - x1) / (x1 - x0) = c := by
    rw [div_eq_iff hne, hx2, hx1]; ring
  have hacc : x1 + (x2 - x1) / (1 - c) = p := by
    have : 1 - c ≠ 0 := by linarith
    rw [hx2, hx1]; field_simp; ring
  set s2 := Function.update (Function.update (fun _ : Nat => x0) 1 x1) 2 x2 with hs2
  have v0 : s2 0 = x0 := by simp [hs2]
  have v1 : s2 1 = x1 := by simp [hs2]
  have v2 : s2 2 = x2 := by simp [hs2]
  have B2 : nhBody gamma d e 0 2 s2 = (Function.update s2 0 p, decide (p > eps ∧ |p - x2| < eps)) := by
    rw [body2 rfl]
    simp only [v0, v1, v2, hrr, hacc, hmin, max_eq_left hp'.le]
    rw [if_neg]
    rw [abs_of_pos hc0]
    have := eps_lt
    rintro (h' | h')
    · exact hne h'
    · linarith
  by_cases b2 : p > eps ∧ |p - x2| < eps
  · refine fin (Function.update s2 0 p) 2 p ?_ (by norm_num) (by simp) hp'.le (by simp; positivity)
    rw [L0, L1, L2]
    unfold nhLoop
    simp only
    rw [B2]
    simp [b2]
  have L3 : nhLoop gamma d e 0 13 2 s2 = nhLoop gamma d e 0 12 3 (Function.update s2 0 p) := by
    conv_lhs => unfold nhLoop
    simp only
    rw [B2]
    simp [b2]
  refine fin (Function.update (Function.update s2 0 p) 1 p) 3 p ?_ (by norm_num) (by simp) hp'.le (by simp; positivity)
  rw [L0, L1, L2, L3]
  unfold nhLoop
  simp only
  rw [body0 rfl]
  have hNp : nhNext gamma d e 0 p = p := by rw [hN _ hp'.le]; ring
  simp [hNp, hmin, hp', he]

example : Phys (5/3) ⟨1, 1, 0, 0, 0⟩ := by constructor <;> norm_num

/-! ## Cold gas: the inversion fails and the cell is emptied -/

theorem cold_next (gamma : ℝ) (w : Prim) (h : Phys gamma w) (hs : Slow (toCons gamma w)) (hp : w.p ≤ 1 / 10 ^ 12) :
    nhNext gamma (toCons gamma w).d (toCons gamma w).e (msq (toCons gamma w)) eps = eps := by
  have A := toCons_fix gamma w h hs
  have hp' : w.p ≤ eps := hp
  have hgam : 0 < gamma := by linarith [h.gt]
  have hk : 2 * (gamma - 1) / gamma ≤ 1 := by rw [div_le_one hgam]; linarith [h.le]
  have hu := nx_upper2 A.L A.gt A.hd A.pos.le hp'
  rw [A.fix] at hu
  rw [nhNext_eq A.L A.slow le_rfl]
  apply max_eq_right
  nlinarith

/-- If the pressure of a physical state is at most `10⁻¹²`, and so was the stored one, the inversion fails. -/
theorem cold_fails (gamma : ℝ) (w : Prim) (h : Phys gamma w) (hs : Slow (toCons gamma w)) (hp : w.p ≤ 1 / 10 ^ 12)
    (old : ℝ) (ho : old ≤ 1 / 10 ^ 12) : invert gamma (toCons gamma w) (msq (toCons gamma w)) old = none := by
  have A := toCons_fix gamma w h hs
  have ho' : old ≤ eps := ho
  have hN := cold_next gamma w h hs hp
  have hst := nhLoop_stay (gamma := gamma) (dd := (toCons gamma w).d) (ee := (toCons gamma w).e)
    (mm := msq (toCons gamma w)) (fun _ s => s 0 = eps ∧ s 1 = eps ∧ s 2 = eps) (by
      intro n s ⟨s0, s1, s2⟩
      have hn : n % 3 = 0 ∨ n % 3 = 1 ∨ n % 3 = 2 := by omega
      rcases hn with hn | hn | hn
      · rw [body0 hn, s0, hN, nhMin_eq A.L]; simp [s0, s2]
      · rw [body1 hn, s1, hN, nhMin_eq A.L]; simp [s0, s1]
      · rw [body2 hn, s1, s0]; simp [s0, s1, s2]) maxIter 0 (fun _ => max old (nhMin (toCons gamma w).e))
      (by rw [nhMin_eq A.L, max_eq_right ho']; simp)
  unfold invert
  simp only [hst]
  simp

/-- The cell is then replaced by gas at rest at the floors: its mass, momentum and energy are lost, whatever they
were. -/
theorem cold_gas_is_lost (P : Par) (w old : Prim) (h : Phys P.gamma w) (hs : Slow (toCons P.gamma w))
    (hp : w.p ≤ 1 / 10 ^ 12) (hd : P.dfloor ≤ w.rho) (hpf : P.pfloor ≤ w.p) (ho : old.p ≤ 1 / 10 ^ 12) :
    toPrimCell P (toCons P.gamma w) old
      = (toCons P.gamma ⟨P.dfloor, P.pfloor, 0, 0, 0⟩, ⟨P.dfloor, P.pfloor, 0, 0, 0⟩) := by
  have hinv := cold_fails P.gamma w h hs hp (max old.p P.pfloor) (max_le ho (hpf.trans hp))
  unfold toPrimCell
  simp only [limits_keep P w h hs hd hpf]
  unfold invertTwice
  simp only [hinv, orOld, Option.isSome_none, Bool.true_or, if_true]
  unfold ceil
  simp [reCons_eq]

/-- Dense, cold gas with the floors of the input file set to `10⁻²⁰`. -/
example : Phys (5/3) ⟨1, 1/10^13, 0, 0, 0⟩ ∧ Slow (toCons (5/3) ⟨1, 1/10^13, 0, 0, 0⟩)
    ∧ (toCons (5/3) ⟨1, 1/10^13, 0, 0, 0⟩).d = 1
    ∧ (toCons (5/3) ⟨1/10^20, 1/10^20, 0, 0, 0⟩).d = 1/10^20 := by
  refine ⟨by constructor <;> norm_num, ?_, ?_, ?_⟩
  · simp only [Slow, rest_cons, msq]; norm_num
  · simp only [rest_cons]
  · simp only [rest_cons]

/-- When the accelerated value is rejected once, the iteration starts again from the same pressure, and fails. `p0`,
`p1`, `p2` are the first three iterates. -/
theorem rejected_is_failure (gamma mm old p0 p1 p2 : ℝ) (q : Cons) (h0 : p0 = max old (nhMin q.e))
    (h1 : p1 = nhNext gamma q.d q.e mm p0) (h2 : p2 = nhNext gamma q.d q.e mm p1)
    (n1 : ¬ (p1 > nhMin q.e ∧ |p1 - p0| < 1 / 10 ^ 12)) (n2 : ¬ (p2 > nhMin q.e ∧ |p2 - p1| < 1 / 10 ^ 12))
    (hr : p1 = p0 ∨ |(p2 - p1) / (p1 - p0)| > 1 - 1 / 10 ^ 12) : invert gamma q mm old = none := by
  have hst := nhLoop_stay (gamma := gamma) (dd := q.d) (ee := q.e)
    (mm := mm) (fun n s => s 0 = p0 ∧ (n % 3 ≠ 0 → s 1 = p1) ∧ (n % 3 = 2 → s 2 = p2)) (by
      intro n s ⟨s0, s1, s2⟩
      have hn : n % 3 = 0 ∨ n % 3 = 1 ∨ n % 3 = 2 := by omega
      rcases hn with hn | hn | hn
      · rw [body0 hn, s0, ← h1]
        refine ⟨decide_eq_false n1, by simpa using s0, by simp, fun h => by omega⟩
      · have s1' := s1 (by omega)
        rw [body1 hn, s1', ← h2]
        refine ⟨decide_eq_false n2, by simpa using s0, fun _ => by simpa using s1', by simp⟩
      · have s1' := s1 (by omega)
        have s2' := s2 hn
        rw [body2 hn]
        simp only [s0, s1', s2']
        rw [if_pos (by rcases hr with hr | hr; exacts [Or.inl (by linarith), Or.inr hr])]
        exact ⟨rfl, s0, fun h => by omega, fun h => by omega⟩) maxIter 0 (fun _ => max old (nhMin q.e))
      ⟨h0.symm, fun h => absurd rfl h, fun h => by omega⟩
  unfold invert
  simp only [hst]
  simp

/-- Gas of pressure `10⁻¹³` at rest meets the hypotheses: the three iterates are equal. -/
example : ∃ (q : Cons) (mm p : ℝ), p = max 0 (nhMin q.e) ∧ p = nhNext (5/3) q.d q.e mm p ∧
    ¬ (p > nhMin q.e ∧ |p - p| < 1 / 10 ^ 12) ∧ q.d = 1 := by
  have hph : Phys (5/3) ⟨1, 1/10^13, 0, 0, 0⟩ := by constructor <;> norm_num
  have hsl : Slow (toCons (5/3) ⟨1, 1/10^13, 0, 0, 0⟩) := by simp only [Slow, rest_cons, msq]; norm_num
  have A := toCons_fix _ _ hph hsl
  refine ⟨toCons (5/3) ⟨1, 1/10^13, 0, 0, 0⟩, msq (toCons (5/3) ⟨1, 1/10^13, 0, 0, 0⟩), eps, ?_, ?_, ?_, ?_⟩
  · rw [nhMin_eq A.L, max_eq_right eps_pos.le]
  · exact (cold_next _ _ hph hsl (by norm_num)).symm
  · rw [nhMin_eq A.L]; simp
  · simp only [rest_cons]

/-! ## Any input: floors, ceiling, and agreement of the two sets of variables -/

theorem invert_lorentz {gamma mm old g : ℝ} {q : Cons} {w : Prim} (L : Lim q.e mm) (hs : mm ≤ (1 - eps) * q.e ^ 2)
    (hm : mm = msq q) (h : invert gamma q mm old = some (w, g)) : 1 + w.u1 ^ 2 + w.u2 ^ 2 + w.u3 ^ 2 = g ^ 2 ∧ 0 < g := by
  obtain ⟨i1, i2, -, i4, i5, i6⟩ := invert_some h
  rw [nhMin_eq L] at i1
  have hx0 : (0 : ℝ) ≤ w.p := by linarith [eps_pos]
  rw [nhGamma_eq L hs i1.le] at i2
  rw [nhA_eq L i1.le] at i4 i5 i6
  have hrt := L.rt_pos hx0
  have hsq := L.rtsq hx0
  have ha : 0 < q.e + w.p := by linarith [L.e]
  refine ⟨?_, by rw [i2]; positivity⟩
  rw [i4, i5, i6, i2]
  generalize rt q.e mm w.p = r at *
  have e : (r : ℝ) ^ 2 * (q.e + w.p) ^ 2 + mm = (q.e + w.p) ^ 2 := by
    rw [hsq]; field_simp; ring
  rw [hm] at e
  unfold msq at e
  field_simp
  linarith

theorem le_floor (a b : ℝ) [Decidable (a < b)] : b ≤ if a < b then b else a := by
  split
  · exact le_rfl
  · rename_i h; exact not_lt.mp h

theorem limits_ok (P : Par) (hP : P.Ok) (u : Cons) :
    Lim (limits P u).q.e (limits P u).mmSq ∧ (limits P u).mmSq ≤ (1 - eps) * (limits P u).q.e ^ 2
      ∧ (limits P u).mmSq = msq (limits P u).q := by
  have hg1 : 0 < P.gamma - 1 := by linarith [hP.gamma]
  have hmin : 0 < P.dfloor + P.pfloor / (P.gamma - 1) := add_pos hP.d (div_pos hP.p hg1)
  have he : 0 < (if u.e < P.dfloor + P.pfloor / (P.gamma - 1) then P.dfloor + P.pfloor / (P.gamma - 1) else u.e) := by
    split
    · exact hmin
    · linarith
  have he1 := eps_lt
  have he0 := eps_pos
  unfold limits
  simp only
  generalize (if u.e < P.dfloor + P.pfloor / (P.gamma - 1) then P.dfloor + P.pfloor / (P.gamma - 1) else u.e) = e at *
  have hlt : ∀ m, m ≤ (1 - eps) * e ^ 2 → m < e ^ 2 := by
    intro m hm
    have : 0 < eps * e ^ 2 := by positivity
    linarith
  split
  · rename_i hgt
    have h0 : 0 ≤ (1 - eps) * e ^ 2 := mul_nonneg (by linarith) (sq_nonneg _)
    refine ⟨⟨he, h0, hlt _ le_rfl⟩, le_rfl, ?_⟩
    have hpos : 0 < u.m1 ^ 2 + u.m2 ^ 2 + u.m3 ^ 2 := lt_of_le_of_lt h0 hgt
    unfold msq
    simp only
    rw [mul_pow, mul_pow, mul_pow, Real.sq_sqrt (div_nonneg h0 hpos.le), ← add_mul, ← add_mul]
    field_simp
  · rename_i hgt
    refine ⟨⟨he, by positivity, hlt _ (not_lt.mp hgt)⟩, not_lt.mp hgt, rfl⟩

theorem raise_ok (P : Par) (hP : P.Ok) (w : Prim) (g : ℝ) (q : Cons) (mm : ℝ) (L : Lim q.e mm)
    (hs : mm ≤ (1 - eps) * q.e ^ 2) (hm : mm = msq q) :
    Lim (raise P w g q).e mm ∧ mm ≤ (1 - eps) * (raise P w g q).e ^ 2 ∧ mm = msq (raise P w g q) := by
  have hg1 : 0 < P.gamma - 1 := by linarith [hP.gamma]
  have hgam : 0 < P.gamma := by linarith [hP.gamma]
  have h1 : 0 ≤ rhoAdd P w := le_max_right _ _
  have h2 : 0 ≤ pAdd P w := le_max_right _ _
  have h3 : q.e ≤ (raise P w g q).e := by
    unfold raise
    simp only
    have : 0 ≤ (rhoAdd P w + P.gamma / (P.gamma - 1) * pAdd P w) * g ^ 2 := by positivity
    linarith
  have h4 : q.e ^ 2 ≤ (raise P w g q).e ^ 2 := by nlinarith [L.e]
  have := eps_lt
  refine ⟨⟨by linarith [L.e], L.m, by linarith [L.lt]⟩, hs.trans (mul_le_mul_of_nonneg_left h4 (by linarith)), ?_⟩
  rw [hm]; rfl

theorem ceil_ok (P : Par) (hP : P.Ok) (w : Prim) (g : ℝ) (h1 : 1 + w.u1 ^ 2 + w.u2 ^ 2 + w.u3 ^ 2 = g ^ 2) (h2 : 0 < g) :
    (P.dfloor ≤ (ceil P true w g).1.rho ∧ P.pfloor ≤ (ceil P true w g).1.p) ∧
      LorentzLe (ceil P true w g).1 P.gammaMax := by
  have hgM : 1 ≤ P.gammaMax ^ 2 := by nlinarith [hP.g]
  unfold ceil LorentzLe
  simp only [if_true]
  refine ⟨⟨le_floor _ _, le_floor _ _⟩, ?_⟩
  by_cases hgt : g > P.gammaMax
  · rw [if_pos hgt]
    have hgt' : P.gammaMax < g := hgt
    have hg1 : 1 < g ^ 2 := by nlinarith [hP.g]
    simp only [mul_pow]
    rw [Real.sq_sqrt (div_nonneg (by linarith) (by linarith))]
    have e : 1 + w.u1 ^ 2 * ((P.gammaMax ^ 2 - 1) / (g ^ 2 - 1)) + w.u2 ^ 2 * ((P.gammaMax ^ 2 - 1) / (g ^ 2 - 1))
        + w.u3 ^ 2 * ((P.gammaMax ^ 2 - 1) / (g ^ 2 - 1))
        = 1 + (w.u1 ^ 2 + w.u2 ^ 2 + w.u3 ^ 2) * ((P.gammaMax ^ 2 - 1) / (g ^ 2 - 1)) := by ring
    rw [e, show w.u1 ^ 2 + w.u2 ^ 2 + w.u3 ^ 2 = g ^ 2 - 1 by linarith, mul_div_cancel₀ _ (by linarith)]
    linarith
  · rw [if_neg hgt]
    have hgt' : g ≤ P.gammaMax := not_lt.mp hgt
    rw [h1]
    nlinarith

/-- Whatever the conserved variables and the old primitives are: the new primitives respect the floors and the ceiling of
the Lorentz factor, and the conserved variables are either untouched or those of the new primitives. -/
theorem primitives_respect_floors (P : Par) (hP : P.Ok) (u : Cons) (old : Prim) :
    P.dfloor ≤ (toPrimCell P u old).2.rho ∧ P.pfloor ≤ (toPrimCell P u old).2.p ∧
    LorentzLe (toPrimCell P u old).2 P.gammaMax ∧
    ((toPrimCell P u old).1 = u ∨ (toPrimCell P u old).1 = toCons P.gamma (toPrimCell P u old).2) := by
  obtain ⟨L, hs, hm⟩ := limits_ok P hP u
  have hgM : 1 ≤ P.gammaMax ^ 2 := by nlinarith [hP.g]
  set r := invertTwice P (limits P u) ⟨max old.rho P.dfloor, max old.p P.pfloor, old.u1, old.u2, old.u3⟩ with hr
  -- a successful inversion returns the Lorentz factor
  have hok : ∀ w g, r.1 = some (w, g) → 1 + w.u1 ^ 2 + w.u2 ^ 2 + w.u3 ^ 2 = g ^ 2 ∧ 0 < g := by
    intro w g hw
    rw [hr] at hw
    unfold invertTwice at hw
    split at hw
    · cases hw
    · rename_i w1 g1 h1
      split at hw
      · obtain ⟨L', hs', hm'⟩ := raise_ok P hP w1 g1 (limits P u).q (limits P u).mmSq L hs hm
        exact invert_lorentz L' hs' hm' hw
      · simp only [Option.some.injEq, Prod.mk.injEq] at hw
        obtain ⟨rfl, rfl⟩ := hw
        exact invert_lorentz L hs hm h1
  have hres : toPrimCell P u old = (if r.2 || (ceil P r.1.isSome
      (orOld ⟨max old.rho P.dfloor, max old.p P.pfloor, old.u1, old.u2, old.u3⟩ r.1).1
      (orOld ⟨max old.rho P.dfloor, max old.p P.pfloor, old.u1, old.u2, old.u3⟩ r.1).2).2 then
        reCons P.gamma (ceil P r.1.isSome
      (orOld ⟨max old.rho P.dfloor, max old.p P.pfloor, old.u1, old.u2, old.u3⟩ r.1).1
      (orOld ⟨max old.rho P.dfloor, max old.p P.pfloor, old.u1, old.u2, old.u3⟩ r.1).2).1 else u,
      (ceil P r.1.isSome
      (orOld ⟨max old.rho P.dfloor, max old.p P.pfloor, old.u1, old.u2, old.u3⟩ r.1).1
      (orOld ⟨max old.rho P.dfloor, max old.p P.pfloor, old.u1, old.u2, old.u3⟩ r.1).2).1) := rfl
  have hlast : (toPrimCell P u old).1 = u ∨ (toPrimCell P u old).1 = toCons P.gamma (toPrimCell P u old).2 := by
    rw [hres]
    simp only
    split
    · right; exact reCons_eq _ _
    · left; rfl
  refine and_assoc.mp (and_assoc.mp ⟨?_, hlast⟩)
  rw [hres]
  simp only
  rcases hcase : r.1 with _ | ⟨w, g⟩
  · simp only [Option.isSome_none, ceil]
    simp only [Bool.false_eq_true, if_false, LorentzLe]
    exact ⟨⟨le_rfl, le_rfl⟩, by simpa using hgM⟩
  · obtain ⟨h1, h2⟩ := hok w g hcase
    simp only [orOld, Option.isSome_some]
    exact ceil_ok P hP w g h1 h2

example : Par.Ok ⟨5/3, 1/10^6, 1/10^8, 1000⟩ := by constructor <;> norm_num

/-- When a floor acts in the first pass, the energy given to the second inversion is that of the raised density and
pressure at the same velocity and twice the added pressure too much, while the momentum is left as it was. -/
theorem floors_add_too_much_energy (P : Par) (hg : P.gamma ≠ 1) (w : Prim) :
    (raise P w (lorentz w.u1 w.u2 w.u3) (toCons P.gamma w)).e
      = (toCons P.gamma { w with rho := w.rho + rhoAdd P w, p := w.p + pAdd P w }).e + 2 * pAdd P w
    ∧ (raise P w (lorentz w.u1 w.u2 w.u3) (toCons P.gamma w)).d
      = (toCons P.gamma { w with rho := w.rho + rhoAdd P w, p := w.p + pAdd P w }).d
    ∧ (raise P w (lorentz w.u1 w.u2 w.u3) (toCons P.gamma w)).m1 = (toCons P.gamma w).m1 := by
  have h1 : P.gamma - 1 ≠ 0 := sub_ne_zero.mpr hg
  refine ⟨?_, ?_, rfl⟩
  · simp only [raise, toCons]
    field_simp
    ring
  · simp only [raise, toCons]
    ring

/-! ## The loops over cells -/

theorem prim_setPrim (w : Col ℝ) (x : Prim) : prim (setPrim w x) = x := by
  ext <;> simp [prim, setPrim]

theorem cons_setCons (u : Col ℝ) (x : Cons) : cons (setCons u x) = x := by
  ext <;> simp [cons, setCons]

/-- The loops treat every cell of the region alone, and no other. -/
theorem loops_are_cellwise (P : Par) (kl ku jl ju il iu : Int) (s : A4 ℝ × A4 ℝ) (c : Int × Int × Int) :
    (In kl ku jl ju il iu c →
      cons (col (toPrimAll P kl ku jl ju il iu s).1 c) = (toPrimCell P (cons (col s.1 c)) (prim (col s.2 c))).1 ∧
      prim (col (toPrimAll P kl ku jl ju il iu s).2 c) = (toPrimCell P (cons (col s.1 c)) (prim (col s.2 c))).2 ∧
      cons (col (toConsAll P s.2 kl ku jl ju il iu s.1) c) = toCons P.gamma (prim (col s.2 c))) ∧
    (¬ In kl ku jl ju il iu c →
      col (toPrimAll P kl ku jl ju il iu s).1 c = col s.1 c ∧ col (toPrimAll P kl ku jl ju il iu s).2 c = col s.2 c ∧
      col (toConsAll P s.2 kl ku jl ju il iu s.1) c = col s.1 c) := by
  constructor
  · intro hc
    have h1 := cells_hit (fun s : A4 ℝ × A4 ℝ => (col s.1 c, col s.2 c))
      (fun x => (setCons x.1 (toPrimCell P (cons x.1) (prim x.2)).1, setPrim x.2 (toPrimCell P (cons x.1) (prim x.2)).2)) hc
      (fun c (s : A4 ℝ × A4 ℝ) =>
        let r := toPrimCell P (cons (col s.1 c)) (prim (col s.2 c))
        (putCol s.1 c (setCons (col s.1 c) r.1), putCol s.2 c (setPrim (col s.2 c) r.2)))
      (fun st => by simp only [col_putCol]) (fun c' hne st => by simp only [col_putCol_ne _ hne]) s
    have h2 := cells_hit (fun s : A4 ℝ => col s c) (fun x => setCons x (toCons P.gamma (prim (col s.2 c)))) hc
      (fun c s' => putCol s' c (setCons (col s' c) (toCons P.gamma (prim (col s.2 c)))))
      (fun st => by simp only [col_putCol]) (fun c' hne st => by simp only [col_putCol_ne _ hne]) s.1
    have h1a := congrArg Prod.fst h1
    have h1b := congrArg Prod.snd h1
    simp only at h1a h1b
    refine ⟨?_, ?_, ?_⟩
    · exact (congrArg cons h1a).trans (cons_setCons _ _)
    · exact (congrArg prim h1b).trans (prim_setPrim _ _)
    · exact (congrArg cons h2).trans (cons_setCons _ _)
  · intro hc
    have h1 := cells_keep (kl := kl) (ku := ku) (jl := jl) (ju := ju) (il := il) (iu := iu)
      (fun s : A4 ℝ × A4 ℝ => (col s.1 c, col s.2 c))
      (fun c (s : A4 ℝ × A4 ℝ) =>
        let r := toPrimCell P (cons (col s.1 c)) (prim (col s.2 c))
        (putCol s.1 c (setCons (col s.1 c) r.1), putCol s.2 c (setPrim (col s.2 c) r.2)))
      (fun c' hc' st => by
        have hne : c' ≠ c := fun h => hc (h ▸ hc')
        simp only [col_putCol_ne _ hne]) s
    have h2 := cells_keep (kl := kl) (ku := ku) (jl := jl) (ju := ju) (il := il) (iu := iu) (fun s : A4 ℝ => col s c)
      (fun c s' => putCol s' c (setCons (col s' c) (toCons P.gamma (prim (col s.2 c)))))
      (fun c' hc' st => by
        have hne : c' ≠ c := fun h => hc (h ▸ hc')
        simp only [col_putCol_ne _ hne]) s.1
    exact ⟨congrArg Prod.fst h1, congrArg Prod.snd h1, h2⟩

example : In 0 1 0 1 2 5 (0, 1, 3) := by unfold In; decide

/-- The floors of reconstructed states: the result is admissible, and admissible states are kept. -/
theorem face_floors (P : Par) (w : Prim) :
    P.dfloor ≤ (primFloors P w).rho ∧ P.pfloor ≤ (primFloors P w).p ∧
    (primFloors P w).u1 = w.u1 ∧ (primFloors P w).u2 = w.u2 ∧ (primFloors P w).u3 = w.u3 ∧
    (P.dfloor ≤ w.rho → P.pfloor ≤ w.p → primFloors P w = w) := by
  refine ⟨?_, ?_, rfl, rfl, rfl, ?_⟩
  · simp only [primFloors]; split <;> linarith
  · simp only [primFloors]; split <;> linarith
  · intro h1 h2
    ext <;> simp only [primFloors]
    · split <;> linarith
    · split <;> linarith

end Verif.Sr
