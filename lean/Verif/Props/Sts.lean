import Verif.Lemmas.Sts
import Verif.Props.BlockDt

/-!
# Super-time-stepping (C58)
-/
namespace Verif.Sts
open Polynomial
set_option linter.unusedSectionVars false

section
variable {K : Type} [Field K] [LinearOrder K] [IsStrictOrderedRing K]
variable {V : Type} [AddCommGroup V] [Module K V]
variable {dt : K} {s : Nat}

/-- One stage written out. -/
theorem stage_u (rkl2 : Bool) (f : V → V) (j : Nat) (r : Regs V) :
    let c : Coef K := coef rkl2 s j
    let r' := stage rkl2 dt f s j r
    let y0 := if rkl2 ∧ j = 1 then r.u else r.u0
    r'.u = c.mu • r.u + c.nu • r.u1 + (if rkl2 then 1 - c.mu - c.nu else 0 : K) • y0 + (if rkl2 then c.gat else 0 : K) • r.fl
      + (c.mt * tau rkl2 dt) • f r.u ∧
    r'.u1 = r.u ∧ r'.u0 = y0 ∧ r'.fl = (if rkl2 ∧ j = 1 then tau rkl2 dt • f r.u else r.fl) := by
  intro c r' y0
  cases rkl2
  · refine ⟨?_, rfl, rfl, rfl⟩
    show (0 : K) • r.u2 + (c.mu • r.u + c.nu • r.u1 + (0 : K) • r.u0 + (0 : K) • r.fl) + (c.mt * dt) • f r.u = _
    simp only [tau, Bool.false_eq_true, if_false, false_and, y0]
    simp
  · by_cases hj : j = 1
    · subst hj
      refine ⟨?_, rfl, ?_, ?_⟩
      · show (0 : K) • r.u2 + (c.mu • r.u + c.nu • r.u1 + (1 - c.mu - c.nu) • r.u + c.gat • r.fl) + (c.mt * dt * (1/2)) • f r.u = _
        simp only [tau, if_true, y0, and_self]
        module
      · simp only [y0, r', stage]; simp
      · simp only [r', stage, tau]; simp; ring_nf
    · refine ⟨?_, ?_, ?_, ?_⟩
      · simp only [y0, hj, and_false, if_false, r', stage, if_true, tau]
        module
      · simp only [hj, and_false, if_false, r', stage]
      · simp only [y0, hj, and_false, if_false, r', stage]
      · simp only [hj, and_false, if_false, r', stage]

/-- State after `j` stages for an affine right-hand side. -/
theorem stages_affine (rkl2 : Bool) (A : V →ₗ[K] V) (g : V) (r : Regs V) (j : Nat) :
    let f : V → V := fun y => A y + g
    let h := tau rkl2 dt • f r.u
    let Y := fun j => r.u + aeval (tau rkl2 dt • A : Module.End K V) (grow (K := K) rkl2 s j) h
    let r' := stages rkl2 dt f s j r
    r'.u = Y j ∧ (1 ≤ j → r'.u1 = Y (j - 1) ∧ (rkl2 = true → r'.u0 = r.u ∧ r'.fl = h)) := by
  intro f h Y
  have hf : ∀ j, tau rkl2 dt • f (Y j) = aeval (tau rkl2 dt • A : Module.End K V) (1 + X * grow (K := K) rkl2 s j) h := by
    intro j
    simp only [map_add, map_one, map_mul, aeval_X, LinearMap.add_apply, Module.End.one_apply, Module.End.mul_apply,
      LinearMap.smul_apply]
    show tau rkl2 dt • (A (r.u + _) + g) = _
    rw [map_add]
    show _ = tau rkl2 dt • (A r.u + g) + _
    module
  induction j with
  | zero => exact ⟨by show r.u = r.u + _; simp [grow], by omega⟩
  | succ n ih =>
    intro r'
    obtain ⟨hu, hr⟩ := ih
    obtain ⟨a1, a2, a3, a4⟩ := stage_u (dt := dt) (s := s) rkl2 f (n + 1) (stages rkl2 dt f s n r)
    set q := stages rkl2 dt f s n r with hq
    have hr' : r' = stage rkl2 dt f s (n + 1) q := rfl
    rw [← hr'] at a1 a2 a3 a4
    rw [hu] at a1 a2 a3 a4
    cases n with
    | zero =>
      obtain ⟨c1, c2, c3, c4⟩ := coef_first (K := K) rkl2 s
      simp only [zero_add] at a1 a3 a4 ⊢
      have hy : Y 0 = r.u := by show r.u + _ = _; simp [grow]
      rw [hy] at a1 a2 a3 a4
      refine ⟨?_, fun _ => ⟨by rw [a2]; exact hy.symm, fun h2 => ⟨?_, ?_⟩⟩⟩
      · rw [a1, c1, c2]
        show _ = r.u + _
        have hg : (if rkl2 = true then (coef rkl2 s 1 : Coef K).gat else 0) = 0 := by
          split
          · exact c4 ‹_›
          · rfl
        have h3 : (if rkl2 = true then (1 : K) - 1 - 0 else 0) = 0 := by split <;> simp
        rw [hg, h3, grow, aeval_C, Module.algebraMap_end_apply]
        show _ = r.u + _ • (tau rkl2 dt • f r.u)
        module
      · rw [a3, h2]; simp
      · rw [a4, h2]; simp [h, h2]
    | succ n =>
      obtain ⟨c1, c2, c3, c4, c5⟩ := coef_next (K := K) rkl2 s n
      obtain ⟨b1, b2⟩ := hr (by omega)
      have hne : n + 1 + 1 ≠ 1 := by omega
      simp only [hne, and_false, if_false] at a1 a3 a4
      refine ⟨?_, fun _ => ⟨a2, fun h2 => ⟨by rw [a3]; exact (b2 h2).1, by rw [a4]; exact (b2 h2).2⟩⟩⟩
      rw [a1, b1]
      show _ = r.u + aeval (tau rkl2 dt • A : Module.End K V) (grow (K := K) rkl2 s (n + 2)) h
      have hmt : ((coef rkl2 s (n + 1 + 1) : Coef K).mt * tau rkl2 dt) • f (Y (n + 1))
          = (coef rkl2 s (n + 2) : Coef K).mt • aeval (tau rkl2 dt • A : Module.End K V) (1 + X * grow (K := K) rkl2 s (n + 1)) h := by
        rw [mul_smul, hf]
      rw [hmt, grow]
      simp only [map_add, map_mul, aeval_C, Module.algebraMap_end_apply, LinearMap.add_apply, Module.End.mul_apply, map_one,
        Module.End.one_apply, aeval_X]
      show (coef rkl2 s (n + 2) : Coef K).mu • (r.u + _) + _ • (r.u + _) + _ + _ + _ = _
      cases rkl2
      · have := c5 rfl
        simp only [Bool.false_eq_true, if_false, zero_smul, add_zero]
        have e : (coef false s (n + 2) : Coef K).nu = 1 - (coef false s (n + 2) : Coef K).mu := by
          rw [← this]; ring
        simp only [show n + 1 - 1 = n from by omega, show n + 1 + 1 = n + 2 from rfl, e]
        module
      · simp only [if_true]
        rw [(b2 rfl).1, (b2 rfl).2]
        simp only [show n + 1 - 1 = n from by omega]
        module

theorem grow_rkl2 {s : Nat} (hs : 2 ≤ s) : ∃ q : K[X], grow true s s = 1 + C (1 / 2) * X + X ^ 2 * q := by
  obtain ⟨q, hq⟩ := (legP_expand (K := K) (ww true s) s).1
  refine ⟨C (bb true s) * q, ?_⟩
  have h := (grow_eq (K := K) true s s).1
  rw [hq] at h
  have hS : (2 : K) ≤ s := by exact_mod_cast hs
  have hp : (0 : K) < (s : K) ^ 2 + s - 2 := by nlinarith
  have hb : bb (K := K) true s = ((s : K) ^ 2 + s - 2) / (2 * s * (s + 1)) := by
    simp only [bb, if_true, bj_ge2 hs, bFormula]
  have hw : ww (K := K) true s = 4 / ((s : K) ^ 2 + s - 2) := by simp [ww]
  have e1 : bb (K := K) true s * ((s : K) * (s + 1) / 2 * ww true s) = 1 := by
    rw [hb, hw]
    have hp' := hp.ne'
    have h0 : (s : K) ≠ 0 := by linarith
    have h1 : (s : K) + 1 ≠ 0 := by linarith
    generalize (s : K) ^ 2 + s - 2 = P at hp' ⊢
    field_simp; norm_num
  have e2 : bb (K := K) true s * (((s : K) - 1) * s * (s + 1) * (s + 2) / 16 * ww true s ^ 2) = 1 / 2 := by
    have h0 : (s : K) ≠ 0 := by linarith
    have h1 : (s : K) + 1 ≠ 0 := by linarith
    have f : ((s : K) - 1) * s * (s + 1) * (s + 2) = s * (s + 1) * ((s : K) ^ 2 + s - 2) := by ring
    rw [hb, hw, f]
    have hp' := hp.ne'
    generalize (s : K) ^ 2 + s - 2 = P at hp' ⊢
    field_simp; norm_num
  have c1 := congrArg (C : K → K[X]) e1
  have c2 := congrArg (C : K → K[X]) e2
  simp only [C_mul, C_1] at c1 c2
  apply mul_left_cancel₀ (X_ne_zero (R := K))
  simp only [C_sub, C_1, C_mul] at h c1 c2 ⊢
  linear_combination h + X * c1 + X ^ 2 * c2

theorem grow_rkl1 {s : Nat} (hs : 1 ≤ s) : ∃ q : K[X], grow false s s = 1 + X * q := by
  obtain ⟨q, hq⟩ := (legP_expand (K := K) (ww false s) s).1
  refine ⟨C (((s : K) - 1) * s * (s + 1) * (s + 2) / 16 * ww false s ^ 2) + X * q, ?_⟩
  have h := (grow_eq (K := K) false s s).1
  rw [hq] at h
  have hS : (1 : K) ≤ s := by exact_mod_cast hs
  have hw : ww (K := K) false s = 2 / ((s : K) ^ 2 + s) := by simp [ww]
  have e1 : ((s : K) * (s + 1) / 2 * ww false s) = 1 := by
    rw [hw]; field_simp
  rw [e1] at h
  apply mul_left_cancel₀ (X_ne_zero (R := K))
  simp only [bb, Bool.false_eq_true, if_false, sub_self, C_0, C_1] at h
  linear_combination h

/-- **RKL2 is second-order accurate** for every affine right-hand side `f y = A y + g` (diffusion with fixed coefficients
and boundary data) and whatever the registers held before: the result is the Taylor polynomial of the exact solution
after the time `dt/2` plus a term of third order. Since the two coefficients tested belong to the only two order
conditions, the method is of second order for nonlinear right-hand sides too. -/
theorem rkl2_second_order (hs : 3 ≤ s) : ∃ Q : K[X], ∀ (A : V →ₗ[K] V) (g : V) (r : Regs V),
    let f : V → V := fun y => A y + g
    let h := dt / 2
    (superStep true dt f s r).u = r.u + h • f r.u + (h ^ 2 / 2) • A (f r.u)
      + h ^ 3 • aeval (h • A : Module.End K V) Q (A (A (f r.u))) := by
  obtain ⟨q, hq⟩ := grow_rkl2 (K := K) (s := s) (by omega)
  refine ⟨q, fun A g r => ?_⟩
  intro f h
  obtain ⟨h1, -⟩ := stages_affine (dt := dt) (s := s) true A g r s
  unfold superStep
  rw [h1]
  simp only [hq]
  show r.u + aeval (h • A : Module.End K V) (1 + C (1 / 2) * X + X ^ 2 * q) (h • f r.u) = _
  rw [mul_comm (X ^ 2) q]
  simp only [map_add, map_mul, map_one, map_pow, aeval_C, aeval_X, LinearMap.add_apply, Module.End.mul_apply, Module.End.one_apply,
    Module.algebraMap_end_apply, LinearMap.smul_apply, pow_two, map_smul]
  module

/-- **RKL1 is first-order accurate**, likewise. -/
theorem rkl1_first_order (hs : 1 ≤ s) : ∃ Q : K[X], ∀ (A : V →ₗ[K] V) (g : V) (r : Regs V),
    let f : V → V := fun y => A y + g
    (superStep false dt f s r).u = r.u + dt • f r.u + dt ^ 2 • aeval (dt • A : Module.End K V) Q (A (f r.u)) := by
  obtain ⟨q, hq⟩ := grow_rkl1 (K := K) (s := s) hs
  refine ⟨q, fun A g r => ?_⟩
  intro f
  obtain ⟨h1, -⟩ := stages_affine (dt := dt) (s := s) false A g r s
  unfold superStep
  rw [h1]
  simp only [hq]
  show r.u + aeval (dt • A : Module.End K V) (1 + X * q) (dt • f r.u) = _
  rw [mul_comm X q]
  simp only [map_add, map_mul, map_one, aeval_X, LinearMap.add_apply, Module.End.mul_apply, Module.End.one_apply,
    LinearMap.smul_apply, map_smul]
  module

/-- Factor of a mode. -/
theorem mode_factor (rkl2 : Bool) (j : Nat) {l : K} (h1 : -1 ≤ 1 + ww rkl2 s * (tau rkl2 dt * l)) (h2 : ww rkl2 s * (tau rkl2 dt * l) ≤ 0) :
    |1 + tau rkl2 dt * l * (grow rkl2 s j).eval (tau rkl2 dt * l)| ≤ 1 := by
  rw [grow_eval]
  have hP := abs_le.1 (legendre_bound j h1 (by linarith))
  have b0 := bb_pos (K := K) rkl2 j
  have b1 := bb_le (K := K) rkl2 j
  rw [abs_le]
  constructor <;> nlinarith

/-- The bound on the product of step and decay rate of the two methods: `s(s+1)` for RKL1, `(s-1)(s+2)/2` on half of
the step for RKL2. -/
def Bounded (rkl2 : Bool) (dt : K) (s : Nat) (l : K) : Prop :=
  l ≤ 0 ∧ if rkl2 then -l * dt ≤ (s : K) ^ 2 + s - 2 else -l * dt ≤ (s : K) ^ 2 + s

/-- **No mode grows**, in any stage. For a linear right-hand side and a state that is a sum of modes with decay rates
within the bound of the method, each mode is multiplied by a factor of magnitude at most one which depends only on its
rate. -/
theorem modes_decay (rkl2 : Bool) (hdt : 0 ≤ dt) (hs : if rkl2 then 2 ≤ s else 1 ≤ s) (A : V →ₗ[K] V) {ι : Type} (I : Finset ι) (c : ι → K) (e : ι → V)
    (l : ι → K) (he : ∀ i ∈ I, A (e i) = l i • e i) (hl : ∀ i ∈ I, Bounded rkl2 dt s (l i)) (r : Regs V)
    (hr : r.u = ∑ i ∈ I, c i • e i) (j : Nat) :
    ∃ rho : K → K, (stages rkl2 dt A s j r).u = ∑ i ∈ I, (rho (l i) * c i) • e i ∧ ∀ i ∈ I, |rho (l i)| ≤ 1 := by
  have hw : 0 < ww (K := K) rkl2 s := by
    unfold ww
    cases rkl2
    · have : (1 : K) ≤ s := by exact_mod_cast hs
      simp only [Bool.false_eq_true, if_false]; positivity
    · have : (2 : K) ≤ s := by exact_mod_cast hs
      simp only [if_true]
      exact div_pos (by norm_num) (by nlinarith)
  refine ⟨fun l => 1 + tau rkl2 dt * l * (grow rkl2 s j).eval (tau rkl2 dt * l), ?_, fun i hi => ?_⟩
  · obtain ⟨h1, -⟩ := stages_affine (dt := dt) (s := s) rkl2 A 0 r j
    simp only [add_zero] at h1
    have hA : (fun y => A y) = (A : V → V) := rfl
    rw [hA] at h1
    rw [h1, hr, map_sum, Finset.smul_sum, map_sum, ← Finset.sum_add_distrib]
    refine Finset.sum_congr rfl fun i hi => ?_
    have hB : (tau rkl2 dt • A : Module.End K V) (e i) = (tau rkl2 dt * l i) • e i := by
      rw [LinearMap.smul_apply, he i hi, mul_smul]
    have hpoly : ∀ p : K[X], aeval (tau rkl2 dt • A : Module.End K V) p (e i) = p.eval (tau rkl2 dt * l i) • e i := by
      intro p
      induction p using Polynomial.induction_on' with
      | add p q hp hq => simp only [map_add, LinearMap.add_apply, hp, hq, eval_add, add_smul]
      | monomial n a =>
        rw [aeval_monomial, Module.End.mul_apply, eval_monomial, Module.algebraMap_end_apply]
        have : ((tau rkl2 dt • A : Module.End K V) ^ n) (e i) = (tau rkl2 dt * l i) ^ n • e i := by
          induction n with
          | zero => simp
          | succ n ih => rw [pow_succ', Module.End.mul_apply, ih, map_smul, hB, smul_smul, pow_succ]
        rw [this, smul_smul]
    rw [map_smul, map_smul, he i hi, map_smul, map_smul, hpoly]
    module
  · obtain ⟨b1, b2⟩ := hl i hi
    apply mode_factor
    · cases rkl2
      · have hS : (1 : K) ≤ s := by exact_mod_cast hs
        simp only [ww, tau, Bool.false_eq_true, if_false] at b2 ⊢
        have hp : 0 < (s : K) ^ 2 + s := by nlinarith
        have : 2 / ((s : K) ^ 2 + s) * (-l i * dt) ≤ 2 := by
          rw [div_mul_eq_mul_div, div_le_iff₀ hp]; linarith
        linarith
      · have hS : (2 : K) ≤ s := by exact_mod_cast hs
        simp only [ww, tau, if_true] at b2 ⊢
        have hp : 0 < (s : K) ^ 2 + s - 2 := by nlinarith
        have : 4 / ((s : K) ^ 2 + s - 2) * (-l i * dt) ≤ 4 := by
          rw [div_mul_eq_mul_div, div_le_iff₀ hp]; linarith
        linarith
    · have ht : 0 ≤ tau rkl2 dt := by cases rkl2 <;> simp [tau] <;> linarith
      have := mul_nonneg hw.le (mul_nonneg ht (neg_nonneg.2 b1))
      linarith

/-- **Conservation.** Whatever the right-hand side conserves (a linear functional `F` that vanishes on it: the integral
of a variable over the mesh, the divergence of the field in a cell, a variable without diffusion) the super-time-step
keeps, for every right-hand side, linear or not, and every stage. -/
theorem sts_conserves (rkl2 : Bool) (f : V → V) (F : V →ₗ[K] K) (hF : ∀ y, F (f y) = 0) (r : Regs V) (j : Nat) :
    F (stages rkl2 dt f s j r).u = F r.u := by
  suffices h : F (stages rkl2 dt f s j r).u = F r.u ∧ (1 ≤ j → F (stages rkl2 dt f s j r).u1 = F r.u ∧
      (rkl2 = true → F (stages rkl2 dt f s j r).u0 = F r.u ∧ F (stages rkl2 dt f s j r).fl = 0)) from h.1
  induction j with
  | zero => exact ⟨rfl, by omega⟩
  | succ n ih =>
    obtain ⟨hu, hr⟩ := ih
    obtain ⟨a1, a2, a3, a4⟩ := stage_u (dt := dt) (s := s) rkl2 f (n + 1) (stages rkl2 dt f s n r)
    simp only [stages]
    rw [a1, a2, a3, a4]
    simp only [map_add, map_smul, hF, hu]
    cases n with
    | zero =>
      obtain ⟨c1, c2, c3, c4⟩ := coef_first (K := K) rkl2 s
      simp only [zero_add]
      rw [c1, c2]
      cases rkl2
      · simp
      · rw [c4 rfl]; simpa [hF] using hu
    | succ n =>
      obtain ⟨c1, c2, c3, c4, c5⟩ := coef_next (K := K) rkl2 s n
      obtain ⟨b1, b2⟩ := hr (by omega)
      have hne : n + 1 + 1 ≠ 1 := by omega
      simp only [hne, and_false, if_false]
      rw [b1]
      cases rkl2
      · refine ⟨?_, fun _ => ⟨trivial, fun h => by simp at h⟩⟩
        have h5 := c5 rfl
        simp only [smul_eq_mul, Bool.false_eq_true, if_false, zero_mul, add_zero, mul_zero]
        linear_combination F r.u * h5
      · rw [(b2 rfl).1, (b2 rfl).2]
        refine ⟨?_, fun _ => ⟨trivial, fun _ => ⟨rfl, rfl⟩⟩⟩
        simp only [smul_eq_mul, if_true]
        ring

/-- **A steady state is kept** exactly, in every stage. -/
theorem sts_steady (rkl2 : Bool) (f : V → V) (r : Regs V) (h0 : f r.u = 0) (j : Nat) : (stages rkl2 dt f s j r).u = r.u := by
  suffices h : (stages rkl2 dt f s j r).u = r.u ∧ (1 ≤ j → (stages rkl2 dt f s j r).u1 = r.u ∧
      (rkl2 = true → (stages rkl2 dt f s j r).u0 = r.u ∧ (stages rkl2 dt f s j r).fl = 0)) from h.1
  induction j with
  | zero => exact ⟨rfl, by omega⟩
  | succ n ih =>
    obtain ⟨hu, hr⟩ := ih
    obtain ⟨a1, a2, a3, a4⟩ := stage_u (dt := dt) (s := s) rkl2 f (n + 1) (stages rkl2 dt f s n r)
    simp only [stages]
    rw [a1, a2, a3, a4]
    simp only [hu, h0, smul_zero, add_zero]
    cases n with
    | zero =>
      obtain ⟨c1, c2, c3, c4⟩ := coef_first (K := K) rkl2 s
      simp only [zero_add]
      rw [c1, c2]
      cases rkl2
      · simp
      · rw [c4 rfl]; simp
    | succ n =>
      obtain ⟨c1, c2, c3, c4, c5⟩ := coef_next (K := K) rkl2 s n
      obtain ⟨b1, b2⟩ := hr (by omega)
      have hne : n + 1 + 1 ≠ 1 := by omega
      simp only [hne, and_false, if_false]
      rw [b1]
      cases rkl2
      · refine ⟨?_, fun _ => ⟨trivial, fun h => by simp at h⟩⟩
        have h5 := c5 rfl
        simp only [Bool.false_eq_true, if_false, zero_smul, add_zero]
        rw [← add_smul, show (coef false s (n + 1 + 1) : Coef K).mu + (coef false s (n + 1 + 1) : Coef K).nu = 1 from h5, one_smul]
      · rw [(b2 rfl).1, (b2 rfl).2]
        refine ⟨?_, fun _ => ⟨trivial, fun _ => ⟨rfl, rfl⟩⟩⟩
        simp only [if_true, smul_zero]
        module

end

/-- Two modes with rates -3 and -40 and a step of 1/2: five stages of RKL2 damp both (the explicit limit would be 1/20). -/
def exA : (ℚ × ℚ) →ₗ[ℚ] (ℚ × ℚ) := LinearMap.prodMap ((-3 : ℚ) • LinearMap.id) ((-40 : ℚ) • LinearMap.id)

example : ∃ rho : ℚ → ℚ, (stages true (1/2 : ℚ) exA 5 5 ⟨(1, 1), (7, 7), (7, 7), (7, 7), (7, 7)⟩).u
    = ∑ i ∈ ({0, 1} : Finset Nat), (rho (if i = 0 then -3 else -40) * 1) • (if i = 0 then ((1, 0) : ℚ × ℚ) else (0, 1)) ∧
      ∀ i ∈ ({0, 1} : Finset Nat), |rho (if i = 0 then -3 else -40)| ≤ 1 := by
  refine modes_decay (K := ℚ) true (by norm_num) (by norm_num) exA {0, 1} (fun _ => 1) (fun i => if i = 0 then (1, 0) else (0, 1))
    (fun i => if i = 0 then -3 else -40) ?_ ?_ _ ?_ 5
  · intro i hi
    by_cases h : i = 0 <;> simp [h, exA]
  · intro i hi
    by_cases h : i = 0 <;> simp [h, Bounded] <;> norm_num
  · simp

example : let y := (superStep true (1/2 : ℚ) exA 5 ⟨((1, 1) : ℚ × ℚ), (7, 7), (7, 7), (7, 7), (7, 7)⟩).u
    |y.1 - 1/2| < 1/10 ∧ |y.2| < 1 ∧ (superStep true (1/2 : ℚ) exA 3 ⟨((1, 1) : ℚ × ℚ), (7, 7), (7, 7), (7, 7), (7, 7)⟩).u.2 < -1 := by
  decide +kernel

/-- **The number of stages chosen is enough.** If the explicit step `dtp` is stable for every mode (decay rates at most
`2/dtp`), a super-time-step of any length `dt` with the number of stages chosen by the main loop makes no mode grow. -/
theorem sts_stable {V : Type} [AddCommGroup V] [Module ℝ V] (rkl2 : Bool) {dt dtp : ℝ} (hd : 0 < dt) (hp : 0 < dtp)
    (A : V →ₗ[ℝ] V) {ι : Type} (I : Finset ι) (c : ι → ℝ) (e : ι → V) (l : ι → ℝ) (he : ∀ i ∈ I, A (e i) = l i • e i)
    (hl : ∀ i ∈ I, l i ≤ 0 ∧ -l i * dtp ≤ 2) (r : Regs V) (hr : r.u = ∑ i ∈ I, c i • e i) :
    ∃ rho : ℝ → ℝ, (superStep rkl2 dt A (TimeStep.stsStages rkl2 dt dtp).toNat r).u = ∑ i ∈ I, (rho (l i) * c i) • e i ∧
      ∀ i ∈ I, |rho (l i)| ≤ 1 := by
  obtain ⟨-, h1, h2, h3⟩ := TimeStep.sts_stages (rkl2 := rkl2) hd hp
  set S := TimeStep.stsStages rkl2 dt dtp
  have hS : ((S.toNat : ℕ) : ℝ) = (S : ℝ) := by
    have : ((S.toNat : ℕ) : Int) = S := Int.toNat_of_nonneg (by omega)
    exact_mod_cast this
  refine modes_decay rkl2 hd.le ?_ A I c e l he (fun i hi => ⟨(hl i hi).1, ?_⟩) r hr _
  · cases rkl2
    · simp only [Bool.false_eq_true, if_false]; omega
    · have := (h2 rfl).2.1
      simp only [if_true]; omega
  · have hx := hl i hi
    have hx0 : 0 ≤ -l i := neg_nonneg.2 hx.1
    rw [hS]
    cases rkl2
    · simp only [Bool.false_eq_true, if_false]
      have := (h3 rfl).1
      have q : 0 ≤ (S : ℝ) ^ 2 + S := by
        have : (1 : ℝ) ≤ S := by exact_mod_cast h1
        nlinarith
      have h5 := mul_le_mul_of_nonneg_left this.le hx0
      nlinarith [mul_le_mul_of_nonneg_right hx.2 q]
    · simp only [if_true]
      have := (h2 rfl).1
      have q : 0 ≤ (S : ℝ) ^ 2 + S - 2 := by
        have : (3 : ℝ) ≤ S := by exact_mod_cast (h2 rfl).2.1
        nlinarith
      have h5 := mul_le_mul_of_nonneg_left this.le hx0
      nlinarith [mul_le_mul_of_nonneg_right hx.2 q]

end Verif.Sts
