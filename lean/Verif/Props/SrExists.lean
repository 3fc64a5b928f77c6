import Verif.Props.SrRiemann
import Mathlib.Topology.Order.IntermediateValue
import Mathlib.Analysis.Real.Sqrt

/-!
# Which conserved variables belong to a gas
-/
namespace Verif.Sr

theorem rt_cont {e m : ℝ} (he : 0 < e) : ContinuousOn (fun p => rt e m p) (Set.Ici 0) := by
  unfold rt
  apply ContinuousOn.sqrt
  apply ContinuousOn.sub continuousOn_const
  apply ContinuousOn.div continuousOn_const
  · exact ((continuous_const.add continuous_id).pow 2).continuousOn
  · intro p hp
    have : 0 ≤ p := hp
    positivity

/-- Conserved variables belong to a gas of positive density and pressure exactly if the density is positive and the energy
exceeds the norm of density and momentum. -/
theorem admissible_iff_gas (gamma : ℝ) (h1 : 1 < gamma) (h2 : gamma ≤ 2) (q : Cons) :
    Adm q ↔ ∃ w, Phys gamma w ∧ toCons gamma w = q := by
  constructor
  swap
  · rintro ⟨w, hw, rfl⟩
    have := side_adm gamma w hw
    have e : side gamma w = toCons gamma w := by
      apply cons_ext <;> simp only [side, toCons, u0, wgas] <;> ring
    rwa [e] at this
  rintro ⟨hd, he, hlt⟩
  have hg1 : 0 < gamma - 1 := by linarith
  have hgam : 0 < gamma := by linarith
  have hm0 : 0 ≤ msq q := by unfold msq; positivity
  have hm : q.d ^ 2 + msq q < q.e ^ 2 := by unfold msq; linarith
  -- a pressure that solves the equation
  have hcont : ContinuousOn (fun p => nx gamma q.d q.e (msq q) p - p) (Set.Icc 0 ((gamma - 1) * q.e)) := by
    have hr : ContinuousOn (fun p => rt q.e (msq q) p) (Set.Icc 0 ((gamma - 1) * q.e)) :=
      (rt_cont he).mono Set.Icc_subset_Ici_self
    unfold nx
    refine ContinuousOn.sub (ContinuousOn.mul continuousOn_const (ContinuousOn.sub (ContinuousOn.mul ?_ (hr.pow 2))
      (ContinuousOn.mul continuousOn_const hr))) continuousOn_id
    exact (continuous_const.add continuous_id).continuousOn
  have hk : 0 < (gamma - 1) / gamma := by positivity
  have h0 : 0 < nx gamma q.d q.e (msq q) 0 - 0 := by
    unfold nx
    rw [sub_zero, add_zero]
    apply mul_pos hk
    have hr2 : 0 < 1 - msq q / (q.e + 0) ^ 2 := by
      rw [add_zero, sub_pos, div_lt_one (by positivity)]; nlinarith
    have hr : rt q.e (msq q) 0 ^ 2 = 1 - msq q / q.e ^ 2 := by
      unfold rt; rw [Real.sq_sqrt hr2.le, add_zero]
    have hrp : 0 < rt q.e (msq q) 0 := Real.sqrt_pos.mpr hr2
    have hrd : q.d < q.e * rt q.e (msq q) 0 := by
      apply lt_of_pow_lt_pow_left₀ 2 (by positivity)
      rw [mul_pow, hr]
      have : q.e ^ 2 * (1 - msq q / q.e ^ 2) = q.e ^ 2 - msq q := by field_simp
      rw [this]; linarith
    have : q.e * rt q.e (msq q) 0 ^ 2 - q.d * rt q.e (msq q) 0
        = rt q.e (msq q) 0 * (q.e * rt q.e (msq q) 0 - q.d) := by ring
    rw [this]
    exact mul_pos hrp (by linarith)
  have hE : nx gamma q.d q.e (msq q) ((gamma - 1) * q.e) - (gamma - 1) * q.e ≤ 0 := by
    unfold nx
    have hrn : 0 ≤ rt q.e (msq q) ((gamma - 1) * q.e) := Real.sqrt_nonneg _
    have hr1 : rt q.e (msq q) ((gamma - 1) * q.e) ≤ 1 := by
      unfold rt
      rw [Real.sqrt_le_left (by norm_num), one_pow]
      have : 0 ≤ msq q / (q.e + (gamma - 1) * q.e) ^ 2 := by positivity
      linarith
    have e1 : q.e + (gamma - 1) * q.e = gamma * q.e := by ring
    rw [e1]
    have : gamma * q.e * rt q.e (msq q) ((gamma - 1) * q.e) ^ 2 - q.d * rt q.e (msq q) ((gamma - 1) * q.e)
        ≤ gamma * q.e := by
      have a1 : gamma * q.e * rt q.e (msq q) ((gamma - 1) * q.e) ^ 2 ≤ gamma * q.e * 1 :=
        mul_le_mul_of_nonneg_left (by nlinarith) (by positivity)
      have a2 : 0 ≤ q.d * rt q.e (msq q) ((gamma - 1) * q.e) := by positivity
      linarith
    have a3 := mul_le_mul_of_nonneg_left this hk.le
    have a4 : (gamma - 1) / gamma * (gamma * q.e) = (gamma - 1) * q.e := by field_simp
    linarith
  obtain ⟨p, ⟨p0, -⟩, hp⟩ := intermediate_value_Icc' (by positivity : (0 : ℝ) ≤ (gamma - 1) * q.e) hcont ⟨hE, h0.le⟩
  simp only at hp
  have hpp : 0 < p := by
    rcases eq_or_lt_of_le p0 with q' | q'
    · rw [← q'] at hp; linarith
    · exact q'
  have hfix : nx gamma q.d q.e (msq q) p = p := by linarith
  have hr2 : 0 < 1 - msq q / (q.e + p) ^ 2 := by
    rw [sub_pos, div_lt_one (by positivity)]; nlinarith
  have hrs : rt q.e (msq q) p ^ 2 = 1 - msq q / (q.e + p) ^ 2 := by unfold rt; rw [Real.sq_sqrt hr2.le]
  have hrp : 0 < rt q.e (msq q) p := Real.sqrt_pos.mpr hr2
  unfold nx at hfix
  set r := rt q.e (msq q) p
  have hep : 0 < q.e + p := by linarith
  refine ⟨⟨q.d * r, p, q.m1 / (q.e + p) / r, q.m2 / (q.e + p) / r, q.m3 / (q.e + p) / r⟩,
    ⟨h1, h2, mul_pos hd hrp, hpp⟩, ?_⟩
  have hlor : lorentz (q.m1 / (q.e + p) / r) (q.m2 / (q.e + p) / r) (q.m3 / (q.e + p) / r) = 1 / r := by
    unfold lorentz
    have : 1 + (q.m1 / (q.e + p) / r) ^ 2 + (q.m2 / (q.e + p) / r) ^ 2 + (q.m3 / (q.e + p) / r) ^ 2 = (1 / r) ^ 2 := by
      have : (q.m1 / (q.e + p) / r) ^ 2 + (q.m2 / (q.e + p) / r) ^ 2 + (q.m3 / (q.e + p) / r) ^ 2
          = msq q / (q.e + p) ^ 2 / r ^ 2 := by unfold msq; field_simp
      rw [add_assoc, add_assoc, ← add_assoc ((q.m1 / (q.e + p) / r) ^ 2), this,
        show msq q / (q.e + p) ^ 2 = 1 - r ^ 2 by linarith]
      field_simp
      ring
    rw [this]
    exact Real.sqrt_sq (by positivity)
  have hW : q.d * r + gamma / (gamma - 1) * p = (q.e + p) * r ^ 2 := by
    nth_rewrite 1 [← hfix]
    field_simp
    ring
  unfold toCons
  simp only [hlor, hW]
  apply cons_ext <;> simp only <;> field_simp
  ring

/-- Together: a first-order step with HLLE or LLF ends with the conserved variables of a gas with positive density and
pressure, and of one gas only. -/
theorem first_order_step_gas (gamma : ℝ) (w wl wr : Prim) (h : Phys gamma w) (hl : Phys gamma wl) (hr : Phys gamma wr)
    (r : ℝ) (r0 : 0 ≤ r) (r1 : r ≤ 1 / 2) :
    (∃! w', Phys gamma w' ∧ toCons gamma w' = toCons gamma w - r • (hlle gamma w wr - hlle gamma wl w)) ∧
    (∃! w', Phys gamma w' ∧ toCons gamma w' = toCons gamma w - r • (llf gamma w wr - llf gamma wl w)) := by
  have e : side gamma w = toCons gamma w := by
    apply cons_ext <;> simp only [side, toCons, u0, wgas] <;> ring
  have key : ∀ q, Adm q → ∃! w', Phys gamma w' ∧ toCons gamma w' = q := by
    intro q hq
    obtain ⟨w', a1, a2⟩ := (admissible_iff_gas gamma h.gt h.le q).mp hq
    exact ⟨w', ⟨a1, a2⟩, fun y hy => conserved_determine_primitives gamma y w' hy.1 a1 (hy.2.trans a2.symm)⟩
  rw [← e]
  exact ⟨key _ (step_adm gamma _ (hlle_monotone gamma) w wl wr h hl hr r r0 r1),
    key _ (step_adm gamma _ (llf_monotone gamma) w wl wr h hl hr r r0 r1)⟩

/-- A strong blast: pressures differing by a factor 10⁵, gases approaching each other. -/
example : Phys (5/3) ⟨1, 1000, 3/4, 0, 0⟩ ∧ Phys (5/3) ⟨1, 1/100, -3/4, 0, 0⟩ := by
  constructor <;> constructor <;> norm_num

end Verif.Sr
