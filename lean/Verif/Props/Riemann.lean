import Verif.Lemmas.Riemann

/-!
# C46: HLLE, LLF, HLLC and LHLLC
-/
namespace Verif.Riemann
open Verif.TimeStep

/-! ## HLLE -/

/-- The speeds of the HLLE solver enclose the face: `bm ≤ 0 ≤ bp` and `bm < bp`. The divisor is positive and the branch
`bp == bm` is never taken for admissible states. -/
theorem hlle_formula (g : Gas) (wl wr : W) (hl : Ok g wl) (hr : Ok g wr) :
    ∃ bm bp : ℝ, bm = min 0 (min (roeMean wl wr wl.vx wr.vx - hlleA g wl wr) (wl.vx - g.sound wl)) ∧
      bp = max 0 (max (roeMean wl wr wl.vx wr.vx + hlleA g wl wr) (wr.vx + g.sound wr)) ∧ bm < bp ∧
      hlle g wl wr = (1 / (bp - bm)) • (bp • flux g wl - bm • flux g wr + (bp * bm) • (cons g wr - cons g wl)) := by
  have ha := hlleA_pos g wl wr hl hr
  refine ⟨_, _, rfl, rfl, ?_, ?_⟩
  · set v := roeMean wl wr wl.vx wr.vx
    set a := hlleA g wl wr
    have h1 : min 0 (min (v - a) (wl.vx - g.sound wl)) ≤ min 0 (v - a) :=
      le_min (min_le_left _ _) ((min_le_right _ _).trans (min_le_left _ _))
    have h2 : max 0 (v + a) ≤ max 0 (max (v + a) (wr.vx + g.sound wr)) :=
      max_le (le_max_left _ _) ((le_max_left _ _).trans (le_max_right _ _))
    refine h1.trans_lt (lt_of_lt_of_le ?_ h2)
    rcases le_or_gt 0 v with hv | hv
    · exact (min_le_left _ _).trans_lt (lt_of_lt_of_le (by linarith) (le_max_right _ _))
    · exact (min_le_right _ _).trans_lt (lt_of_lt_of_le (by linarith) (le_max_left _ _))
  · set v := roeMean wl wr wl.vx wr.vx with hv
    set a := hlleA g wl wr with hadef
    set bm := min 0 (min (v - a) (wl.vx - g.sound wl)) with hbm
    set bp := max 0 (max (v + a) (wr.vx + g.sound wr)) with hbp
    have hlt : bm ≠ bp := by
      have h1 : bm ≤ min 0 (v - a) := le_min (min_le_left _ _) ((min_le_right _ _).trans (min_le_left _ _))
      have h2 : max 0 (v + a) ≤ bp := max_le (le_max_left _ _) ((le_max_left _ _).trans (le_max_right _ _))
      refine (h1.trans_lt (lt_of_lt_of_le ?_ h2)).ne
      rcases le_or_gt 0 v with hv | hv
      · exact (min_le_left _ _).trans_lt (lt_of_lt_of_le (by linarith) (le_max_right _ _))
      · exact (min_le_right _ _).trans_lt (lt_of_lt_of_le (by linarith) (le_max_left _ _))
    have e1 : (if 0 < max (v + a) (wr.vx + g.sound wr) then max (v + a) (wr.vx + g.sound wr) else 0) = bp :=
      ite_pos_eq _
    have e2 : (if min (v - a) (wl.vx - g.sound wl) < 0 then min (v - a) (wl.vx - g.sound wl) else 0) = bm :=
      ite_neg_eq _
    have hne : bp - bm ≠ 0 := sub_ne_zero.2 hlt.symm
    unfold hlle
    simp only [← hv, ← hadef, e1, e2, if_pos hlt.symm, lineFlux_eq g wl bm hl, lineFlux_eq g wr bp hr]
    have key : ∀ x y z w : ℝ, 1/2 * ((x - bm * z) + (y - bp * w)) +
        ((x - bm * z) - (y - bp * w)) * (1/2 * (bp + bm) / (bp - bm))
        = 1 / (bp - bm) * (bp * x - bm * y + bp * bm * (w - z)) := by
      intro x y z w
      rw [hll_comb hlt.symm]; ring
    have hen : g.ifEnergy (1 / 2 * ((flux g wl - bm • cons g wl).e + (flux g wr - bp • cons g wr).e) +
        ((flux g wl - bm • cons g wl).e - (flux g wr - bp • cons g wr).e) * (1 / 2 * (bp + bm) / (bp - bm))) =
        1 / 2 * ((flux g wl - bm • cons g wl).e + (flux g wr - bp • cons g wr).e) +
        ((flux g wl - bm • cons g wl).e - (flux g wr - bp • cons g wr).e) * (1 / 2 * (bp + bm) / (bp - bm)) := by
      cases g <;> simp [Gas.ifEnergy, flux, cons]
    rw [hen]
    ext <;> simp only [add_d, add_mx, add_my, add_mz, add_e, sub_d, sub_mx, sub_my, sub_mz, sub_e, smul_d, smul_mx,
      smul_my, smul_mz, smul_e] <;> exact key _ _ _ _

/-- HLLE is consistent. -/
theorem hlle_consistent (g : Gas) : Consistent g (hlle g) := by
  refine consistent_of fun w hw => ?_
  obtain ⟨bm, bp, _, _, hlt, h⟩ := hlle_formula g w w hw hw
  have hne : bp - bm ≠ 0 := by linarith
  rw [h]
  ext <;> simp <;> field_simp

/-- If all the signal speeds of HLLE point to the right, the flux is that of the left state. -/
theorem hlle_upwind_left (g : Gas) (wl wr : W) (hl : Ok g wl) (hr : Ok g wr) (h1 : g.sound wl ≤ wl.vx)
    (h2 : hlleA g wl wr ≤ roeMean wl wr wl.vx wr.vx) : hlle g wl wr = flux g wl := by
  obtain ⟨bm, bp, hm, _, hlt, h⟩ := hlle_formula g wl wr hl hr
  have : bm = 0 := by
    rw [hm, min_eq_left]; exact le_min (by linarith) (by linarith)
  subst this
  have hne : bp ≠ 0 := hlt.ne'
  rw [h]
  ext <;> simp <;> field_simp

/-- If all point to the left, it is that of the right state. -/
theorem hlle_upwind_right (g : Gas) (wl wr : W) (hl : Ok g wl) (hr : Ok g wr) (h1 : wr.vx ≤ -g.sound wr)
    (h2 : roeMean wl wr wl.vx wr.vx ≤ -hlleA g wl wr) : hlle g wl wr = flux g wr := by
  obtain ⟨bm, bp, _, hp, hlt, h⟩ := hlle_formula g wl wr hl hr
  have : bp = 0 := by
    rw [hp, max_eq_left]; exact max_le (by linarith) (by linarith)
  subst this
  have hne : bm ≠ 0 := hlt.ne
  rw [h]
  ext <;> simp <;> field_simp

/-! ## LLF -/

/-- LLF is the central flux less the jump times half the greater signal speed. -/
theorem llf_formula (g : Gas) (wl wr : W) (hl : Ok g wl) (hr : Ok g wr) :
    llf g wl wr = (1/2 : ℝ) • (flux g wl + flux g wr)
      - (max (|wl.vx| + g.sound wl) (|wr.vx| + g.sound wr) / 2) • (cons g wr - cons g wl) := by
  unfold llf
  simp only [sideFlux_eq g wl hl, sideFlux_eq g wr hr, jump_eq]
  cases g <;> ext <;> simp only [Gas.ifEnergy, flux, cons, add_d, add_mx, add_my, add_mz, add_e, sub_d, sub_mx, sub_my,
    sub_mz, sub_e, smul_d, smul_mx, smul_my, smul_mz, smul_e] <;> ring

/-- LLF is consistent. -/
theorem llf_consistent (g : Gas) : Consistent g (llf g) := by
  refine consistent_of fun w hw => ?_
  rw [llf_formula g w w hw hw]
  ext <;> simp <;> ring

/-- With LLF fluxes at both faces the density of a cell stays positive in a first-order step with
`dt/dx * (|v| + c) ≤ 1` in the cell and its neighbours. -/
theorem llf_density_pos (g : Gas) (wl w wr : W) (hl : Ok g wl) (hw : Ok g w) (hr : Ok g wr) (lam : ℝ)
    (h0 : 0 < lam) (h1 : lam * (|wl.vx| + g.sound wl) ≤ 1) (h2 : lam * (|w.vx| + g.sound w) ≤ 1)
    (h3 : lam * (|wr.vx| + g.sound wr) ≤ 1) : 0 < w.d - lam * ((llf g w wr).d - (llf g wl w).d) := by
  rw [llf_formula g w wr hw hr, llf_formula g wl w hl hw]
  have cd : ∀ u, (cons g u).d = u.d := fun u => by cases g <;> rfl
  have fd : ∀ u, (flux g u).d = u.d * u.vx := fun u => by cases g <;> rfl
  simp only [sub_d, add_d, smul_d, cd, fd]
  set A := max (|w.vx| + g.sound w) (|wr.vx| + g.sound wr) with hA
  set B := max (|wl.vx| + g.sound wl) (|w.vx| + g.sound w) with hB
  have cl := hl.sound_pos; have cr := hr.sound_pos
  have dl := hl.d_pos; have dw := hw.d_pos; have dr := hr.d_pos
  have a1 : |wr.vx| + g.sound wr ≤ A := le_max_right _ _
  have b1 : |wl.vx| + g.sound wl ≤ B := le_max_left _ _
  have a2 : lam * A ≤ 1 := by
    rcases max_choice (|w.vx| + g.sound w) (|wr.vx| + g.sound wr) with h | h <;> rw [hA, h] <;> assumption
  have b2 : lam * B ≤ 1 := by
    rcases max_choice (|wl.vx| + g.sound wl) (|w.vx| + g.sound w) with h | h <;> rw [hB, h] <;> assumption
  have a3 : 0 < A - wr.vx := by linarith [le_abs_self wr.vx]
  have b3 : 0 < B + wl.vx := by linarith [neg_abs_le wl.vx]
  have e : w.d - lam * (1 / 2 * (w.d * w.vx + wr.d * wr.vx) - A / 2 * (wr.d - w.d) -
      (1 / 2 * (wl.d * wl.vx + w.d * w.vx) - B / 2 * (w.d - wl.d)))
      = w.d * (1 - (lam * A + lam * B) / 2) + lam / 2 * (wr.d * (A - wr.vx)) + lam / 2 * (wl.d * (B + wl.vx)) := by
    ring
  rw [e]
  have t1 : 0 ≤ w.d * (1 - (lam * A + lam * B) / 2) := mul_nonneg dw.le (by linarith)
  have t2 : 0 < lam / 2 * (wr.d * (A - wr.vx)) := by positivity
  have t3 : 0 < lam / 2 * (wl.d * (B + wl.vx)) := by positivity
  linarith

/-! ## The hypotheses are met -/

/-- A supersonic isothermal stream with a jump of the density, of the transverse velocity and of the velocity: every
signal runs to the right. -/
example : hlle (.isothermal 1) ⟨1, 2, 0, 5, 0⟩ ⟨4, 3, 1, 0, 0⟩ = flux (.isothermal 1) ⟨1, 2, 0, 5, 0⟩ := by
  apply hlle_upwind_left
  · exact ⟨by norm_num, by norm_num⟩
  · exact ⟨by norm_num, by norm_num⟩
  · norm_num [Gas.sound]
  · simp only [hlleA, roeMean]
    have h1 : (1 : ℝ) ≤ Real.sqrt 4 := by
      rw [Real.le_sqrt (by norm_num) (by norm_num)]; norm_num
    rw [Real.sqrt_one, mul_one_div, le_div_iff₀ (by linarith)]
    linarith

/-- The same stream seen from the other side. -/
example : hlle (.isothermal 1) ⟨4, -3, 1, 0, 0⟩ ⟨1, -2, 0, 5, 0⟩ = flux (.isothermal 1) ⟨1, -2, 0, 5, 0⟩ := by
  apply hlle_upwind_right
  · exact ⟨by norm_num, by norm_num⟩
  · exact ⟨by norm_num, by norm_num⟩
  · norm_num [Gas.sound]
  · simp only [hlleA, roeMean]
    have h1 : (1 : ℝ) ≤ Real.sqrt 4 := by
      rw [Real.le_sqrt (by norm_num) (by norm_num)]; norm_num
    rw [Real.sqrt_one, mul_one_div, div_le_iff₀ (by linarith)]
    linarith

/-- A cell between two others in an isothermal flow. -/
example : 0 < (2 : ℝ) - 1/5 * ((llf (.isothermal 1) ⟨2, 1, 0, 0, 0⟩ ⟨1, 3, 0, 0, 0⟩).d
    - (llf (.isothermal 1) ⟨5, -4, 0, 0, 0⟩ ⟨2, 1, 0, 0, 0⟩).d) :=
  llf_density_pos (.isothermal 1) ⟨5, -4, 0, 0, 0⟩ ⟨2, 1, 0, 0, 0⟩ ⟨1, 3, 0, 0, 0⟩ ⟨by norm_num, by norm_num⟩
    ⟨by norm_num, by norm_num⟩ ⟨by norm_num, by norm_num⟩ (1/5) (by norm_num)
    (by norm_num [Gas.sound, abs_of_neg]) (by norm_num [Gas.sound]) (by norm_num [Gas.sound])

/-- Equal states: the array form in the second direction. -/
example (old : Nat → ℝ) : face (.adiabatic 2) (hlle (.adiabatic 2)) 2 (fun n => n + 1) (fun n => n + 1) old 2 = 14 := by
  rw [hlle_consistent (.adiabatic 2) (fun n => n + 1) old 2 (by norm_num)
    ⟨by norm_num [load], by norm_num [load], by norm_num⟩ 2]
  norm_num [Gas.nhydro, axisFlux]

end Verif.Riemann
