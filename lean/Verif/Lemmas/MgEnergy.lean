import Verif.Lemmas.MgPhys
import Mathlib.Algebra.BigOperators.Ring.Finset
import Mathlib.Tactic.Positivity
import Mathlib.Tactic.LinearCombination

/-!
# The discrete energy and totals: supporting lemmas
-/
namespace Verif.Mg
open Verif.Grid (A3 rng2 loop_eq)
open scoped Classical

/-- Changing one entry of a sequence changes two squared differences. -/
theorem line_change (f g : ℤ → ℝ) (l u x : ℤ) (hx : l ≤ x ∧ x ≤ u) (h : ∀ y, y ≠ x → g y = f y) :
    ∑ y ∈ Finset.Icc (l - 1) u, (g (y+1) - g y) ^ 2 - ∑ y ∈ Finset.Icc (l - 1) u, (f (y+1) - f y) ^ 2
      = (g x - f x) * (2 * (g x + f x) - 2 * f (x-1) - 2 * f (x+1)) := by
  rw [← Finset.sum_sub_distrib]
  have hm1 : x ∈ Finset.Icc (l - 1) u := by simp only [Finset.mem_Icc]; omega
  have hm2 : x - 1 ∈ (Finset.Icc (l - 1) u).erase x := by simp only [Finset.mem_erase, Finset.mem_Icc]; omega
  rw [← Finset.add_sum_erase _ _ hm1, ← Finset.add_sum_erase _ _ hm2, Finset.sum_eq_zero]
  · rw [h (x+1) (by omega), h (x-1) (by omega), show x - 1 + 1 = x by ring]; ring
  · intro y hy
    simp only [Finset.mem_erase, Finset.mem_Icc] at hy
    rw [h y (by omega), h (y+1) (by omega)]; ring

theorem sum_single_diff {s : Finset ℤ} (F G : ℤ → ℝ) (x : ℤ) (hx : x ∈ s) (h : ∀ y, y ≠ x → G y = F y) :
    ∑ y ∈ s, G y - ∑ y ∈ s, F y = G x - F x := by
  rw [← Finset.sum_sub_distrib, Finset.sum_eq_single x]
  · intro y _ hy; rw [h y hy]; ring
  · intro hn; exact absurd hx hn

theorem energy_update (h : ℝ) (b : Box) (src u : A3 ℝ) (k j i : ℤ) (hin : b.In k j i) (v : ℝ) :
    energy h b src (Function.update u (k, j, i) v) - energy h b src u
      = (v - u (k, j, i)) * (3 * (v + u (k, j, i)) - nbrSum u k j i + h ^ 2 * src (k, j, i)) := by
  obtain ⟨hk, hj, hi⟩ := hin
  set w := Function.update u (k, j, i) v with hw
  have hself : w (k, j, i) = v := by simp [hw]
  have hne : ∀ k' j' i', (k', j', i') ≠ (k, j, i) → w (k', j', i') = u (k', j', i') := by
    intro k' j' i' hn; rw [hw, Function.update_of_ne hn]
  have t1 : (∑ k ∈ Finset.Icc b.kl b.ku, ∑ j ∈ Finset.Icc b.jl b.ju, ∑ i ∈ Finset.Icc (b.il - 1) b.iu, (w (k, j, i+1) - w (k, j, i)) ^ 2)
      - (∑ k ∈ Finset.Icc b.kl b.ku, ∑ j ∈ Finset.Icc b.jl b.ju, ∑ i ∈ Finset.Icc (b.il - 1) b.iu, (u (k, j, i+1) - u (k, j, i)) ^ 2)
      = (v - u (k, j, i)) * (2 * (v + u (k, j, i)) - 2 * u (k, j, i-1) - 2 * u (k, j, i+1)) := by
    rw [sum_single_diff _ _ k (Finset.mem_Icc.mpr hk), sum_single_diff _ _ j (Finset.mem_Icc.mpr hj),
      line_change (fun i => u (k, j, i)) (fun i => w (k, j, i)) b.il b.iu i hi]
    · simp only [hself]
    · intro y hy; exact hne _ _ _ (by simp [hy])
    · intro y hy
      refine Finset.sum_congr rfl fun i' _ => ?_
      rw [hne _ _ _ (by simp [hy]), hne _ _ _ (by simp [hy])]
    · intro y hy
      refine Finset.sum_congr rfl fun j' _ => Finset.sum_congr rfl fun i' _ => ?_
      rw [hne _ _ _ (by simp [hy]), hne _ _ _ (by simp [hy])]
  have t2 : (∑ k ∈ Finset.Icc b.kl b.ku, ∑ i ∈ Finset.Icc b.il b.iu, ∑ j ∈ Finset.Icc (b.jl - 1) b.ju, (w (k, j+1, i) - w (k, j, i)) ^ 2)
      - (∑ k ∈ Finset.Icc b.kl b.ku, ∑ i ∈ Finset.Icc b.il b.iu, ∑ j ∈ Finset.Icc (b.jl - 1) b.ju, (u (k, j+1, i) - u (k, j, i)) ^ 2)
      = (v - u (k, j, i)) * (2 * (v + u (k, j, i)) - 2 * u (k, j-1, i) - 2 * u (k, j+1, i)) := by
    rw [sum_single_diff _ _ k (Finset.mem_Icc.mpr hk), sum_single_diff _ _ i (Finset.mem_Icc.mpr hi),
      line_change (fun j => u (k, j, i)) (fun j => w (k, j, i)) b.jl b.ju j hj]
    · simp only [hself]
    · intro y hy; exact hne _ _ _ (by simp [hy])
    · intro y hy
      refine Finset.sum_congr rfl fun i' _ => ?_
      rw [hne _ _ _ (by simp [hy]), hne _ _ _ (by simp [hy])]
    · intro y hy
      refine Finset.sum_congr rfl fun j' _ => Finset.sum_congr rfl fun i' _ => ?_
      rw [hne _ _ _ (by simp [hy]), hne _ _ _ (by simp [hy])]
  have t3 : (∑ j ∈ Finset.Icc b.jl b.ju, ∑ i ∈ Finset.Icc b.il b.iu, ∑ k ∈ Finset.Icc (b.kl - 1) b.ku, (w (k+1, j, i) - w (k, j, i)) ^ 2)
      - (∑ j ∈ Finset.Icc b.jl b.ju, ∑ i ∈ Finset.Icc b.il b.iu, ∑ k ∈ Finset.Icc (b.kl - 1) b.ku, (u (k+1, j, i) - u (k, j, i)) ^ 2)
      = (v - u (k, j, i)) * (2 * (v + u (k, j, i)) - 2 * u (k-1, j, i) - 2 * u (k+1, j, i)) := by
    rw [sum_single_diff _ _ j (Finset.mem_Icc.mpr hj), sum_single_diff _ _ i (Finset.mem_Icc.mpr hi),
      line_change (fun k => u (k, j, i)) (fun k => w (k, j, i)) b.kl b.ku k hk]
    · simp only [hself]
    · intro y hy; exact hne _ _ _ (by simp [hy])
    · intro y hy
      refine Finset.sum_congr rfl fun i' _ => ?_
      rw [hne _ _ _ (by simp [hy]), hne _ _ _ (by simp [hy])]
    · intro y hy
      refine Finset.sum_congr rfl fun j' _ => Finset.sum_congr rfl fun i' _ => ?_
      rw [hne _ _ _ (by simp [hy]), hne _ _ _ (by simp [hy])]
  have t4 : b.total (fun q => src q * w q) - b.total (fun q => src q * u q) = src (k, j, i) * (v - u (k, j, i)) := by
    unfold Box.total
    have hmem : (k, j, i) ∈ b.cells := (mem_cells b (k, j, i)).mpr ⟨hk, hj, hi⟩
    rw [← Finset.sum_sub_distrib, Finset.sum_eq_single (k, j, i)]
    · rw [hself]; ring
    · intro q _ hq
      rw [hw, Function.update_of_ne hq]; ring
    · intro hn; exact absurd hmem hn
  unfold energy Box.dirichlet
  rw [nbrSum_eq]
  linear_combination (1/2) * t1 + (1/2) * t2 + (1/2) * t3 + h ^ 2 * t4

theorem energy_relax (omega h : ℝ) (b : Box) (src u : A3 ℝ) (k j i : ℤ) (hin : b.In k j i) :
    energy h b src (Function.update u (k, j, i) (relaxed omega h u src k j i))
      = energy h b src u - 3 * omega * (2 - omega) * (gaussSeidel h u src k j i - u (k, j, i)) ^ 2 := by
  have := energy_update h b src u k j i hin (relaxed omega h u src k j i)
  have e : nbrSum u k j i = 6 * gaussSeidel h u src k j i + h ^ 2 * src (k, j, i) := by
    unfold gaussSeidel; ring
  rw [e] at this
  unfold relaxed at this ⊢
  linear_combination this

theorem energy_fold (omega h : ℝ) (b : Box) (src : A3 ℝ) (ho : 0 < omega ∧ omega < 2) (l : List (ℤ × ℤ × ℤ))
    (hl : ∀ q ∈ l, b.In q.1 q.2.1 q.2.2) : ∀ u,
    let r := l.foldl (fun st q => Function.update st q (relaxed omega h st src q.1 q.2.1 q.2.2)) u
    energy h b src r ≤ energy h b src u ∧ (energy h b src r = energy h b src u → r = u) := by
  induction l with
  | nil => intro u; exact ⟨le_rfl, fun _ => rfl⟩
  | cons q t ih =>
    intro u
    obtain ⟨k, j, i⟩ := q
    have hin := hl (k, j, i) (by simp)
    have h1 := energy_relax omega h b src u k j i hin
    set u1 := Function.update u (k, j, i) (relaxed omega h u src k j i) with hu1
    obtain ⟨i1, i2⟩ := ih (fun q hq => hl q (by simp [hq])) u1
    have hp : 0 < 3 * omega * (2 - omega) := by
      have := ho.1; have : 0 < 2 - omega := by linarith [ho.2]
      positivity
    have hd : 0 ≤ 3 * omega * (2 - omega) * (gaussSeidel h u src k j i - u (k, j, i)) ^ 2 := by positivity
    refine ⟨?_, ?_⟩
    · show energy h b src (t.foldl _ u1) ≤ _
      linarith
    · intro he
      have he' : energy h b src (t.foldl (fun st q => Function.update st q (relaxed omega h st src q.1 q.2.1 q.2.2)) u1)
          = energy h b src u := he
      have hz : 3 * omega * (2 - omega) * (gaussSeidel h u src k j i - u (k, j, i)) ^ 2 = 0 := by linarith
      have hd0 : gaussSeidel h u src k j i - u (k, j, i) = 0 := by
        rcases mul_eq_zero.mp hz with h | h
        · linarith
        · exact pow_eq_zero_iff (n := 2) (by norm_num) |>.mp h
      have hu : u1 = u := by
        rw [hu1]
        unfold relaxed
        rw [hd0, mul_zero, add_zero, Function.update_eq_self]
      have := i2 (by rw [he', hu])
      show t.foldl _ u1 = u
      rw [this, hu]

theorem smooth_fold (omega rdx : ℝ) (rlev : ℤ) (coffset : ℕ) (b : Box) (color : ℕ) (src u : A3 ℝ) :
    smooth omega rdx rlev coffset b color src u =
      (smoothPts b (color ^^^ coffset : ℕ)).foldl (fun st q => Function.update st q
        (relaxed omega (dxAt rdx rlev) st src q.1 q.2.1 q.2.2)) u := by
  unfold smooth smoothPts
  simp only [loop_eq]
  rw [← foldl_flatMap']
  congr 1; funext st k
  rw [← foldl_flatMap']
  congr 1; funext st j
  rw [List.foldl_map]
  congr 1; funext st i
  congr 1
  simp only [relaxed, gaussSeidel, lap6_eq]; ring

theorem smooth_energy_le (omega rdx : ℝ) (rlev : ℤ) (coffset : ℕ) (b : Box) (color : ℕ) (src u : A3 ℝ)
    (ho : 0 < omega ∧ omega < 2) :
    energy (dxAt rdx rlev) b src (smooth omega rdx rlev coffset b color src u) ≤ energy (dxAt rdx rlev) b src u ∧
    (smooth omega rdx rlev coffset b color src u ≠ u →
      energy (dxAt rdx rlev) b src (smooth omega rdx rlev coffset b color src u) < energy (dxAt rdx rlev) b src u) := by
  rw [smooth_fold]
  have := energy_fold omega (dxAt rdx rlev) b src ho (smoothPts b (color ^^^ coffset : ℕ))
    (fun q hq => ((mem_smoothPts b _ q.1 q.2.1 q.2.2).mp hq).1) u
  exact ⟨this.1, fun hn => lt_of_le_of_ne this.1 fun he => hn (this.2 he)⟩

/-- Second differences telescope. -/
theorem line_second (f : ℤ → ℝ) (l : ℤ) (n : ℕ) :
    ∑ y ∈ Finset.Icc l (l + n - 1), (f (y+1) + f (y-1) - 2 * f y) = (f (l + n) - f (l + n - 1)) - (f l - f (l-1)) := by
  induction n with
  | zero => simp
  | succ n ih =>
    have e2 : Finset.Icc l (l + ((n + 1 : ℕ) : ℤ) - 1) = insert (l + n) (Finset.Icc l (l + (n : ℤ) - 1)) := by
      ext x; simp only [Finset.mem_insert, Finset.mem_Icc]; push_cast; omega
    rw [e2, Finset.sum_insert (by simp only [Finset.mem_Icc]; omega), ih]
    push_cast
    rw [show l + ((n : ℤ) + 1) = l + n + 1 by ring, show l + (n : ℤ) + 1 - 1 = l + n by ring]
    ring

theorem line_second' (f : ℤ → ℝ) (l u : ℤ) (h : l ≤ u) :
    ∑ y ∈ Finset.Icc l u, (f (y+1) + f (y-1) - 2 * f y) = (f (u+1) - f u) - (f l - f (l-1)) := by
  obtain ⟨n, hn⟩ := Int.eq_ofNat_of_zero_le (show 0 ≤ u - l + 1 by omega)
  have hu : u = l + n - 1 := by omega
  have := line_second f l n
  rw [hu, this]; congr 2; congr 1; ring

/-- The sum over the box of the Laplacian is the flux through its surface. -/
theorem total_laplacian (b : Box) (hb : b.Nonempty) (u : A3 ℝ) :
    b.total (fun q => nbrSum u q.1 q.2.1 q.2.2 - 6 * u q) =
      (∑ k ∈ Finset.Icc b.kl b.ku, ∑ j ∈ Finset.Icc b.jl b.ju,
        ((u (k, j, b.iu+1) - u (k, j, b.iu)) - (u (k, j, b.il) - u (k, j, b.il-1))))
      + (∑ k ∈ Finset.Icc b.kl b.ku, ∑ i ∈ Finset.Icc b.il b.iu,
        ((u (k, b.ju+1, i) - u (k, b.ju, i)) - (u (k, b.jl, i) - u (k, b.jl-1, i))))
      + (∑ j ∈ Finset.Icc b.jl b.ju, ∑ i ∈ Finset.Icc b.il b.iu,
        ((u (b.ku+1, j, i) - u (b.ku, j, i)) - (u (b.kl, j, i) - u (b.kl-1, j, i)))) := by
  obtain ⟨h1, h2, h3⟩ := hb
  have e : b.total (fun q => nbrSum u q.1 q.2.1 q.2.2 - 6 * u q)
      = (∑ k ∈ Finset.Icc b.kl b.ku, ∑ j ∈ Finset.Icc b.jl b.ju, ∑ i ∈ Finset.Icc b.il b.iu, (u (k, j, i+1) + u (k, j, i-1) - 2 * u (k, j, i)))
      + (∑ k ∈ Finset.Icc b.kl b.ku, ∑ j ∈ Finset.Icc b.jl b.ju, ∑ i ∈ Finset.Icc b.il b.iu, (u (k, j+1, i) + u (k, j-1, i) - 2 * u (k, j, i)))
      + (∑ k ∈ Finset.Icc b.kl b.ku, ∑ j ∈ Finset.Icc b.jl b.ju, ∑ i ∈ Finset.Icc b.il b.iu, (u (k+1, j, i) + u (k-1, j, i) - 2 * u (k, j, i))) := by
    unfold Box.total Box.cells
    simp only [Finset.sum_product, ← Finset.sum_add_distrib]
    refine Finset.sum_congr rfl fun k _ => Finset.sum_congr rfl fun j _ => Finset.sum_congr rfl fun i _ => ?_
    rw [nbrSum_eq]; ring
  rw [e]
  congr 1
  · congr 1
    · refine Finset.sum_congr rfl fun k _ => Finset.sum_congr rfl fun j _ => ?_
      exact line_second' (fun i => u (k, j, i)) b.il b.iu h3
    · refine Finset.sum_congr rfl fun k _ => ?_
      rw [Finset.sum_comm]
      refine Finset.sum_congr rfl fun i _ => ?_
      exact line_second' (fun j => u (k, j, i)) b.jl b.ju h2
  · rw [Finset.sum_comm]
    refine Finset.sum_congr rfl fun j _ => ?_
    rw [Finset.sum_comm]
    refine Finset.sum_congr rfl fun i _ => ?_
    exact line_second' (fun k => u (k, j, i)) b.kl b.ku h1

end Verif.Mg
