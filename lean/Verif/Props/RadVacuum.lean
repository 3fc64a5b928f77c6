import Verif.Model.RadVacuum
import Verif.Props.RadReflect
import Mathlib.Tactic

/-!
C105: vacuum and outflow boundaries of radiation.
-/

namespace Verif.RadVacuum

open scoped BigOperators
open Verif.RadReflect (digits)

/-- A loop over `k` bodies, each of which sets entries of its own to values read from the rest. -/
theorem fold_pointwise {S : Type} {x : S} {k : ℕ} (body : ℕ → (S → ℝ) → S → ℝ) (P : (S → ℝ) → Prop)
    (hP : ∀ j, j < k → ∀ v, P v → P (body j v)) (y : ℝ) (j0 : ℕ) (h0 : j0 < k)
    (hset : ∀ v, P v → body j0 v x = y)
    (hkeep : ∀ j, j < k → j ≠ j0 → ∀ v, body j v x = v x) (v : S → ℝ) (hv : P v) :
    ((List.range k).foldl (fun v j => body j v) v) x = y ∧
      P ((List.range k).foldl (fun v j => body j v) v) := by
  have key : ∀ m, m ≤ k → P ((List.range m).foldl (fun v j => body j v) v) ∧
      (j0 < m → ((List.range m).foldl (fun v j => body j v) v) x = y) := by
    intro m
    induction m with
    | zero => intro _; exact ⟨hv, fun h => absurd h (by omega)⟩
    | succ m ih =>
      intro hm
      obtain ⟨i1, i2⟩ := ih (by omega)
      rw [List.range_succ, List.foldl_append]
      simp only [List.foldl_cons, List.foldl_nil]
      refine ⟨hP m (by omega) _ i1, fun h => ?_⟩
      by_cases e : m = j0
      · rw [e] at i1 ⊢
        exact hset _ i1
      · rw [hkeep m (by omega) e]
        exact i2 (by omega)
  exact ⟨(key k le_rfl).2 h0, (key k le_rfl).1⟩

theorem fold_keep {S : Type} {x : S} (l : List ℕ) (body : ℕ → (S → ℝ) → S → ℝ)
    (h : ∀ j ∈ l, ∀ v, body j v x = v x) (v : S → ℝ) :
    (l.foldl (fun v j => body j v) v) x = v x := by
  induction l generalizing v with
  | nil => rfl
  | cons a l ih =>
    rw [List.foldl_cons, ih fun j hj => h j (List.mem_cons_of_mem _ hj)]
    exact h a List.mem_cons_self v

theorem body_other {leaves : ℕ → Prop} {nang e c ifr n : ℕ} {x : ℕ × ℕ}
    (h : x ≠ (c, ifr * nang + n)) (v : ℕ × ℕ → ℝ) : vacBody leaves nang e c ifr n v x = v x := by
  unfold vacBody
  split_ifs
  · exact Function.update_of_ne h _ _
  · exact Function.update_of_ne h _ _

/-- Cells that are no ghost cells are kept. -/
theorem vacuum_keeps {leaves : ℕ → Prop} {dst : ℕ → ℕ} {e ngh nfreq nang : ℕ} {c a : ℕ}
    (hc : ∀ i, i < ngh → dst (i + 1) ≠ c) (v : ℕ × ℕ → ℝ) :
    vacuum leaves dst e ngh nfreq nang v (c, a) = v (c, a) := by
  unfold vacuum
  refine fold_keep _ (fun i0 v => _) (fun i hi v => ?_) v
  refine fold_keep _ (fun ifr v => _) (fun ifr _ v => ?_) v
  refine fold_keep _ (fun n v => _) (fun n _ v => ?_) v
  exact body_other (fun h => hc i (List.mem_range.mp hi) (congrArg Prod.fst h).symm) v

open Classical in
/-- Ghost cells hold the edge cell in the directions that leave, nothing in the others. -/
theorem vacuum_ghost {leaves : ℕ → Prop} {dst : ℕ → ℕ} {e ngh nfreq nang : ℕ}
    (he : ∀ i, i < ngh → dst (i + 1) ≠ e)
    (hd : ∀ i j, i < ngh → j < ngh → dst (i + 1) = dst (j + 1) → i = j) (v : ℕ × ℕ → ℝ)
    {i f n : ℕ} (hi : i < ngh) (hf : f < nfreq) (hn : n < nang) :
    vacuum leaves dst e ngh nfreq nang v (dst (i + 1), f * nang + n) =
      if leaves n then v (e, f * nang + n) else 0 := by
  let P : (ℕ × ℕ → ℝ) → Prop := fun u => ∀ a, u (e, a) = v (e, a)
  have hPb : ∀ i, i < ngh → ∀ f n u, P u → P (vacBody leaves nang e (dst (i + 1)) f n u) := by
    intro i hi f n u hu a
    rw [body_other (fun h => he i hi (congrArg Prod.fst h).symm)]
    exact hu a
  have hPn : ∀ i, i < ngh → ∀ f u, P u →
      P ((List.range nang).foldl (fun v n => vacBody leaves nang e (dst (i + 1)) f n v) u) := by
    intro i hi f u hu a
    rw [fold_keep _ (fun n v => vacBody leaves nang e (dst (i + 1)) f n v)
      fun n _ v => body_other (fun h => he i hi (congrArg Prod.fst h).symm) v]
    exact hu a
  have hPf : ∀ i, i < ngh → ∀ u, P u → P ((List.range nfreq).foldl (fun v ifr =>
      (List.range nang).foldl (fun v n => vacBody leaves nang e (dst (i + 1)) ifr n v) v) u) := by
    intro i hi u hu
    generalize List.range nfreq = l
    induction l generalizing u with
    | nil => exact hu
    | cons b l ih =>
      rw [List.foldl_cons]
      exact ih _ (hPn i hi b u hu)
  unfold vacuum
  refine (fold_pointwise (k := ngh) (fun i0 v => (List.range nfreq).foldl (fun v ifr =>
    (List.range nang).foldl (fun v n => vacBody leaves nang e (dst (i0 + 1)) ifr n v) v) v) P
    (fun j hj u hu => hPf j hj u hu) _ i hi ?_ ?_ v (fun a => rfl)).1
  · intro u hu
    refine (fold_pointwise (k := nfreq) (fun ifr v => (List.range nang).foldl (fun v n =>
      vacBody leaves nang e (dst (i + 1)) ifr n v) v) P (fun j _ u hu => hPn i hi j u hu) _ f hf ?_ ?_
      u hu).1
    · intro u hu
      refine (fold_pointwise (k := nang) (fun n v => vacBody leaves nang e (dst (i + 1)) f n v) P
        (fun j _ u hu => hPb i hi f j u hu) _ n hn ?_ ?_ u hu).1
      · intro u hu
        unfold vacBody
        split_ifs
        · rw [Function.update_self]
          exact hu _
        · rw [Function.update_self]
      · intro j hj hne u
        refine body_other (fun h => hne ?_) u
        exact (digits hn hj (congrArg Prod.snd h)).2.symm
    · intro j _ hne u
      refine fold_keep _ (fun n v => vacBody leaves nang e (dst (i + 1)) j n v) (fun m hm v => ?_) u
      refine body_other (fun h => hne ?_) v
      exact (digits hn (List.mem_range.mp hm) (congrArg Prod.snd h)).1.symm
  · intro j hj hne u
    refine fold_keep _ (fun ifr v => (List.range nang).foldl (fun v n =>
      vacBody leaves nang e (dst (j + 1)) ifr n v) v) (fun ifr _ v => ?_) u
    refine fold_keep _ (fun n v => vacBody leaves nang e (dst (j + 1)) ifr n v) (fun m _ v => ?_) v
    exact body_other (fun h => hne (hd i j hi hj (congrArg Prod.fst h)).symm) v

/-! ### Theorems -/

/-- **C105.** Vacuum at the inner face: ghost cells hold the edge cell in directions that leave the domain
and zero in all others; cells that are not ghost cells keep what they had. -/
theorem vacuum_inner {mu : ℕ → ℝ} {il ngh nfreq nang : ℕ} (hg : ngh ≤ il) (v : ℕ × ℕ → ℝ) :
    (∀ i f n, i < ngh → f < nfreq → n < nang →
      (mu n < 0 → vacuumInner mu il ngh nfreq nang v (il - 1 - i, f * nang + n) =
        v (il, f * nang + n)) ∧
      (0 ≤ mu n → vacuumInner mu il ngh nfreq nang v (il - 1 - i, f * nang + n) = 0)) ∧
    ∀ c a, c + ngh < il ∨ il ≤ c → vacuumInner mu il ngh nfreq nang v (c, a) = v (c, a) := by
  refine ⟨fun i f n hi hf hn => ?_, fun c a hc => vacuum_keeps (fun i hi => by omega) v⟩
  have := vacuum_ghost (leaves := fun n => mu n < 0) (dst := fun i => il - i) (e := il)
    (fun i hi => by omega) (fun i j hi hj => by omega) v hi hf hn
  rw [show il - (i + 1) = il - 1 - i by omega] at this
  unfold vacuumInner
  rw [this]
  exact ⟨fun h => if_pos h, fun h => if_neg (not_lt.mpr h)⟩

/-- **C105.** The same at the outer face. -/
theorem vacuum_outer {mu : ℕ → ℝ} {iu ngh nfreq nang : ℕ} (v : ℕ × ℕ → ℝ) :
    (∀ i f n, i < ngh → f < nfreq → n < nang →
      (0 < mu n → vacuumOuter mu iu ngh nfreq nang v (iu + 1 + i, f * nang + n) =
        v (iu, f * nang + n)) ∧
      (mu n ≤ 0 → vacuumOuter mu iu ngh nfreq nang v (iu + 1 + i, f * nang + n) = 0)) ∧
    ∀ c a, c ≤ iu ∨ iu + ngh < c → vacuumOuter mu iu ngh nfreq nang v (c, a) = v (c, a) := by
  refine ⟨fun i f n hi hf hn => ?_, fun c a hc => vacuum_keeps (fun i hi => by omega) v⟩
  have := vacuum_ghost (leaves := fun n => mu n > 0) (dst := fun i => iu + i) (e := iu)
    (fun i hi => by omega) (fun i j hi hj => by omega) v hi hf hn
  rw [show iu + (i + 1) = iu + 1 + i by omega] at this
  unfold vacuumOuter
  rw [this]
  exact ⟨fun h => if_pos h, fun h => if_neg (not_lt.mpr h)⟩

/-- **C105.** No energy enters through a vacuum boundary: the first-order flux through the inner face is
never inward, whatever was in the ghost cells. -/
theorem nothing_enters {c : ℝ} (hc : 0 ≤ c) {w mu : ℕ → ℝ} (hw : ∀ n, 0 ≤ w n) {il ngh nfreq nang : ℕ}
    (hg : ngh ≤ il) (h1 : 1 ≤ ngh) (v : ℕ × ℕ → ℝ) (hv : ∀ a, 0 ≤ v (il, a)) {f : ℕ} (hf : f < nfreq) :
    faceEnergy c w mu nang f (il - 1) il (vacuumInner mu il ngh nfreq nang v) ≤ 0 := by
  obtain ⟨hgh, hkeep⟩ := vacuum_inner (mu := mu) (nfreq := nfreq) (nang := nang) hg v
  unfold faceEnergy
  apply Finset.sum_nonpos
  intro n hn
  have hn' := Finset.mem_range.mp hn
  by_cases h : mu n > 0
  · rw [if_pos h]
    have := (hgh 0 f n (by omega) hf hn').2 h.le
    rw [Nat.sub_zero] at this
    rw [this]
    simp
  · rw [if_neg h, hkeep il _ (Or.inr le_rfl)]
    have h' : mu n ≤ 0 := not_lt.mp h
    exact mul_nonpos_of_nonneg_of_nonpos (hw n) (mul_nonpos_of_nonpos_of_nonneg
      (mul_nonpos_of_nonneg_of_nonpos hc h') (hv _))

/-- **C105.** Likewise at the outer face. -/
theorem nothing_enters_outer {c : ℝ} (hc : 0 ≤ c) {w mu : ℕ → ℝ} (hw : ∀ n, 0 ≤ w n)
    {iu ngh nfreq nang : ℕ} (h1 : 1 ≤ ngh) (v : ℕ × ℕ → ℝ) (hv : ∀ a, 0 ≤ v (iu, a)) {f : ℕ}
    (hf : f < nfreq) :
    0 ≤ faceEnergy c w mu nang f iu (iu + 1) (vacuumOuter mu iu ngh nfreq nang v) := by
  obtain ⟨hgh, hkeep⟩ := vacuum_outer (mu := mu) (iu := iu) (ngh := ngh) (nfreq := nfreq)
    (nang := nang) v
  unfold faceEnergy
  apply Finset.sum_nonneg
  intro n hn
  have hn' := Finset.mem_range.mp hn
  by_cases h : mu n > 0
  · rw [if_pos h, hkeep iu _ (Or.inl le_rfl)]
    exact mul_nonneg (hw n) (mul_nonneg (mul_nonneg hc h.le) (hv _))
  · rw [if_neg h]
    have := (hgh 0 f n (by omega) hf hn').2 (not_lt.mp h)
    rw [Nat.add_zero] at this
    rw [this]
    simp

/-- **C105.** The outflow boundary does not have this property: it copies the directions that enter, so a
single inward beam at the edge goes on to feed energy into the domain. -/
theorem outflow_feeds : ∃ (mu : ℕ → ℝ) (v : ℕ × ℕ → ℝ), (∀ x, 0 ≤ v x) ∧
    0 < faceEnergy 1 (fun _ => 1) mu 1 0 1 2 (outflowInner 2 1 1 1 v) := by
  refine ⟨fun _ => 1, fun _ => 1, fun _ => zero_le_one, ?_⟩
  simp [faceEnergy, outflowInner, vacuum, vacBody, List.range_succ]

/-- Two ghost cells, directions of both signs. -/
example : (2 : ℕ) ≤ 2 ∧ 1 ≤ 2 ∧ (fun n : ℕ => if n = 0 then (1 : ℝ) else -1) 0 > 0 ∧
    (fun n : ℕ => if n = 0 then (1 : ℝ) else -1) 1 < 0 := by
  norm_num

end Verif.RadVacuum
