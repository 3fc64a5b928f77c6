import Verif.Model.RadRotate
import Verif.Props.RadReflect
import Mathlib.Tactic

/-!
C104: turns of the directions of radiation in ghost cells.
-/

namespace Verif.RadRotate

open Verif.RadReflect (cosAxis digits flip_cosine)

/-- A step that moves octants by `s`, within the angles `n` only. -/
def Moves (N : ℕ) (s : ℕ → ℕ) (step : ℕ → (ℕ → ℝ) → ℕ → ℝ) : Prop :=
  ∀ n, n < N → ∀ a o m, o < 8 → m < N →
    step n a (o * N + m) = if m = n then a (s o * N + m) else a (o * N + m)

theorem loop_moves {N : ℕ} {s : ℕ → ℕ} {step : ℕ → (ℕ → ℝ) → ℕ → ℝ} (h : Moves N s step)
    (hs : ∀ o, o < 8 → s o < 8) (ir : ℕ → ℝ) {o m : ℕ} (ho : o < 8) (hm : m < N) :
    loop N step ir (o * N + m) = ir (s o * N + m) := by
  have key : ∀ k, k ≤ N → ∀ o m, o < 8 → m < N →
      ((List.range k).foldl (fun a n => step n a) ir) (o * N + m) =
        if m < k then ir (s o * N + m) else ir (o * N + m) := by
    intro k
    induction k with
    | zero => intro _ o m _ _; simp
    | succ k ih =>
      intro hk o m ho hm
      rw [List.range_succ, List.foldl_append]
      simp only [List.foldl_cons, List.foldl_nil]
      rw [h k (by omega) _ o m ho hm]
      by_cases e : m = k
      · rw [if_pos e, ih (by omega) _ m (hs o ho) hm, if_neg (by omega), if_pos (by omega)]
      · rw [if_neg e, ih (by omega) o m ho hm]
        by_cases e2 : m < k
        · rw [if_pos e2, if_pos (by omega)]
        · rw [if_neg e2, if_neg (by omega)]
  have := key N le_rfl o m ho hm
  rw [if_pos hm] at this
  exact this

theorem slot_eq {N o o' m m' : ℕ} (hm : m < N) (hm' : m' < N) :
    (o * N + m = o' * N + m') ↔ (o = o' ∧ m = m') :=
  ⟨fun h => digits hm hm' h, fun ⟨h, h'⟩ => by rw [h, h']⟩

/-- Two exchanges between octants. -/
theorem swaps_move {N p q r t : ℕ} (hd : [p, q, r, t].Nodup) :
    Moves N (fun o => if o = p then q else if o = q then p else if o = r then t else
      if o = t then r else o)
      (fun n a => swap2 (p * N + n) (q * N + n) a |> swap2 (r * N + n) (t * N + n)) := by
  intro n hn a o m ho hm
  simp only [List.nodup_cons, List.mem_cons, List.not_mem_nil, or_false, not_or, List.nodup_nil,
    and_true, not_false_eq_true] at hd
  simp only [swap2, Function.update_apply, slot_eq hm hn, slot_eq hn hn, and_true]
  by_cases e : m = n
  · subst e
    simp only [and_true, if_true]
    split_ifs <;> simp_all
  · simp [e]

theorem cycle_moves {N p q r t : ℕ} (hd : [p, q, r, t].Nodup) :
    Moves N (fun o => if o = p then t else if o = q then p else if o = r then q else
      if o = t then r else o)
      (fun n => cycle4 (p * N + n) (q * N + n) (r * N + n) (t * N + n)) := by
  intro n hn a o m ho hm
  simp only [List.nodup_cons, List.mem_cons, List.not_mem_nil, or_false, not_or, List.nodup_nil,
    and_true, not_false_eq_true] at hd
  simp only [cycle4, Function.update_apply, slot_eq hm hn, slot_eq hn hn, and_true]
  by_cases e : m = n
  · subst e
    simp only [and_true, if_true]
    split_ifs <;> simp_all
  · simp [e]

/-- Where the quarter turn takes the intensity of octant `o` from. -/
def Spec.from4 (o : ℕ) : ℕ := [2, 0, 3, 1, 6, 4, 7, 5].getD o 0

theorem copy3_octant {N : ℕ} (ir : ℕ → ℝ) {o n : ℕ} (ho : o < 8) (hn : n < N) :
    copy3 N ir (o * N + n) = ir (RadReflect.Spec.flip 0 (RadReflect.Spec.flip 1 o) * N + n) := by
  unfold copy3
  rw [loop_moves (swaps_move (by decide)) (by decide) _ ho hn,
    loop_moves (swaps_move (by decide)) (by decide) _ (by interval_cases o <;> decide) hn]
  congr 3
  interval_cases o <;> rfl

/-- **C104.** The half turn gives every direction the intensity of the direction with the first two
cosines reversed. -/
theorem half_turn {N : ℕ} (ir : ℕ → ℝ) (mutmp : ℕ → ℕ → ℝ) {o n : ℕ} (ho : o < 8) (hn : n < N) :
    ∃ o', o' < 8 ∧ copy3 N ir (o * N + n) = ir (o' * N + n) ∧
      cosAxis N mutmp 0 (o' * N + n) = -cosAxis N mutmp 0 (o * N + n) ∧
      cosAxis N mutmp 1 (o' * N + n) = -cosAxis N mutmp 1 (o * N + n) ∧
      cosAxis N mutmp 2 (o' * N + n) = cosAxis N mutmp 2 (o * N + n) := by
  have h1 : RadReflect.Spec.flip 1 o < 8 := by interval_cases o <;> decide
  refine ⟨RadReflect.Spec.flip 0 (RadReflect.Spec.flip 1 o), by interval_cases o <;> decide,
    copy3_octant ir ho hn, ?_, ?_, ?_⟩
  · rw [flip_cosine mutmp (by norm_num) (by norm_num) h1 hn,
      flip_cosine mutmp (by norm_num) (by norm_num) ho hn]
    simp
  · rw [flip_cosine mutmp (by norm_num) (by norm_num) h1 hn,
      flip_cosine mutmp (by norm_num) (by norm_num) ho hn]
    simp
  · rw [flip_cosine mutmp (by norm_num) (by norm_num) h1 hn,
      flip_cosine mutmp (by norm_num) (by norm_num) ho hn]
    simp

/-- **C104.** The quarter turn moves octants as a turn about the third axis does. -/
theorem quarter_octants {N : ℕ} (ir : ℕ → ℝ) {o n : ℕ} (ho : o < 8) (hn : n < N) :
    copy4 N ir (o * N + n) = ir (Spec.from4 o * N + n) := by
  unfold copy4
  rw [loop_moves (cycle_moves (by decide)) (by decide) _ ho hn,
    loop_moves (cycle_moves (by decide)) (by decide) _ (by interval_cases o <;> decide) hn]
  congr 3
  interval_cases o <;> rfl

/-- **C104, finding F114.** Within an octant the quarter turn keeps the number of the angle, though the
turn exchanges the first two cosines: the direction the intensity comes from is the turned one exactly
for angles on the diagonal. -/
theorem quarter_turn_iff {N : ℕ} (mutmp : ℕ → ℕ → ℝ) {o n : ℕ} (ho : o < 8) (hn : n < N) :
    (cosAxis N mutmp 0 (o * N + n) = -cosAxis N mutmp 1 (Spec.from4 o * N + n) ∧
      cosAxis N mutmp 1 (o * N + n) = cosAxis N mutmp 0 (Spec.from4 o * N + n) ∧
      cosAxis N mutmp 2 (o * N + n) = cosAxis N mutmp 2 (Spec.from4 o * N + n)) ↔
      mutmp n 0 = mutmp n 1 := by
  have hd : ∀ k, (k * N + n) / N = k ∧ (k * N + n) % N = n := by
    intro k
    constructor
    · rw [Nat.mul_comm, Nat.mul_add_div (by omega), Nat.div_eq_of_lt hn, Nat.add_zero]
    · rw [Nat.mul_comm, Nat.mul_add_mod, Nat.mod_eq_of_lt hn]
  unfold cosAxis
  rw [(hd o).1, (hd o).2, (hd _).1, (hd _).2]
  interval_cases o <;> simp [Spec.from4] <;> exact fun h => h.symm

/-- **C104, finding F115.** Both ends of the domain turn the same way: going out at one end and in at the
other is a half turn in place of nothing. -/
theorem both_ends {N : ℕ} (ir : ℕ → ℝ) {o n : ℕ} (ho : o < 8) (hn : n < N) :
    copy4 N (copy4 N ir) (o * N + n) = copy3 N ir (o * N + n) := by
  have h1 : Spec.from4 o < 8 := by interval_cases o <;> decide
  rw [quarter_octants _ ho hn, quarter_octants _ h1 hn, copy3_octant ir ho hn]
  congr 3
  interval_cases o <;> rfl

/-- **C104, finding F116.** The turn at the x2 faces is a mirror: it reverses the third cosine and keeps the
other two. -/
theorem theta_mirror {N : ℕ} (ir : ℕ → ℝ) (mutmp : ℕ → ℕ → ℝ) {o n : ℕ} (ho : o < 8) (hn : n < N) :
    ∃ o', o' < 8 ∧ copy5 N ir (o * N + n) = ir (o' * N + n) ∧
      cosAxis N mutmp 0 (o' * N + n) = cosAxis N mutmp 0 (o * N + n) ∧
      cosAxis N mutmp 1 (o' * N + n) = cosAxis N mutmp 1 (o * N + n) ∧
      cosAxis N mutmp 2 (o' * N + n) = -cosAxis N mutmp 2 (o * N + n) := by
  refine ⟨RadReflect.Spec.flip 2 o, by interval_cases o <;> decide, ?_, ?_, ?_, ?_⟩
  · unfold copy5
    rw [loop_moves (swaps_move (by decide)) (by decide) _ ho hn,
      loop_moves (swaps_move (by decide)) (by decide) _ (by interval_cases o <;> decide) hn]
    congr 3
    interval_cases o <;> rfl
  · rw [flip_cosine mutmp (by norm_num) (by norm_num) ho hn]
    simp
  · rw [flip_cosine mutmp (by norm_num) (by norm_num) ho hn]
    simp
  · rw [flip_cosine mutmp (by norm_num) (by norm_num) ho hn]
    simp

/-- The second of three angles in octant five. -/
example : (5 : ℕ) < 8 ∧ (1 : ℕ) < 3 := by decide

end Verif.RadRotate
