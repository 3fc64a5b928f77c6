import Verif.Lemmas.Params
import Mathlib.Algebra.Order.Floor.Ring
import Mathlib.Data.Rat.Floor
import Mathlib.Tactic.FieldSimp
import Mathlib.Tactic.Linarith
import Mathlib.Tactic.NormNum

/-!
# C29: output times across restarts

Arithmetic is exact in an ordered field; `shw` and `rd` print and read numbers.
-/
namespace Verif.Params

variable {K : Type} [Field K] [LinearOrder K] [IsStrictOrderedRing K] [FloorRing K]

theorem truncInt_nonneg {x : K} (h : 0 ≤ x) : truncInt x = ⌊x⌋ := by unfold truncInt; rw [if_pos h]
theorem truncInt_neg {x : K} (h : x < 0) : truncInt x = ⌈x⌉ := by unfold truncInt; rw [if_neg (not_le.2 h)]

/-- C29 for one output block with an existing time `nt` and interval `d`: the new time is on the same
schedule and later than the restart time, at most one interval later if `nt` was not in the
future, and an existing future time is not moved. -/
theorem forwardTime_spec {t nt d : K} (hd : 0 < d) :
    (∃ k : ℤ, forwardTime t nt d false = nt + k * d) ∧
    (nt ≤ t → t < forwardTime t nt d false ∧ forwardTime t nt d false ≤ t + d) ∧
    (t < nt → nt ≤ forwardTime t nt d false ∧
      forwardTime t nt d false = if nt < t + d then nt + d else nt) := by
  unfold forwardTime
  simp only [Bool.false_eq_true, if_false]
  refine ⟨?_, ?_, ?_⟩
  · split
    · exact ⟨truncInt ((t - nt) / d) + 1, by push_cast; ring⟩
    · exact ⟨0, by simp⟩
  · intro h
    have hx : 0 ≤ (t - nt) / d := div_nonneg (by linarith) hd.le
    rw [truncInt_nonneg hx]
    have h1 := Int.floor_le ((t - nt) / d)
    have h2 := Int.lt_floor_add_one ((t - nt) / d)
    have h0 : (0 : K) ≤ (⌊(t - nt) / d⌋ : K) := by exact_mod_cast Int.floor_nonneg.2 hx
    rw [le_div_iff₀ hd] at h1
    rw [div_lt_iff₀ hd] at h2
    rw [if_pos (by nlinarith)]
    constructor <;> nlinarith
  · intro h
    have hx : (t - nt) / d < 0 := div_neg_of_neg_of_pos (by linarith) hd
    rw [truncInt_neg hx]
    by_cases hlt : nt < t + d
    · have hc : ⌈(t - nt) / d⌉ = 0 := by
        rw [Int.ceil_eq_iff]
        constructor
        · rw [lt_div_iff₀ hd]; push_cast; linarith
        · push_cast; exact hx.le
      rw [hc, if_pos hlt]
      simp only [Int.cast_zero, mul_zero, zero_add]
      rw [if_pos hd]
      exact ⟨by linarith, rfl⟩
    · rw [if_neg hlt]
      have hc : ⌈(t - nt) / d⌉ ≤ -1 := by
        rw [Int.ceil_le, div_le_iff₀ hd]; push_cast; linarith
      have hc' : (⌈(t - nt) / d⌉ : K) ≤ -1 := by exact_mod_cast hc
      rw [if_neg (by nlinarith)]
      exact ⟨le_refl _, rfl⟩

/-- C29: an output added at restart (no time stored) is due at the last multiple of its interval. -/
theorem forwardTime_fresh {t d : K} (hd : 0 < d) (ht : 0 ≤ t) :
    ∃ k : ℤ, forwardTime t t d true = k * d ∧ t - d < k * d ∧ (k : K) * d ≤ t := by
  unfold forwardTime
  have h0 : truncInt ((t - t) / d) = 0 := by
    rw [sub_self, zero_div, truncInt_nonneg le_rfl]; simp
  simp only [h0, Int.cast_zero, mul_zero, zero_add, if_pos hd, if_true]
  unfold fmod
  have hx : 0 ≤ (t + d) / d := div_nonneg (by linarith) hd.le
  rw [truncInt_nonneg hx]
  have h1 := Int.floor_le ((t + d) / d)
  have h2 := Int.lt_floor_add_one ((t + d) / d)
  rw [le_div_iff₀ hd] at h1
  rw [div_lt_iff₀ hd] at h2
  refine ⟨⌊(t + d) / d⌋ - 1, ?_, ?_, ?_⟩
  · push_cast; ring
  · push_cast; linarith
  · push_cast; linarith

/-! ## Whole stores -/

variable {shw : K → Str} {rd : Str → K}

theorem rollback_forall {s s1 : Store} (h : rollback shw rd s = some s1) :
    List.Forall₂ (fun b b1 => rollback1 shw rd b = some b1) s s1 := by
  unfold rollback at h
  induction s generalizing s1 with
  | nil =>
    simp only [List.mapM_nil] at h
    have : [] = s1 := Option.some.inj h
    subst this
    exact .nil
  | cons b s ih =>
    rw [List.mapM_cons] at h
    obtain ⟨b1, h1, h2⟩ := Option.bind_eq_some_iff.1 h
    obtain ⟨s2, h3, h4⟩ := Option.bind_eq_some_iff.1 h2
    have : b1 :: s2 = s1 := Option.some.inj h4
    subst this
    exact .cons h1 (ih h3)

/-- Both lines of an output block present. -/
def HasTimes (b : Block) : Prop := ∀ _ : isOutput b = true, ∃ l d, b.getLine nextTime = some l ∧ b.getLine dtName = some d

theorem forward_forall {t : K} {s s2 : Store} (h : forward shw rd t false s = some s2)
    (hs : ∀ b ∈ s, (isOutput b = true → (b.getLine nextTime).isSome)) :
    List.Forall₂ (fun b b2 => (isOutput b = false ∧ b2 = b) ∨
      (isOutput b = true ∧ ∃ l d, b.getLine nextTime = some l ∧ b.getLine dtName = some d ∧
        b2 = b.add nextTime (shw (forwardTime t (rd l.value) (rd d.value) false)) updated)) s s2 := by
  induction s generalizing s2 with
  | nil =>
    simp only [forward, Option.some.injEq] at h
    subst h
    exact .nil
  | cons b s ih =>
    unfold forward at h
    by_cases ho : isOutput b = true
    · obtain ⟨l, hl⟩ := Option.isSome_iff_exists.1 (hs b (by simp) ho)
      rw [if_pos ho] at h
      simp only [hl, Option.isNone_some, Bool.or_false] at h
      cases hd : b.getLine dtName with
      | none => rw [hd] at h; simp at h
      | some d =>
        rw [hd] at h
        simp only at h
        obtain ⟨s3, h3, h4⟩ := Option.map_eq_some_iff.1 h
        subst h4
        exact .cons (.inr ⟨ho, l, d, hl, hd, rfl⟩) (ih h3 (fun b hb => hs b (by simp [hb])))
    · rw [if_neg ho] at h
      obtain ⟨s3, h3, h4⟩ := Option.map_eq_some_iff.1 h
      subst h4
      exact .cons (.inl ⟨by simpa using ho, rfl⟩) (ih h3 (fun b hb => hs b (by simp [hb])))

theorem nextTime_ne_dt : dtName ≠ nextTime := by decide +kernel

/-- What rolling back and forwarding does to one block: other blocks are untouched; an output block
keeps all parameters except the next time, which stays on its schedule, lies after the restart
time, and is unchanged if it was less than two intervals ahead. -/
structure Kept (shw : K → Str) (rd : Str → K) (t : K) (b b2 : Block) : Prop where
  name : b2.name = b.name
  other : isOutput b = false → b2 = b
  lines : ∀ n, n ≠ nextTime → b2.getLine n = b.getLine n
  time : isOutput b = true → ∃ l d, b.getLine nextTime = some l ∧ b.getLine dtName = some d ∧
    (0 < rd d.value → ∃ r, b2.getLine nextTime = some ⟨nextTime, shw r, updated⟩ ∧
      (∃ k : ℤ, r = rd l.value + k * rd d.value) ∧ t < r ∧
      (rd l.value ≤ t + rd d.value → r ≤ t + rd d.value) ∧
      (t < rd l.value → rd l.value < t + 2 * rd d.value → r = rd l.value))

theorem forall₂_mem_right {α β : Type} {R : α → β → Prop} {l : List α} {l' : List β} (h : List.Forall₂ R l l')
    {y : β} (hy : y ∈ l') : ∃ x ∈ l, R x y := by
  induction h with
  | nil => simp at hy
  | cons hr _ ih =>
    rcases List.mem_cons.1 hy with rfl | hy
    · exact ⟨_, by simp, hr⟩
    · obtain ⟨x, hx, h⟩ := ih hy
      exact ⟨x, by simp [hx], h⟩

theorem forall₂_comp {α β γ : Type} {R : α → β → Prop} {S : β → γ → Prop} {T : α → γ → Prop}
    (hT : ∀ a b c, R a b → S b c → T a c) {l : List α} {l' : List β} {l'' : List γ}
    (h : List.Forall₂ R l l') (h' : List.Forall₂ S l' l'') : List.Forall₂ T l l'' := by
  induction h generalizing l'' with
  | nil => cases h'; exact .nil
  | cons hr _ ih => cases h' with | cons hs h' => exact .cons (hT _ _ _ hr hs) (ih h')

/-- C29: restart with unchanged intervals and exact number printing. -/
theorem restart_schedule (hrd : ∀ x, rd (shw x) = x) {t : K} {s s1 s2 : Store}
    (h1 : rollback shw rd s = some s1) (h2 : forward shw rd t false s1 = some s2) :
    List.Forall₂ (Kept shw rd t) s s2 := by
  have hr := rollback_forall h1
  have hout : ∀ {b b1 : Block}, rollback1 shw rd b = some b1 → isOutput b1 = isOutput b := by
    intro b b1 h
    unfold rollback1 at h
    split at h
    · split at h
      · simp only [Option.some.injEq] at h; subst h; rfl
      · simp at h
    · simp only [Option.some.injEq] at h; subst h; rfl
  have hf := forward_forall h2 (by
    intro b1 hb1 ho
    obtain ⟨b, _, hb⟩ := forall₂_mem_right hr hb1
    have ho' := hout hb ▸ ho
    unfold rollback1 at hb
    rw [if_pos ho'] at hb
    split at hb
    · simp only [Option.some.injEq] at hb
      subst hb
      rw [getLine_add]; simp
    · simp at hb)
  refine forall₂_comp ?_ hr hf
  intro b b1 b2 hb h
  have ho := hout hb
  unfold rollback1 at hb
  rcases h with ⟨h, rfl⟩ | ⟨h, l1, d1, hl1, hd1, rfl⟩
  · rw [ho] at h
    rw [if_neg (by simp [h])] at hb
    simp only [Option.some.injEq] at hb
    subst hb
    exact ⟨rfl, fun _ => rfl, fun _ _ => rfl, fun h' => by rw [h] at h'; simp at h'⟩
  · rw [ho] at h
    rw [if_pos h] at hb
    split at hb
    · rename_i l d hl hd
      simp only [Option.some.injEq] at hb
      subst hb
      rw [getLine_add, if_pos rfl] at hl1
      rw [getLine_add, if_neg nextTime_ne_dt] at hd1
      have e1 := Option.some.inj hl1
      rw [hd] at hd1
      have e2 := Option.some.inj hd1
      subst e1 e2
      refine ⟨rfl, fun h' => by rw [h] at h'; simp at h', ?_, ?_⟩
      · intro n hn
        rw [getLine_add, if_neg hn, getLine_add, if_neg hn]
      · intro _
        refine ⟨l, d, hl, hd, ?_⟩
        intro hd0
        refine ⟨_, by rw [getLine_add, if_pos rfl], ?_⟩
        simp only [hrd]
        obtain ⟨⟨k, hk⟩, hpast, hfut⟩ := forwardTime_spec (t := t) (nt := rd l.value - rd d.value) hd0
        refine ⟨⟨k - 1, by rw [hk]; push_cast; ring⟩, ?_, ?_, ?_⟩
        · rcases le_or_gt (rd l.value - rd d.value) t with hc | hc
          · exact (hpast hc).1
          · exact hc.trans_le (hfut hc).1
        · intro hc
          exact (hpast (by linarith)).2
        · intro hc1 hc2
          rcases le_or_gt (rd l.value - rd d.value) t with hc | hc
          · -- the unique time on the schedule in (t, t + d]
            have h3 := hpast hc
            rw [hk] at h3 ⊢
            have hk1 : k = 1 := by
              have a1 : (0 : K) < (k : K) := by
                by_contra hcon
                have := h3.1
                have hle : (k : K) ≤ 0 := not_lt.1 hcon
                nlinarith
              have a2 : (k : K) < 2 := by
                by_contra hcon
                have := h3.2
                have hle : (2 : K) ≤ (k : K) := not_lt.1 hcon
                nlinarith
              have b1 : 0 < k := by exact_mod_cast a1
              have b2 : k < 2 := by exact_mod_cast a2
              omega
            rw [hk1]; push_cast; ring
          · rw [(hfut hc).2, if_pos (by linarith)]; ring
    · simp at hb

theorem forward_total (t : K) (s : Store) (h : ∀ b ∈ s, isOutput b = true → (b.getLine dtName).isSome) (fresh : Bool) :
    ∃ s2, forward shw rd t fresh s = some s2 := by
  induction s generalizing fresh with
  | nil => exact ⟨[], rfl⟩
  | cons b s ih =>
    unfold forward
    by_cases ho : isOutput b = true
    · obtain ⟨d, hd⟩ := Option.isSome_iff_exists.1 (h b (by simp) ho)
      obtain ⟨s2, h2⟩ := ih (fun b hb => h b (by simp [hb])) (fresh || (b.getLine nextTime).isNone)
      rw [if_pos ho]
      simp only [hd, h2, Option.map_some]
      exact ⟨_, rfl⟩
    · obtain ⟨s2, h2⟩ := ih (fun b hb => h b (by simp [hb])) fresh
      rw [if_neg ho, h2]
      exact ⟨_, rfl⟩

/-- C29: with both parameters in every output block the restart does not stop. -/
theorem restart_total (t : K) {s : Store} (h : ∀ b ∈ s, HasTimes b) :
    ∃ s1 s2, rollback shw rd s = some s1 ∧ forward shw rd t false s1 = some s2 := by
  have hr : ∃ s1, rollback shw rd s = some s1 := by
    unfold rollback
    induction s with
    | nil => exact ⟨[], rfl⟩
    | cons b s ih =>
      obtain ⟨s1, h1⟩ := ih (fun b hb => h b (by simp [hb]))
      have hb : ∃ b1, rollback1 shw rd b = some b1 := by
        unfold rollback1
        split
        · rename_i ho
          obtain ⟨l, d, hl, hd⟩ := h b (by simp) ho
          rw [hl, hd]; exact ⟨_, rfl⟩
        · exact ⟨_, rfl⟩
      obtain ⟨b1, hb1⟩ := hb
      refine ⟨b1 :: s1, ?_⟩
      rw [List.mapM_cons, hb1, h1]; rfl
  obtain ⟨s1, h1⟩ := hr
  obtain ⟨s2, h2⟩ := forward_total (shw := shw) (rd := rd) t s1 (by
    intro b1 hb1 ho
    obtain ⟨b, hb, hbb⟩ := forall₂_mem_right (rollback_forall h1) hb1
    unfold rollback1 at hbb
    split at hbb
    · rename_i ho'
      obtain ⟨l, d, hl, hd⟩ := h b hb ho'
      rw [hl, hd] at hbb
      simp only [Option.some.injEq] at hbb
      subst hbb
      rw [getLine_add, if_neg nextTime_ne_dt, hd]; rfl
    · rename_i ho'
      simp only [Option.some.injEq] at hbb
      subst hbb
      exact absurd ho ho') false
  exact ⟨s1, s2, h1, h2⟩

/-- A block that satisfies the hypothesis. -/
example (shw : ℚ → Str) :
    HasTimes ⟨"output1".toList, [⟨dtName, shw 1, []⟩, ⟨nextTime, shw 4, []⟩], 9, 5⟩ := by
  intro _
  have e : (dtName == nextTime) = false := by decide +kernel
  exact ⟨⟨nextTime, shw 4, []⟩, ⟨dtName, shw 1, []⟩, by simp [Block.getLine, e], by simp [Block.getLine]⟩

/-- F26: a next output time two or more intervals ahead (such as an output that is to start late) is
moved one interval earlier by every restart. -/
theorem late_start_moves_earlier {t nt d : K} (hd : 0 < d) (h : t + 2 * d ≤ nt) :
    forwardTime t (nt - d) d false = nt - d := by
  have := (forwardTime_spec (t := t) (nt := nt - d) hd).2.2 (by linarith)
  rw [this.2, if_neg (by linarith)]

/-- F8: the flag for a newly added output is not reset, so a later output block with its own schedule
(here the half-integers) is moved off it and before the restart time. -/
theorem fresh_flag_leaks (shw : ℚ → Str) (rd : Str → ℚ) (hrd : ∀ x, rd (shw x) = x) :
    ∃ s2, forward shw rd (36 / 5) false
        [⟨"output1".toList, [⟨dtName, shw 1, []⟩], 9, 5⟩,
         ⟨"output2".toList, [⟨dtName, shw 1, []⟩, ⟨nextTime, shw (13 / 2), []⟩], 9, 5⟩] = some s2 ∧
      getReal rd s2 "output2".toList nextTime = some 6 ∧
      forwardTime (36 / 5 : ℚ) (13 / 2) 1 false = 15 / 2 := by
  have e : (dtName == nextTime) = false := by decide +kernel
  have ho1 : isOutput ⟨"output1".toList, [⟨dtName, shw 1, []⟩], 9, 5⟩ = true := by
    show ("output1".toList.take 6 == "output".toList) = true; decide +kernel
  have ho2 : isOutput ⟨"output2".toList, [⟨dtName, shw 1, []⟩, ⟨nextTime, shw (13 / 2), []⟩], 9, 5⟩ = true := by
    show ("output2".toList.take 6 == "output".toList) = true; decide +kernel
  have a1 : Block.getLine ⟨"output1".toList, [⟨dtName, shw 1, []⟩], 9, 5⟩ nextTime = none := by
    simp [Block.getLine, e]
  have a2 : Block.getLine ⟨"output1".toList, [⟨dtName, shw 1, []⟩], 9, 5⟩ dtName = some ⟨dtName, shw 1, []⟩ := by
    simp [Block.getLine]
  have b1 : Block.getLine ⟨"output2".toList, [⟨dtName, shw 1, []⟩, ⟨nextTime, shw (13 / 2), []⟩], 9, 5⟩ nextTime =
      some ⟨nextTime, shw (13 / 2), []⟩ := by
    simp [Block.getLine, e]
  have b2 : Block.getLine ⟨"output2".toList, [⟨dtName, shw 1, []⟩, ⟨nextTime, shw (13 / 2), []⟩], 9, 5⟩ dtName =
      some ⟨dtName, shw 1, []⟩ := by
    simp [Block.getLine]
  have f1 : ⌊(7 / 10 : ℚ)⌋ = 0 := by rw [Int.floor_eq_iff]; norm_num
  have f2 : ⌊(15 / 2 : ℚ)⌋ = 7 := by rw [Int.floor_eq_iff]; norm_num
  have t1 : truncInt (((36 / 5 : ℚ) - 13 / 2) / 1) = 0 := by
    rw [truncInt_nonneg (by norm_num), ← f1]; norm_num
  refine ⟨[(Block.mk "output1".toList [⟨dtName, shw 1, []⟩] 9 5).add nextTime
      (shw (forwardTime (36 / 5) (36 / 5) (rd (shw 1)) true)) updated,
    (Block.mk "output2".toList [⟨dtName, shw 1, []⟩, ⟨nextTime, shw (13 / 2), []⟩] 9 5).add nextTime
      (shw (forwardTime (36 / 5) (rd (shw (13 / 2))) (rd (shw 1)) true)) updated], ?_, ?_, ?_⟩
  · rw [forward, if_pos ho1]
    simp only [a1, a2, Option.isNone_none, Bool.or_true]
    rw [forward, if_pos ho2]
    simp only [b1, b2, Option.isNone_some, Bool.or_false]
    rw [forward]
    rfl
  · rw [getReal, getString_eq, lookup]
    have hn : ("output1".toList == "output2".toList) = false := by decide +kernel
    simp only [getBlock, List.find?_cons]
    rw [show ((Block.mk "output1".toList [⟨dtName, shw 1, []⟩] 9 5).add nextTime
      (shw (forwardTime (36 / 5) (36 / 5) (rd (shw 1)) true)) updated).name = "output1".toList from rfl, hn]
    rw [show ((Block.mk "output2".toList [⟨dtName, shw 1, []⟩, ⟨nextTime, shw (13 / 2), []⟩] 9 5).add nextTime
      (shw (forwardTime (36 / 5) (rd (shw (13 / 2))) (rd (shw 1)) true)) updated).name = "output2".toList from rfl]
    simp only [beq_self_eq_true, Option.bind_some, getLine_add, if_true, Option.map_some, hrd]
    congr 1
    unfold forwardTime
    rw [t1]
    have t2 : truncInt ((13 / 2 + ((1 : ℚ) * ((0 : ℤ) : ℚ) + 1)) / 1) = 7 := by
      rw [truncInt_nonneg (by norm_num), ← f2]; norm_num
    simp only [fmod, t2]
    norm_num
  · unfold forwardTime
    rw [t1]; norm_num

end Verif.Params
