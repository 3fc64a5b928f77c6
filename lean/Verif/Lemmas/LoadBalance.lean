import Verif.Model.LoadBalance

/-! # Ranges computed by the load balancer -/
namespace Verif.LoadBalance

/-- Blocks `n, n+1, …, nb-1` are assigned, in order, up to rank `R`; block `n` (if assigned) has rank
`j` or `j+1`. -/
structure Asg (nb R n j : Nat) (rlist : Nat → Nat) : Prop where
  le : n ≤ nb
  last : n < nb → rlist (nb - 1) = R
  first : n < nb → rlist n = j ∨ rlist n = j + 1
  top : n = nb → j = R
  step : ∀ i, n ≤ i → i + 1 < nb → rlist (i + 1) = rlist i ∨ rlist (i + 1) = rlist i + 1

theorem rankLoop_asg {α : Type} (A : CostOps α) (c : Nat → α) {nb R : Nat} (n : Nat) (s : Loop α)
    (hj : s.j < n) (ha : Asg nb R n s.j s.rlist) {rl : Nat → Nat} (h : rankLoop A c n s = some rl) :
    Asg nb R 0 0 rl ∧ rl 0 = 0 := by
  induction n generalizing s with
  | zero => omega
  | succ i ih =>
    unfold rankLoop at h
    split at h
    · rename_i hij
      cases h
      refine ⟨⟨by omega, ?_, by simp, ?_, ?_⟩, by simp⟩
      · intro _
        have h1 := ha.last
        have h2 := ha.top
        have h3 := ha.le
        show (if nb - 1 ≤ i then nb - 1 else s.rlist (nb - 1)) = R
        split
        · have := h2 (by omega); omega
        · exact h1 (by omega)
      · have := ha.le; omega
      · intro k _ hk
        show (if k + 1 ≤ i then _ else _) = (if k ≤ i then _ else _) ∨ (if k + 1 ≤ i then _ else _) = (if k ≤ i then _ else _) + 1
        have h1 := ha.step k
        by_cases c1 : k + 1 ≤ i
        · have c2 : k ≤ i := by omega
          right; rw [if_pos c1, if_pos c2]
        · by_cases c2 : k ≤ i
          · have c3 : k = i := by omega
            subst c3
            have := ha.first (by omega)
            simp only [c1, if_false, Nat.le_refl, if_true]
            omega
          · simp only [c1, c2, if_false]
            exact h1 (by omega) hk
    · rename_i hij
      split at h
      · cases h
      · have hle := ha.le
        have base : ∀ j', (j' = s.j ∨ j' + 1 = s.j) → Asg nb R i j' (upd s.rlist i s.j) := by
          intro j' hj'
          refine ⟨by omega, ?_, ?_, by omega, ?_⟩
          · intro _
            by_cases hc : i + 1 = nb
            · have := ha.top (by omega)
              subst hc
              simp [upd, this]
            · have := ha.last (by omega)
              simp only [upd]
              rw [if_neg (by omega)]
              exact this
          · intro _; simp only [upd, if_true]; omega
          · intro k hk hk'
            rcases Nat.eq_or_lt_of_le hk with rfl | hlt
            · have := ha.first (by omega)
              simp only [upd, if_true]
              rw [if_neg (by omega)]
              omega
            · have := ha.step k (by omega) hk'
              simp only [upd]
              rw [if_neg (by omega), if_neg (by omega)]
              exact this
        simp only at h
        split at h
        · rename_i hg
          simp only [Bool.and_eq_true, decide_eq_true_eq] at hg
          exact ih _ (by simp; omega) (base _ (by simp; omega)) h
        · exact ih _ (by simp; omega) (base _ (by simp)) h

/-- What the second loop has established after the blocks `0 … i-1`. -/
structure Tab (rlist slist nlist : Nat → Nat) (i j : Nat) : Prop where
  rank : rlist (i - 1) = j
  start : slist j < i
  cur : ∀ k, k < i → (rlist k = j ↔ slist j ≤ k)
  done : ∀ r, r < j → 0 < nlist r ∧ slist r + nlist r ≤ i ∧ ∀ k, k < i → (rlist k = r ↔ slist r ≤ k ∧ k < slist r + nlist r)
  bound : ∀ k, k < i → rlist k ≤ j

theorem tableLoop_tab {rlist : Nat → Nat} {nb : Nat}
    (hstep : ∀ i, i + 1 < nb → rlist (i + 1) = rlist i ∨ rlist (i + 1) = rlist i + 1)
    (fuel i j : Nat) (slist nlist : Nat → Nat) (hf : i + fuel = nb) (hi : 0 < i)
    (h : Tab rlist slist nlist i j) :
    ∃ J S N, tableLoop rlist fuel i j slist nlist = (J, S, N) ∧ Tab rlist S N nb J := by
  induction fuel generalizing i j slist nlist with
  | zero =>
    have : i = nb := by omega
    subst this
    exact ⟨j, slist, nlist, rfl, h⟩
  | succ f ih =>
    unfold tableLoop
    have hs := hstep (i - 1) (by omega)
    rw [show i - 1 + 1 = i by omega] at hs
    have hr := h.rank
    split
    · rename_i hne
      have hri : rlist i = j + 1 := by omega
      refine ih _ _ _ _ (by omega) (by omega) ⟨by simpa using hri, by simp [upd], ?_, ?_, ?_⟩
      · intro k hk
        simp only [upd, if_true]
        rcases Nat.lt_or_ge k i with h1 | h1
        · have := h.bound k h1
          omega
        · have : k = i := by omega
          subst this; simp [hri]
      · intro r hrj
        by_cases hc : r = j
        · subst hc
          simp only [upd, if_true]
          rw [if_neg (by omega)]
          have h1 := h.start
          refine ⟨by omega, by omega, ?_⟩
          intro k hk
          rcases Nat.lt_or_ge k i with h2 | h2
          · have := h.cur k h2; omega
          · have : k = i := by omega
            subst this; omega
        · obtain ⟨a, b, d⟩ := h.done r (by omega)
          simp only [upd]
          rw [if_neg hc, if_neg (by omega)]
          refine ⟨a, by omega, ?_⟩
          intro k hk
          rcases Nat.lt_or_ge k i with h2 | h2
          · exact d k h2
          · have : k = i := by omega
            subst this; omega
      · intro k hk
        rcases Nat.lt_or_ge k i with h1 | h1
        · have := h.bound k h1
          omega
        · have : k = i := by omega
          subst this; omega
    · rename_i hne
      have hri : rlist i = j := by omega
      have h1 := h.start
      refine ih _ _ _ _ (by omega) (by omega) ⟨by simpa using hri, by omega, ?_, ?_, ?_⟩
      · intro k hk
        rcases Nat.lt_or_ge k i with h2 | h2
        · exact h.cur k h2
        · have : k = i := by omega
          subst this; omega
      · intro r hrj
        obtain ⟨a, b, d⟩ := h.done r hrj
        refine ⟨a, by omega, ?_⟩
        intro k hk
        rcases Nat.lt_or_ge k i with h2 | h2
        · exact d k h2
        · have : k = i := by omega
          subst this; omega
      · intro k hk
        rcases Nat.lt_or_ge k i with h2 | h2
        · exact h.bound k h2
        · have : k = i := by omega
          subst this; omega

end Verif.LoadBalance
