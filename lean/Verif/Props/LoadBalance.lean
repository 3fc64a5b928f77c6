import Verif.Lemmas.LoadBalance
import Mathlib.Algebra.Order.Field.Rat
import Mathlib.Tactic.FieldSimp
import Mathlib.Tactic.Linarith
import Mathlib.Tactic.Ring
import Mathlib.Tactic.NormNum
import Mathlib.Algebra.BigOperators.Intervals
import Mathlib.Algebra.Order.BigOperators.Group.Finset
import Mathlib.Algebra.Order.Archimedean.Basic

/-! # Load balancing (C13, C14, C54) -/
namespace Verif.LoadBalance

/-- **C13** For any arithmetic on the costs: if `CalculateLoadBalance` returns, there are at least as
many blocks as processes, the rank of block 0 is 0, ranks grow by at most one from block to block
and end with the last process, and the tables `slist`, `nlist` give for every process exactly its
blocks, at least one each. -/
theorem ranges_partition {α : Type} (A : CostOps α) (c : Nat → α) (nb nranks threads : Nat)
    (hn : 0 < nranks) (ht : 0 < threads) {o : Out}
    (h : calculateLoadBalance A c nb nranks threads = some o) :
    nranks ≤ nb ∧ o.rlist 0 = 0 ∧ o.rlist (nb - 1) = nranks - 1 ∧
    (∀ i, i + 1 < nb → o.rlist i ≤ o.rlist (i + 1) ∧ o.rlist (i + 1) ≤ o.rlist i + 1) ∧
    (∀ r, r < nranks → 0 < o.nlist r ∧ o.slist r + o.nlist r ≤ nb ∧
      ∀ i, i < nb → (o.rlist i = r ↔ o.slist r ≤ i ∧ i < o.slist r + o.nlist r)) := by
  unfold calculateLoadBalance at h
  simp only at h
  split at h
  · cases h
  rename_i rl hrl
  have hnb : nranks ≤ nb := by
    have hle : nranks * 1 ≤ nranks * threads := Nat.mul_le_mul_left _ ht
    split at h
    · cases h
    · omega
  obtain ⟨ha, h0⟩ := rankLoop_asg A c (nb := nb) (R := nranks - 1) nb _ (by simp; omega)
    ⟨Nat.le_refl _, by omega, by omega, by simp, by omega⟩ hrl
  obtain ⟨J, S, N, hJ, hT⟩ := tableLoop_tab (rlist := rl) (nb := nb) (fun i hi => ha.step i (by omega) hi)
    (nb - 1) 1 0 (fun _ => 0) (fun _ => 0) (by omega) (by omega)
    ⟨h0, by simp, by intro k hk; have : k = 0 := by omega
                     subst this; simp [h0], by omega, by intro k hk; have : k = 0 := by omega
                                                         subst this; omega⟩
  rw [hJ] at h
  simp only at h
  split at h
  · cases h
  cases h
  have hJR : J = nranks - 1 := by rw [← hT.rank]; exact ha.last (by omega)
  refine ⟨hnb, h0, ha.last (by omega), ?_, ?_⟩
  · intro i hi
    have := ha.step i (by omega) hi
    simp only
    omega
  · intro r hr
    simp only [upd]
    have hs := hT.start
    split
    · rename_i hc
      subst hc
      refine ⟨by omega, by omega, ?_⟩
      intro i hi
      have := hT.cur i hi
      omega
    · exact hT.done r (by omega)

/-- Costs in an ordered field with exact arithmetic. -/
def exact (K : Type) [Field K] [LinearOrder K] : CostOps K where
  zero := 0
  add := (· + ·)
  sub := (· - ·)
  divN x n := x / n
  ge x y := decide (y ≤ x)
  isZero x := decide (x = 0)

/-- Integer costs with truncating division. -/
def exOps : CostOps Int := ⟨0, (· + ·), (· - ·), fun x n => x / n, fun x y => decide (y ≤ x), fun x => decide (x = 0)⟩

example : ((calculateLoadBalance exOps (fun i => (i : Int) + 1) 7 3 2).map
    fun o => ((List.range 7).map o.rlist, (List.range 3).map o.slist, (List.range 3).map o.nlist)) =
    some ([0, 0, 0, 1, 1, 2, 2], [0, 3, 5], [3, 2, 2]) := by decide +kernel

section field
set_option linter.unusedSectionVars false
variable {K : Type} [Field K] [LinearOrder K] [IsStrictOrderedRing K]

theorem totalCost_eq (c : Nat → K) (n : Nat) : totalCost (exact K) c n = ∑ i ∈ Finset.range n, c i := by
  induction n with
  | zero => rfl
  | succ n ih => rw [Finset.sum_range_succ, ← ih]; rfl

theorem rankLoop_some (c : Nat → K) {nb : Nat} (hc : ∀ i, i < nb → 0 < c i) (n : Nat) (hn : n ≤ nb)
    (s : Loop K) (hj : s.j < n) (hT : s.total = (∑ i ∈ Finset.range n, c i) + s.my)
    (hm : 0 ≤ s.my) (ht : s.target = s.total / ((s.j : K) + 1)) :
    ∃ rl, rankLoop (exact K) c n s = some rl := by
  induction n generalizing s with
  | zero => omega
  | succ i ih =>
    unfold rankLoop
    split
    · exact ⟨_, rfl⟩
    · rename_i hij
      have hsum : 0 < ∑ k ∈ Finset.range (i + 1), c k :=
        Finset.sum_pos (fun k hk => hc k (by have := Finset.mem_range.1 hk; omega)) ⟨0, by simp⟩
      have hpos : 0 < s.target := by
        rw [ht, hT]
        have : (0 : K) ≤ s.j := Nat.cast_nonneg _
        apply div_pos <;> linarith
      have hz : (exact K).isZero s.target = false := by simp [exact, ne_of_gt hpos]
      rw [hz]
      simp only [Bool.false_eq_true, if_false]
      have hT' : s.total = (∑ k ∈ Finset.range i, c k) + (s.my + c i) := by
        rw [hT, Finset.sum_range_succ]; ring
      have hci := hc i (by omega)
      split
      · rename_i hg
        simp only [Bool.and_eq_true, decide_eq_true_eq] at hg
        apply ih (by omega)
        · simp; omega
        · show s.total - (s.my + c i) = _ + 0
          rw [hT']; ring
        · exact le_refl _
        · show (s.total - (s.my + c i)) / ((s.j - 1 + 1 : Nat) : K) = (s.total - (s.my + c i)) / _
          push_cast; rfl
      · apply ih (by omega)
        · show s.j < i
          omega
        · exact hT'
        · show 0 ≤ s.my + c i
          linarith
        · exact ht

/-- **C14** With positive costs and enough blocks the load balancer does not abort. -/
theorem positive_costs_never_abort (c : Nat → K) (nb nranks threads : Nat) (hn : 0 < nranks)
    (ht : 0 < threads) (hb : nranks * threads ≤ nb) (hc : ∀ i, i < nb → 0 < c i) :
    ∃ o, calculateLoadBalance (exact K) c nb nranks threads = some o := by
  have hle : nranks * 1 ≤ nranks * threads := Nat.mul_le_mul_left _ ht
  obtain ⟨rl, h⟩ := rankLoop_some c hc nb (Nat.le_refl _)
    ⟨nranks - 1, totalCost (exact K) c nb, (exact K).divN (totalCost (exact K) c nb) nranks, 0, fun _ => 0⟩
    (by simp; omega) (by simp [totalCost_eq]) (le_refl _) (by
      obtain ⟨n, rfl⟩ : ∃ n, nranks = n + 1 := ⟨nranks - 1, by omega⟩
      show _ / ((n + 1 : Nat) : K) = _
      push_cast; rfl)
  unfold calculateLoadBalance
  simp only
  have h' : rankLoop (exact K) c nb ⟨nranks - 1, totalCost (exact K) c nb,
    (exact K).divN (totalCost (exact K) c nb) nranks, (exact K).zero, fun _ => 0⟩ = some rl := h
  rw [h']
  simp only
  rw [if_neg (by omega)]
  exact ⟨_, rfl⟩

example : ∀ i, i < 7 → (0 : Rat) < (fun i : Nat => (i : Rat) + 1) i := by
  intro i _; have : (0 : Rat) ≤ (i : Rat) := Nat.cast_nonneg _; simp only; linarith

/-- **C14 (negation for zero costs)** With costs that are all zero the load balancer aborts with "at
least one process has no MeshBlock" whenever there are more blocks than processes. -/
theorem zero_costs_abort (nb nranks threads : Nat) (hn : 0 < nranks) (hb : nranks < nb) :
    calculateLoadBalance (exact K) (fun _ => 0) nb nranks threads = none := by
  obtain ⟨n, rfl⟩ : ∃ n, nb = n + 1 := ⟨nb - 1, by omega⟩
  unfold calculateLoadBalance rankLoop
  simp only
  rw [if_neg (by omega), if_pos]
  rw [totalCost_eq]
  simp [exact]

/-- Load of rank `r` restricted to the blocks `n ≤ i < nb`. -/
def loadFrom (c : Nat → K) (rl : Nat → Nat) (n nb r : Nat) : K :=
  ∑ i ∈ (Finset.Ico n nb).filter (fun i => rl i = r), c i

theorem loadFrom_congr (c : Nat → K) {rl rl' : Nat → Nat} {n nb r : Nat}
    (h : ∀ i, n ≤ i → i < nb → rl i = rl' i) : loadFrom c rl n nb r = loadFrom c rl' n nb r := by
  unfold loadFrom
  congr 1
  apply Finset.filter_congr
  intro i hi
  obtain ⟨a, b⟩ := Finset.mem_Ico.1 hi
  rw [h i a b]

theorem loadFrom_step (c : Nat → K) (rl : Nat → Nat) {n nb : Nat} (h : n < nb) (r : Nat) :
    loadFrom c rl n nb r = (if rl n = r then c n else 0) + loadFrom c rl (n + 1) nb r := by
  unfold loadFrom
  rw [Finset.sum_filter, Finset.sum_filter, Finset.sum_eq_sum_Ico_succ_bot h]

/-- Invariant of the rank loop for the quality bound. -/
structure Fair (c : Nat → K) (nb n : Nat) (avg cmax : K) (s : Loop K) : Prop where
  le : n ≤ nb
  total : s.total = (∑ i ∈ Finset.range n, c i) + s.my
  my0 : 0 ≤ s.my
  target : s.target = s.total / ((s.j : K) + 1)
  tavg : s.target ≤ avg
  below : 0 < s.j → s.my < s.target ∨ s.my = 0
  mine : loadFrom c s.rlist n nb s.j = s.my
  done : ∀ r, s.j < r → loadFrom c s.rlist n nb r ≤ avg + cmax
  none : ∀ r, r < s.j → loadFrom c s.rlist n nb r = 0

theorem loadFrom_fill (c : Nat → K) {rl : Nat → Nat} {n nb r : Nat} (h : n ≤ nb) (hid : ∀ i, i < n → rl i = i) :
    loadFrom c rl 0 nb r = (if r < n then c r else 0) + loadFrom c rl n nb r := by
  induction n with
  | zero => simp
  | succ n ih =>
    rw [ih (by omega) (fun i hi => hid i (by omega)), loadFrom_step c rl (n := n) (by omega), hid n (by omega)]
    by_cases h1 : r < n
    · rw [if_pos h1, if_pos (show r < n + 1 by omega), if_neg (show ¬ n = r by omega)]; ring
    · by_cases h2 : n = r
      · subst h2; simp
      · rw [if_neg h1, if_neg h2, if_neg (show ¬ r < n + 1 by omega)]; ring

theorem rankLoop_fair (c : Nat → K) {nb : Nat} {avg cmax : K} (hc : ∀ i, i < nb → 0 ≤ c i ∧ c i ≤ cmax)
    (ha : 0 ≤ avg) (_hcm : 0 ≤ cmax) (n : Nat) (s : Loop K) (hj : s.j < n) (hf : Fair c nb n avg cmax s)
    {rl : Nat → Nat} (h : rankLoop (exact K) c n s = some rl) (r : Nat) :
    loadFrom c rl 0 nb r ≤ avg + cmax := by
  induction n generalizing s with
  | zero => omega
  | succ i ih =>
    have hle := hf.le
    obtain ⟨c0, c1⟩ := hc i (by omega)
    have hmyavg : s.my ≤ avg := by
      have hs0 : 0 ≤ ∑ k ∈ Finset.range (i + 1), c k :=
        Finset.sum_nonneg (fun k hk => (hc k (by have := Finset.mem_range.1 hk; omega)).1)
      rcases Nat.eq_zero_or_pos s.j with h0 | h0
      · have h1 := hf.target
        rw [h0] at h1
        simp only [Nat.cast_zero, zero_add, div_one] at h1
        have h2 := hf.total
        have h3 := hf.tavg
        linarith
      · rcases hf.below h0 with h1 | h1
        · exact le_trans (le_of_lt h1) hf.tavg
        · rw [h1]; exact ha
    unfold rankLoop at h
    split at h
    · rename_i hij
      cases h
      rw [loadFrom_fill c (n := i + 1) hle (fun k hk => by simp; omega),
        loadFrom_congr c (rl' := s.rlist) (fun k hk _ => by simp; omega)]
      by_cases h1 : r < i + 1
      · rw [if_pos h1]
        by_cases h2 : r = s.j
        · subst h2
          rw [hf.mine]
          have := (hc s.j (by omega)).2
          linarith
        · rw [hf.none r (by omega)]
          have := (hc r (by omega)).2
          linarith
      · rw [if_neg h1]
        have := hf.done r (by omega)
        linarith
    · rename_i hij
      split at h
      · cases h
      · have hT' : s.total = (∑ k ∈ Finset.range i, c k) + (s.my + c i) := by
          rw [hf.total, Finset.sum_range_succ]; ring
        have hload : ∀ r, loadFrom c (upd s.rlist i s.j) i nb r =
            (if s.j = r then c i else 0) + loadFrom c s.rlist (i + 1) nb r := by
          intro r
          rw [loadFrom_step c _ (by omega), loadFrom_congr c (rl' := s.rlist) (n := i + 1)
            (fun k hk _ => by simp only [upd]; rw [if_neg (by omega)])]
          simp [upd]
        simp only at h
        split at h
        · rename_i hg
          simp only [Bool.and_eq_true, decide_eq_true_eq] at hg
          obtain ⟨hg1, hg2⟩ := hg
          have hg1 : s.target ≤ s.my + c i := by simpa [exact] using hg1
          refine ih _ (by simp; omega) ⟨by omega, ?_, le_refl _, ?_, ?_, ?_, ?_, ?_, ?_⟩ h
          · show s.total - (s.my + c i) = _ + 0
            rw [hT']; ring
          · show (s.total - (s.my + c i)) / ((s.j - 1 + 1 : Nat) : K) = (s.total - (s.my + c i)) / _
            push_cast; rfl
          · show (s.total - (s.my + c i)) / ((s.j - 1 + 1 : Nat) : K) ≤ avg
            refine le_trans ?_ hf.tavg
            have hjp : (0 : K) < ((s.j - 1 + 1 : Nat) : K) := by exact_mod_cast Nat.succ_pos _
            rw [div_le_iff₀ hjp]
            have e : ((s.j - 1 + 1 : Nat) : K) = (s.j : K) := by rw [Nat.sub_add_cancel hg2]
            rw [e] at hjp ⊢
            have ht := hf.target
            have : s.total = s.target * ((s.j : K) + 1) := by
              rw [ht]; field_simp
            linarith
          · intro _; right; rfl
          · show loadFrom c (upd s.rlist i s.j) i nb (s.j - 1) = 0
            rw [hload, if_neg (by omega), hf.none _ (by omega)]; ring
          · intro r hr
            have hr : s.j - 1 < r := hr
            show loadFrom c (upd s.rlist i s.j) i nb r ≤ _
            rw [hload]
            by_cases h2 : s.j = r
            · subst h2
              rw [if_pos rfl, hf.mine]; linarith
            · rw [if_neg h2]
              have := hf.done r (by omega)
              linarith
          · intro r hr
            have hr : r < s.j - 1 := hr
            show loadFrom c (upd s.rlist i s.j) i nb r = 0
            rw [hload, if_neg (by omega), hf.none _ (by omega)]; ring
        · rename_i hg
          refine ih ⟨s.j, s.total, s.target, s.my + c i, upd s.rlist i s.j⟩ (by show s.j < i; omega) ⟨by omega, hT', ?_, hf.target, hf.tavg, ?_, ?_, ?_, ?_⟩ h
          · show 0 ≤ s.my + c i
            have := hf.my0; linarith
          · intro h0
            left
            show s.my + c i < s.target
            by_contra hcon
            exact hg (by simp [exact]; exact ⟨not_lt.1 hcon, h0⟩)
          · show loadFrom c (upd s.rlist i s.j) i nb s.j = s.my + c i
            rw [hload, if_pos rfl, hf.mine]; ring
          · intro r hr
            have hr : s.j < r := hr
            show loadFrom c (upd s.rlist i s.j) i nb r ≤ _
            rw [hload, if_neg (by omega)]
            have := hf.done r hr
            linarith
          · intro r hr
            have hr : r < s.j := hr
            show loadFrom c (upd s.rlist i s.j) i nb r = 0
            rw [hload, if_neg (by omega), hf.none _ hr]; ring

/-- **C54** Quality of the distribution: with non-negative costs no process gets more than the
average load plus the cost of the most expensive block. -/
theorem load_bound (c : Nat → K) (nb nranks threads : Nat) (hn : 0 < nranks) (ht : 0 < threads)
    (cmax : K) (hc : ∀ i, i < nb → 0 ≤ c i ∧ c i ≤ cmax) {o : Out}
    (h : calculateLoadBalance (exact K) c nb nranks threads = some o) (r : Nat) :
    ∑ i ∈ (Finset.range nb).filter (fun i => o.rlist i = r), c i ≤
      (∑ i ∈ Finset.range nb, c i) / nranks + cmax := by
  have hnb := (ranges_partition _ c nb nranks threads hn ht h).1
  unfold calculateLoadBalance at h
  simp only at h
  split at h
  · cases h
  rename_i rl hrl
  split at h
  · cases h
  cases h
  have hs0 : 0 ≤ ∑ k ∈ Finset.range nb, c k :=
    Finset.sum_nonneg (fun k hk => (hc k (Finset.mem_range.1 hk)).1)
  have hn0 : (0 : K) ≤ nranks := Nat.cast_nonneg _
  have := rankLoop_fair c (avg := (∑ i ∈ Finset.range nb, c i) / nranks) hc (div_nonneg hs0 hn0)
    (le_trans (hc 0 (by omega)).1 (hc 0 (by omega)).2) nb _ (by simp; omega)
    ⟨le_refl _, by rw [totalCost_eq]; simp [exact], le_refl _, by
      obtain ⟨n, rfl⟩ : ∃ n, nranks = n + 1 := ⟨nranks - 1, by omega⟩
      show _ / ((n + 1 : Nat) : K) = _
      push_cast; rfl, by show totalCost (exact K) c nb / _ ≤ _; rw [totalCost_eq], fun _ => .inr rfl,
      by simp [loadFrom, exact], by
        intro r _
        have h1 : 0 ≤ (∑ i ∈ Finset.range nb, c i) / (nranks : K) := div_nonneg hs0 hn0
        have h2 := le_trans (hc 0 (by omega)).1 (hc 0 (by omega)).2
        simp [loadFrom]; linarith, by simp [loadFrom]⟩ hrl r
  unfold loadFrom at this
  rwa [← Finset.range_eq_Ico] at this

example : ∀ i, i < 7 → 0 ≤ (fun i : Nat => (i : Rat) + 1) i ∧ (fun i : Nat => (i : Rat) + 1) i ≤ 7 := by
  intro i hi
  have h0 : (0 : Rat) ≤ i := Nat.cast_nonneg _
  have h1 : (i : Rat) ≤ 6 := by exact_mod_cast (by omega : i ≤ 6)
  simp only
  constructor <;> linarith

end field
end Verif.LoadBalance
