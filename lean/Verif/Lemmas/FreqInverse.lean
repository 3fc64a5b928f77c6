import Verif.Lemmas.FreqMap

namespace Verif.FreqMap

open scoped BigOperators

/-! ### Order of the rows -/

theorem up_le_of {n : ℕ} {g : ℕ → ℝ} {x : ℝ} {k l q : ℕ} (hk : n ≤ k + l + 1) (hlq : l ≤ q)
    (hq : q ≤ n - 1) (h : q < n - 1 → x ≤ g (q + 1)) : up n g x k l ≤ q := by
  by_contra hc
  obtain ⟨-, b, -, d⟩ := up_spec n g x k l hk (hlq.trans hq)
  have h1 := d q hlq (by omega)
  have h2 := h (by omega)
  linarith

theorem le_down_of {g : ℕ → ℝ} {x : ℝ} {r q : ℕ} (hq : q ≤ r) (h : 0 < q → g q ≤ x) :
    q ≤ down g x r := by
  by_contra hc
  obtain ⟨-, -, c⟩ := down_spec g x r
  have h1 := c q (by omega) hq
  have h2 := h (by omega)
  linarith

/-- The rows move to higher bins with the source bin. -/
structure MonoRows (n : ℕ) (R : ℕ → Row) : Prop where
  lo : ∀ f f', f ≤ f' → f' < n → (R f).lo ≤ (R f').lo
  hi : ∀ f f', f ≤ f' → f' < n → (R f).hi ≤ (R f').hi

theorem mono_up (tiny : ℝ) {n : ℕ} {g s : ℕ → ℝ} (fc : ℕ → ℝ) (old : ℕ → ℕ → ℝ)
    (hs : Grid n s) : MonoRows n (rowUp tiny n g s fc old) := by
  have h2 := hs.two
  have key : ∀ f, f < n - 1 → f ≤ up n g (s f) n f ∧ up n g (s f) n f ≤ n - 1 ∧
      up n g (s f) n f ≤ up n g (s (f + 1)) n (up n g (s f) n f) ∧
      up n g (s (f + 1)) n (up n g (s f) n f) ≤ n - 1 ∧
      (up n g (s f) n f < n - 1 → s f ≤ g (up n g (s f) n f + 1)) ∧
      (up n g (s (f + 1)) n (up n g (s f) n f) < n - 1 →
        s (f + 1) ≤ g (up n g (s (f + 1)) n (up n g (s f) n f) + 1)) := by
    intro f hf
    obtain ⟨a, b, c, -⟩ := up_spec n g (s f) n f (by omega) (by omega)
    obtain ⟨a', b', c', -⟩ := up_spec n g (s (f + 1)) n (up n g (s f) n f) (by omega) b
    exact ⟨a, b, a', b', c, c'⟩
  have hlo : ∀ f f', f ≤ f' → f' < n - 1 → up n g (s f) n f ≤ up n g (s f') n f' := by
    intro f f' h h'
    obtain ⟨a, b, -, -, c, -⟩ := key f' h'
    exact up_le_of (by omega) (h.trans a) b fun hq => (hs.mono h (by omega)).trans (c hq)
  constructor
  · intro f f' h h'
    unfold rowUp
    by_cases h1 : f' < n - 1
    · rw [if_pos h1, if_pos (by omega)]
      exact hlo f f' h h1
    · rw [if_neg h1]
      split
      · rename_i h3; exact (key f h3).2.1
      · exact le_rfl
  · intro f f' h h'
    unfold rowUp
    by_cases h1 : f' < n - 1
    · rw [if_pos h1, if_pos (by omega)]
      obtain ⟨-, -, a, b, -, c⟩ := key f' h1
      exact up_le_of (by omega) ((hlo f f' h h1).trans a) b
        fun hq => (hs.mono (by omega) (by omega)).trans (c hq)
    · rw [if_neg h1]
      split
      · rename_i h3; exact (key f h3).2.2.2.1
      · exact le_rfl

theorem mono_down (tiny : ℝ) {n : ℕ} {g s : ℕ → ℝ} (fc : ℕ → ℝ) (P : ℝ → ℝ) (nutr : ℝ)
    (old : ℕ → ℕ → ℝ) (hs : Grid n s) : MonoRows n (rowDown tiny n g s fc P nutr old) := by
  have h2 := hs.two
  have hhi : ∀ f f', f ≤ f' → f' < n - 1 → down g (s (f + 1)) f ≤ down g (s (f' + 1)) f' := by
    intro f f' h h'
    obtain ⟨a, b, -⟩ := down_spec g (s (f + 1)) f
    exact le_down_of (a.trans h) fun hq => (b hq).trans (hs.mono (by omega) (by omega))
  constructor
  · intro f f' h h'
    unfold rowDown
    by_cases h1 : f' < n - 1
    · rw [if_pos h1, if_pos (by omega)]
      obtain ⟨a, b, -⟩ := down_spec g (s f) (down g (s (f + 1)) f)
      exact le_down_of (a.trans (hhi f f' h h1))
        fun hq => (b hq).trans (hs.mono h (by omega))
    · rw [if_neg h1]
      split
      · rename_i h3
        obtain ⟨a, b, -⟩ := down_spec g (s f) (down g (s (f + 1)) f)
        have := (down_spec g (s (f + 1)) f).1
        dsimp only
        exact le_down_of (by omega) fun hq => (b hq).trans (hs.mono (by omega) (by omega))
      · exact le_rfl
  · intro f f' h h'
    unfold rowDown
    by_cases h1 : f' < n - 1
    · rw [if_pos h1, if_pos (by omega)]
      exact hhi f f' h h1
    · rw [if_neg h1]
      split
      · rename_i h3
        have := (down_spec g (s (f + 1)) f).1
        dsimp only; omega
      · exact le_rfl

/-! ### The triangular systems -/

/-- The source bins of bin `m`. -/
def srcs (n : ℕ) (R : ℕ → Row) (m : ℕ) : Finset ℕ :=
  (Finset.range n).filter fun f => (R f).lo ≤ m ∧ m ≤ (R f).hi

theorem mem_srcs {n : ℕ} {R : ℕ → Row} {m f : ℕ} :
    f ∈ srcs n R m ↔ f < n ∧ (R f).lo ≤ m ∧ m ≤ (R f).hi := by
  simp [srcs]

theorem map_srcs (n : ℕ) (R : ℕ → Row) (a : ℕ → ℝ) (m : ℕ) :
    mapFreq n R a m = ∑ f ∈ srcs n R m, a f * (R f).ratio (m - (R f).lo) := by
  unfold mapFreq srcs
  rw [Finset.sum_filter]

theorem srcs_up {n : ℕ} {R : ℕ → Row} (hm : MonoRows n R) (hlo : ∀ f < n, f ≤ (R f).lo)
    {m : ℕ} (hmn : m < n) (hd : (R m).lo ≤ m ∧ m ≤ (R m).hi) :
    0 < count n R m ∧ count n R m ≤ m + 1 ∧
      srcs n R m = (Finset.range (count n R m)).image fun j => m - j := by
  have hne : (srcs n R m).Nonempty := ⟨m, mem_srcs.mpr ⟨hmn, hd⟩⟩
  have hS : srcs n R m = Finset.Icc ((srcs n R m).min' hne) m := by
    ext f
    rw [Finset.mem_Icc]
    constructor
    · intro h
      refine ⟨Finset.min'_le _ _ h, ?_⟩
      have h1 := mem_srcs.mp h
      exact (hlo f h1.1).trans h1.2.1
    · rintro ⟨h1, h2⟩
      have h3 := mem_srcs.mp (Finset.min'_mem _ hne)
      exact mem_srcs.mpr ⟨by omega, (hm.lo f m h2 hmn).trans hd.1,
        h3.2.2.trans (hm.hi _ f h1 (by omega))⟩
  have hle : (srcs n R m).min' hne ≤ m := Finset.min'_le _ _ (mem_srcs.mpr ⟨hmn, hd⟩)
  have hc : count n R m = m + 1 - (srcs n R m).min' hne := by
    show (srcs n R m).card = _
    conv_lhs => rw [hS]
    simp
  generalize (srcs n R m).min' hne = p at *
  refine ⟨by omega, by omega, ?_⟩
  rw [hS, hc]
  ext f
  simp only [Finset.mem_Icc, Finset.mem_image, Finset.mem_range]
  constructor
  · intro h; exact ⟨m - f, by omega, by omega⟩
  · rintro ⟨j, h1, h2⟩; omega

theorem srcs_down {n : ℕ} {R : ℕ → Row} (hm : MonoRows n R) (hhi : ∀ f < n, (R f).hi ≤ f)
    {m : ℕ} (hmn : m < n) (hd : (R m).lo ≤ m ∧ m ≤ (R m).hi) :
    0 < count n R m ∧ m + count n R m ≤ n ∧
      srcs n R m = (Finset.range (count n R m)).image fun j => m + j := by
  have hne : (srcs n R m).Nonempty := ⟨m, mem_srcs.mpr ⟨hmn, hd⟩⟩
  have hS : srcs n R m = Finset.Icc m ((srcs n R m).max' hne) := by
    ext f
    rw [Finset.mem_Icc]
    constructor
    · intro h
      refine ⟨?_, Finset.le_max' _ _ h⟩
      have h1 := mem_srcs.mp h
      exact h1.2.2.trans (hhi f h1.1)
    · rintro ⟨h1, h2⟩
      have h3 := mem_srcs.mp (Finset.max'_mem _ hne)
      exact mem_srcs.mpr ⟨by omega, (hm.lo f _ h2 h3.1).trans h3.2.1,
        hd.2.trans (hm.hi m f h1 (by omega))⟩
  have hle : m ≤ (srcs n R m).max' hne := Finset.le_max' _ _ (mem_srcs.mpr ⟨hmn, hd⟩)
  have hlt : (srcs n R m).max' hne < n := (mem_srcs.mp (Finset.max'_mem _ hne)).1
  have hc : count n R m = (srcs n R m).max' hne + 1 - m := by
    show (srcs n R m).card = _
    conv_lhs => rw [hS]
    simp
  generalize (srcs n R m).max' hne = p at *
  refine ⟨by omega, by omega, ?_⟩
  rw [hS, hc]
  ext f
  simp only [Finset.mem_Icc, Finset.mem_image, Finset.mem_range]
  constructor
  · intro h; exact ⟨f - m, by omega, by omega⟩
  · rintro ⟨j, h1, h2⟩; omega

theorem map_up {n : ℕ} {R : ℕ → Row} (hm : MonoRows n R) (hlo : ∀ f < n, f ≤ (R f).lo)
    {m : ℕ} (hmn : m < n) (hd : (R m).lo ≤ m ∧ m ≤ (R m).hi) (a : ℕ → ℝ) :
    mapFreq n R a m = matUp n R m 0 * a m +
      ∑ j ∈ Finset.Ico 1 (count n R m), matUp n R m j * a (m - j) := by
  obtain ⟨h0, h1, h2⟩ := srcs_up hm hlo hmn hd
  have hmem : ∀ j, j < count n R m → m - j ∈ srcs n R m := by
    intro j hj; rw [h2]; exact Finset.mem_image.mpr ⟨j, Finset.mem_range.mpr hj, rfl⟩
  have h3 : mapFreq n R a m = ∑ j ∈ Finset.range (count n R m), matUp n R m j * a (m - j) := by
    rw [map_srcs, h2, Finset.sum_image]
    · apply Finset.sum_congr rfl
      intro j hj
      rw [Finset.mem_range] at hj
      have h4 := mem_srcs.mp (hmem j hj)
      unfold matUp
      rw [if_pos ⟨by omega, h4⟩, mul_comm]
    · intro i hi j hj hij
      simp only [Finset.coe_range, Set.mem_Iio] at hi hj
      dsimp only at hij
      omega
  rw [h3, Finset.range_eq_Ico, Finset.sum_eq_sum_Ico_succ_bot h0]
  rfl

theorem map_down {n : ℕ} {R : ℕ → Row} (hm : MonoRows n R) (hhi : ∀ f < n, (R f).hi ≤ f)
    {m : ℕ} (hmn : m < n) (hd : (R m).lo ≤ m ∧ m ≤ (R m).hi) (a : ℕ → ℝ) :
    mapFreq n R a m = matDown n R m 0 * a m +
      ∑ j ∈ Finset.Ico 1 (count n R m), matDown n R m j * a (m + j) := by
  obtain ⟨h0, h1, h2⟩ := srcs_down hm hhi hmn hd
  have hmem : ∀ j, j < count n R m → m + j ∈ srcs n R m := by
    intro j hj; rw [h2]; exact Finset.mem_image.mpr ⟨j, Finset.mem_range.mpr hj, rfl⟩
  have h3 : mapFreq n R a m = ∑ j ∈ Finset.range (count n R m), matDown n R m j * a (m + j) := by
    rw [map_srcs, h2, Finset.sum_image]
    · apply Finset.sum_congr rfl
      intro j hj
      rw [Finset.mem_range] at hj
      have h4 := mem_srcs.mp (hmem j hj)
      unfold matDown
      rw [if_pos h4, mul_comm]
    · intro i hi j hj hij
      dsimp only at hij
      omega
  rw [h3, Finset.range_eq_Ico, Finset.sum_eq_sum_Ico_succ_bot h0]
  rfl

theorem solveUp_stable (n : ℕ) (R : ℕ → Row) (input : ℕ → ℝ) {i k : ℕ} (h : i ≤ k) :
    solveUp n R input k i = solveUp n R input i i := by
  induction k with
  | zero => obtain rfl : i = 0 := by omega
            rfl
  | succ k ih =>
    rcases Nat.lt_or_ge k i with h1 | h1
    · obtain rfl : i = k + 1 := by omega
      rfl
    · rw [← ih h1]
      conv_lhs => unfold solveUp
      exact Function.update_of_ne (by omega) ..

theorem solveDown_stable (n : ℕ) (R : ℕ → Row) (input : ℕ → ℝ) {i k k' : ℕ} (h : n - 1 - i ≤ k')
    (hi : i < n) (hk : k' ≤ k) (hkn : k ≤ n - 1) :
    solveDown n R input k i = solveDown n R input k' i := by
  induction k with
  | zero => obtain rfl : k' = 0 := by omega
            rfl
  | succ k ih =>
    rcases Nat.lt_or_ge k k' with h1 | h1
    · obtain rfl : k' = k + 1 := by omega
      rfl
    · rw [← ih h1 (by omega)]
      conv_lhs => unfold solveDown
      exact Function.update_of_ne (by omega) ..

theorem solve_up {n : ℕ} {R : ℕ → Row} (hm : MonoRows n R) (hlo : ∀ f < n, f ≤ (R f).lo)
    (hd : ∀ f < n, (R f).lo ≤ f ∧ f ≤ (R f).hi) (hne : ∀ f < n, (R f).ratio (f - (R f).lo) ≠ 0)
    (input : ℕ → ℝ) {m : ℕ} (hmn : m < n) :
    mapFreq n R (solveUp n R input (n - 1)) m = input m := by
  rw [map_up hm hlo hmn (hd m hmn)]
  have hdiag : matUp n R m 0 ≠ 0 := by
    unfold matUp
    rw [if_pos ⟨Nat.zero_le _, by simpa using hmn, by simpa using hd m hmn⟩]
    simpa using hne m hmn
  obtain ⟨h0, h1, -⟩ := srcs_up hm hlo hmn (hd m hmn)
  have hst : ∀ i, i ≤ m → solveUp n R input (n - 1) i = solveUp n R input m i := by
    intro i hi
    rw [solveUp_stable n R input (show i ≤ n - 1 by omega), solveUp_stable n R input hi]
  rw [hst m le_rfl]
  have hsum : ∑ j ∈ Finset.Ico 1 (count n R m), matUp n R m j * solveUp n R input (n - 1) (m - j) =
      ∑ j ∈ Finset.Ico 1 (count n R m), matUp n R m j * solveUp n R input (m - 1) (m - j) := by
    apply Finset.sum_congr rfl
    intro j hj
    rw [Finset.mem_Ico] at hj
    rw [solveUp_stable n R input (show m - j ≤ n - 1 by omega),
      solveUp_stable n R input (show m - j ≤ m - 1 by omega)]
  rw [hsum]
  cases m with
  | zero =>
    have : count n R 0 = 1 := by omega
    rw [this]
    simp only [solveUp, Function.update_self, Finset.Ico_self, Finset.sum_empty, add_zero]
    field_simp
  | succ k =>
    simp only [solveUp, Function.update_self, Nat.add_sub_cancel]
    rw [mul_div_cancel₀ _ hdiag]
    ring

theorem solve_down {n : ℕ} {R : ℕ → Row} (hm : MonoRows n R) (hhi : ∀ f < n, (R f).hi ≤ f)
    (hd : ∀ f < n, (R f).lo ≤ f ∧ f ≤ (R f).hi) (hne : ∀ f < n, (R f).ratio (f - (R f).lo) ≠ 0)
    (input : ℕ → ℝ) {m : ℕ} (hmn : m < n) :
    mapFreq n R (solveDown n R input (n - 1)) m = input m := by
  rw [map_down hm hhi hmn (hd m hmn)]
  have hdiag : matDown n R m 0 ≠ 0 := by
    unfold matDown
    rw [if_pos ⟨by simpa using hmn, by simpa using hd m hmn⟩]
    simpa using hne m hmn
  obtain ⟨h0, h1, -⟩ := srcs_down hm hhi hmn (hd m hmn)
  rw [solveDown_stable n R input (k' := n - 1 - m) le_rfl hmn (by omega) le_rfl]
  have hsum : ∑ j ∈ Finset.Ico 1 (count n R m),
        matDown n R m j * solveDown n R input (n - 1) (m + j) =
      ∑ j ∈ Finset.Ico 1 (count n R m),
        matDown n R m j * solveDown n R input (n - 2 - m) (m + j) := by
    apply Finset.sum_congr rfl
    intro j hj
    rw [Finset.mem_Ico] at hj
    rw [solveDown_stable n R input (k' := n - 2 - m) (by omega) (by omega) (by omega) le_rfl]
  rw [hsum]
  rcases Nat.lt_or_ge m (n - 1) with h2 | h2
  · obtain ⟨k, hk⟩ : ∃ k, n - 1 - m = k + 1 := ⟨n - 2 - m, by omega⟩
    rw [hk, show n - 2 - m = k by omega]
    simp only [solveDown]
    rw [show n - 2 - k = m by omega]
    simp only [Function.update_self]
    rw [mul_div_cancel₀ _ hdiag]
    ring
  · obtain rfl : m = n - 1 := by omega
    have : count n R (n - 1) = 1 := by omega
    rw [this, Nat.sub_self]
    simp only [solveDown, Function.update_self, Finset.Ico_self, Finset.sum_empty, add_zero]
    field_simp

theorem diagOk_true {tiny : ℝ} {n nmax : ℕ} {R : ℕ → Row} {k f : ℕ}
    (h : diagOk tiny n nmax R k f = some true) :
    ∀ i, f ≤ i → i < f + k → (R i).lo ≤ i ∧ tiny ≤ (R i).ratio (i - (R i).lo) := by
  induction k generalizing f with
  | zero => intro i h1 h2; omega
  | succ k ih =>
    unfold diagOk at h
    split at h
    · rename_i h1
      split at h
      · simp at h
      · rename_i h2
        intro i h3 h4
        rcases Nat.lt_or_ge f i with h5 | h5
        · exact ih h i h5 (by omega)
        · obtain rfl : i = f := by omega
          exact ⟨h1.1, not_lt.mp h2⟩
    · simp at h

theorem inj_up {n : ℕ} {R : ℕ → Row} (hm : MonoRows n R) (hlo : ∀ f < n, f ≤ (R f).lo)
    (hd : ∀ f < n, (R f).lo ≤ f ∧ f ≤ (R f).hi) (hne : ∀ f < n, (R f).ratio (f - (R f).lo) ≠ 0)
    {a b : ℕ → ℝ} (h : ∀ m < n, mapFreq n R a m = mapFreq n R b m) : ∀ m < n, a m = b m := by
  intro m
  induction m using Nat.strong_induction_on with
  | _ m ih =>
    intro hmn
    have h1 := h m hmn
    rw [map_up hm hlo hmn (hd m hmn), map_up hm hlo hmn (hd m hmn)] at h1
    have hdiag : matUp n R m 0 ≠ 0 := by
      unfold matUp
      rw [if_pos ⟨Nat.zero_le _, by simpa using hmn, by simpa using hd m hmn⟩]
      simpa using hne m hmn
    obtain ⟨h0, h2, -⟩ := srcs_up hm hlo hmn (hd m hmn)
    have hsum : ∑ j ∈ Finset.Ico 1 (count n R m), matUp n R m j * a (m - j) =
        ∑ j ∈ Finset.Ico 1 (count n R m), matUp n R m j * b (m - j) := by
      apply Finset.sum_congr rfl
      intro j hj
      rw [Finset.mem_Ico] at hj
      rw [ih (m - j) (by omega) (by omega)]
    rw [hsum] at h1
    exact mul_left_cancel₀ hdiag (by linarith)

theorem inj_down {n : ℕ} {R : ℕ → Row} (hm : MonoRows n R) (hhi : ∀ f < n, (R f).hi ≤ f)
    (hd : ∀ f < n, (R f).lo ≤ f ∧ f ≤ (R f).hi) (hne : ∀ f < n, (R f).ratio (f - (R f).lo) ≠ 0)
    {a b : ℕ → ℝ} (h : ∀ m < n, mapFreq n R a m = mapFreq n R b m) : ∀ m < n, a m = b m := by
  have key : ∀ k m, m < n → n - 1 - m = k → a m = b m := by
    intro k
    induction k using Nat.strong_induction_on with
    | _ k ih =>
      intro m hmn hk
      have h1 := h m hmn
      rw [map_down hm hhi hmn (hd m hmn), map_down hm hhi hmn (hd m hmn)] at h1
      have hdiag : matDown n R m 0 ≠ 0 := by
        unfold matDown
        rw [if_pos ⟨by simpa using hmn, by simpa using hd m hmn⟩]
        simpa using hne m hmn
      obtain ⟨h0, h2, -⟩ := srcs_down hm hhi hmn (hd m hmn)
      have hsum : ∑ j ∈ Finset.Ico 1 (count n R m), matDown n R m j * a (m + j) =
          ∑ j ∈ Finset.Ico 1 (count n R m), matDown n R m j * b (m + j) := by
        apply Finset.sum_congr rfl
        intro j hj
        rw [Finset.mem_Ico] at hj
        rw [ih (n - 1 - (m + j)) (by omega) (m + j) (by omega) rfl]
      rw [hsum] at h1
      exact mul_left_cancel₀ hdiag (by linarith)
  intro m hm'
  exact key _ m hm' rfl

theorem up_lo_ge (tiny : ℝ) {n : ℕ} (g s fc : ℕ → ℝ) (old : ℕ → ℕ → ℝ) {f : ℕ} (hf : f < n) :
    f ≤ (rowUp tiny n g s fc old f).lo := by
  unfold rowUp
  split
  · exact (up_spec n g (s f) n f (by omega) (by omega)).1
  · dsimp only; omega

theorem down_hi_le (tiny : ℝ) {n : ℕ} (g s fc : ℕ → ℝ) (P : ℝ → ℝ) (nutr : ℝ) (old : ℕ → ℕ → ℝ)
    {f : ℕ} (_hf : f < n) : (rowDown tiny n g s fc P nutr old f).hi ≤ f := by
  unfold rowDown
  split
  · exact (down_spec g (s (f + 1)) f).1
  · dsimp only; omega

/-- Slots behind the last written one keep what they held. -/
theorem down_stale (tiny : ℝ) {n : ℕ} (g s fc : ℕ → ℝ) (P : ℝ → ℝ) (nutr : ℝ) (old : ℕ → ℕ → ℝ)
    {f j : ℕ} (h : (rowDown tiny n g s fc P nutr old f).hi -
      (rowDown tiny n g s fc P nutr old f).lo < j) :
    (rowDown tiny n g s fc P nutr old f).ratio j = old f j := by
  unfold rowDown at *
  split
  · rename_i h1
    rw [if_pos h1] at h
    dsimp only at h ⊢
    unfold splitLinear
    split
    · rw [if_neg (by omega)]
    · rw [if_neg (by omega), if_neg (by omega)]
  · rename_i h1
    rw [if_neg h1] at h
    dsimp only at h ⊢
    rw [if_neg (by omega), if_neg (by omega)]

/-- The diagonal lies in the rows which pass the test, provided unused slots hold no ratios. -/
theorem diag_in {tiny : ℝ} (ht : 0 < tiny) {n nmax : ℕ} {nu fc : ℕ → ℝ} {t : ℝ} {P : ℝ → ℝ}
    {nutr : ℝ} {old : ℕ → ℕ → ℝ} (hold : t < 1 → ∀ f j, old f j < tiny) {R : ℕ → Row}
    (hR : forward tiny n nmax nu fc t P nutr old = some R)
    (hd : diagOk tiny n nmax R n 0 = some true) :
    (∀ f < n, (R f).lo ≤ f ∧ f ≤ (R f).hi) ∧ ∀ f < n, (R f).ratio (f - (R f).lo) ≠ 0 := by
  have h1 := diagOk_true hd
  refine ⟨fun f hf => ⟨(h1 f (Nat.zero_le _) (by omega)).1, ?_⟩, fun f hf => ?_⟩
  · obtain ⟨h2, h3⟩ := h1 f (Nat.zero_le _) (by omega)
    obtain ⟨hn, -, ⟨htt, hR'⟩ | ⟨htt, hR'⟩⟩ := forward_cases hR
    · have := (rows_up tiny hn nu (fun i => nu i * t) fc old).le f hf
      rw [← hR'] at this
      have h4 := up_lo_ge tiny nu (fun i => nu i * t) fc old hf
      rw [← hR'] at h4
      omega
    · by_contra hc
      have h5 := (rows_down tiny hn nu (fun i => nu i * t) fc P nutr old).le f hf
      have := down_stale tiny (n := n) nu (fun i => nu i * t) fc P nutr old (f := f)
        (j := f - (R f).lo) (by rw [← hR'] at h5 ⊢; omega)
      rw [← hR'] at this
      have := hold htt f (f - (R f).lo)
      linarith
  · have := (h1 f (Nat.zero_le _) (by omega)).2
    linarith

end Verif.FreqMap
