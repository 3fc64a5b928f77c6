import Verif.Lemmas.FreqInverse

/-!
C98: the maps of the intensities between the frequency grids of the lab frame and of the co-moving
frame.
-/

namespace Verif.FreqMap

open scoped BigOperators

section

variable {tiny : ℝ} {n nmax : ℕ} {nu fc : ℕ → ℝ} {t : ℝ} {P : ℝ → ℝ} {nutr : ℝ}
  {old : ℕ → ℕ → ℝ} {R B : ℕ → Row}

/-- **C98.** The map to the grid of the co-moving frame moves intensity between the bins and creates
or loses none, whatever the spectrum, the shift and the grid. -/
theorem forward_energy (h : forward tiny n nmax nu fc t P nutr old = some R) (input : ℕ → ℝ) :
    ∑ m ∈ Finset.range n, mapFreq n R input m = ∑ f ∈ Finset.range n, input f := by
  obtain ⟨hn, -, ⟨-, rfl⟩ | ⟨-, rfl⟩⟩ := forward_cases h
  · exact map_total (rows_up tiny hn _ _ _ _) input
  · exact map_total (rows_down tiny hn _ _ _ _ _ _) input

/-- **C98.** The same for the map back. -/
theorem backward_energy (h : backward tiny n nmax nu fc t P nutr old = some R) (input : ℕ → ℝ) :
    ∑ m ∈ Finset.range n, mapFreq n R input m = ∑ f ∈ Finset.range n, input f := by
  obtain ⟨hn, -, ⟨-, rfl⟩ | ⟨-, rfl⟩⟩ := backward_cases h
  · exact map_total (rows_up tiny hn _ _ _ _) input
  · exact map_total (rows_down tiny hn _ _ _ _ _ _) input

theorem scale_le (hg : Grid n nu) (ht : t ≤ 1) {i : ℕ} (hi : i < n) : nu i * t ≤ nu i := by
  have := hg.nonneg hi
  nlinarith

theorem le_scale (hg : Grid n nu) (ht : 1 ≤ t) {i : ℕ} (hi : i < n) : nu i ≤ nu i * t := by
  have := hg.nonneg hi
  nlinarith

/-- **C98.** A bin with an upper end is spread in proportion to the integral of the linear spectrum
between its faces over the part of the shifted bin which lies in each bin. -/
theorem forward_share (htiny : 0 < tiny) (hg : Grid n nu) (ht : 0 < t)
    (h : forward tiny n nmax nu fc t P nutr old = some R) {f m : ℕ} (hf : f + 1 < n) (hm : m < n) :
    mapFreq n R (fun i => if i = f then 1 else 0) m *
      area (shape tiny (fc f) (fc (f + 1))).1 (shape tiny (fc f) (fc (f + 1))).2
        (nu f * t) (nu (f + 1) * t) (nu f * t) (nu (f + 1) * t) =
    overlap n nu (shape tiny (fc f) (fc (f + 1))).1 (shape tiny (fc f) (fc (f + 1))).2
        (nu f * t) (nu (f + 1) * t) m := by
  rw [single_map n R (by omega)]
  have hs := hg.scale ht
  have hf' : f < n - 1 := by omega
  obtain ⟨hn, -, ⟨h1, rfl⟩ | ⟨h1, rfl⟩⟩ := forward_cases h
  · refine coef_share (old := old f) hg htiny (hs.lt f hf) ?_ ?_ hm
    · unfold rowUp
      rw [if_pos hf']
      exact located_up hg (s := fun i => nu i * t) (fun i hi => le_scale hg h1 hi) hf'
    · unfold rowUp
      rw [if_pos hf']
  · refine coef_share (old := old f) hg htiny (hs.lt f hf) ?_ ?_ hm
    · unfold rowDown
      rw [if_pos hf']
      exact located_down hg hs (fun i hi => scale_le hg h1.le hi) hf'
    · unfold rowDown
      rw [if_pos hf']

/-- **C98.** The same for the map back, from the lab grid to the shifted one. -/
theorem backward_share (htiny : 0 < tiny) (hg : Grid n nu) (ht : 0 < t)
    (h : backward tiny n nmax nu fc t P nutr old = some R) {f m : ℕ} (hf : f + 1 < n) (hm : m < n) :
    mapFreq n R (fun i => if i = f then 1 else 0) m *
      area (shape tiny (fc f) (fc (f + 1))).1 (shape tiny (fc f) (fc (f + 1))).2
        (nu f) (nu (f + 1)) (nu f) (nu (f + 1)) =
    overlap n (fun i => nu i * t) (shape tiny (fc f) (fc (f + 1))).1
      (shape tiny (fc f) (fc (f + 1))).2 (nu f) (nu (f + 1)) m := by
  rw [single_map n R (by omega)]
  have hs := hg.scale ht
  have hf' : f < n - 1 := by omega
  obtain ⟨hn, -, ⟨h1, rfl⟩ | ⟨h1, rfl⟩⟩ := backward_cases h
  · refine coef_share (old := old f) hs htiny (hg.lt f hf) ?_ ?_ hm
    · unfold rowUp
      rw [if_pos hf']
      exact located_up hs (s := nu) (fun i hi => scale_le hg h1.le hi) hf'
    · unfold rowUp
      rw [if_pos hf']
  · refine coef_share (old := old f) hs htiny (hg.lt f hf) ?_ ?_ hm
    · unfold rowDown
      rw [if_pos hf']
      exact located_down hs hg (fun i hi => le_scale hg h1 hi) hf'
    · unfold rowDown
      rw [if_pos hf']

/-- **C98.** The last bin, which has no upper end, stays where it is when frequencies grow; when they
shrink it is spread as the tail of a black-body spectrum. -/
theorem forward_tail (htiny : 0 < tiny) (hg : Grid n nu) (ht : 0 < t)
    (h : forward tiny n nmax nu fc t P nutr old = some R) {m : ℕ} (hm : m < n) :
    mapFreq n R (fun i => if i = n - 1 then 1 else 0) m =
      if 1 ≤ t ∨ 1 - P nutr ≤ tiny then (if m = n - 1 then 1 else 0)
      else tailPart n nu P nutr (nu (n - 1) * t) m / (1 - P nutr) := by
  have h2 := hg.two
  rw [single_map n R (by omega)]
  have hs := hg.scale ht
  obtain ⟨hn, -, ⟨h1, rfl⟩ | ⟨h1, rfl⟩⟩ := forward_cases h
  · rw [if_pos (Or.inl h1)]
    unfold coef rowUp
    rw [if_neg (lt_irrefl _)]
    dsimp only
    by_cases h3 : m = n - 1
    · rw [if_pos h3, if_pos (by omega), if_pos (by omega)]
    · rw [if_neg h3, if_neg (by omega)]
  · rw [tail_share htiny fc old hg hs (fun i hi => scale_le hg h1.le hi) hm]
    by_cases h3 : 1 - P nutr > tiny
    · rw [if_pos h3, if_neg (by rintro (h4 | h4) <;> linarith)]
    · rw [if_neg h3, if_pos (Or.inr (not_lt.mp h3))]

/-- **C98.** No map makes an intensity negative: with face values from the code's reconstruction and
an increasing black-body integral of at most one. -/
theorem forward_nonneg (htiny : 0 < tiny) (hg : Grid n nu) (ht : 0 < t) {ir dnu : ℕ → ℝ}
    (hP : Monotone P) (hP1 : ∀ x, P x ≤ 1) (hnt : 0 ≤ nutr)
    (h : forward tiny n nmax nu (face ir dnu) t P nutr old = some R) {input : ℕ → ℝ}
    (hi : ∀ f < n, 0 ≤ input f) {m : ℕ} (hm : m < n) : 0 ≤ mapFreq n R input m := by
  rw [mapFreq_eq]
  apply Finset.sum_nonneg
  intro f hf
  rw [Finset.mem_range] at hf
  apply mul_nonneg (hi f hf)
  have hs := hg.scale ht
  obtain ⟨hn, -, ⟨h1, rfl⟩ | ⟨h1, rfl⟩⟩ := forward_cases h
  · by_cases hf' : f < n - 1
    · refine share_nonneg (old := old f) hg htiny (hs.lt f (by omega)) (face_nonneg ir dnu f)
        (face_nonneg ir dnu (f + 1)) ?_ ?_ hm
      · unfold rowUp
        rw [if_pos hf']
        exact located_up hg (s := fun i => nu i * t) (fun i hi => le_scale hg h1 hi) hf'
      · unfold rowUp
        rw [if_pos hf']
    · unfold coef rowUp
      rw [if_neg hf']
      dsimp only
      split
      · rw [if_pos (by omega)]; norm_num
      · exact le_rfl
  · by_cases hf' : f < n - 1
    · refine share_nonneg (old := old f) hg htiny (hs.lt f (by omega)) (face_nonneg ir dnu f)
        (face_nonneg ir dnu (f + 1)) ?_ ?_ hm
      · unfold rowDown
        rw [if_pos hf']
        exact located_down hg hs (fun i hi => scale_le hg h1.le hi) hf'
      · unfold rowDown
        rw [if_pos hf']
    · obtain rfl : f = n - 1 := by omega
      exact tail_nonneg htiny _ hnt hP hP1 old hg hs (fun i hi => scale_le hg h1.le hi) hm

/-- **C98.** The same for the map back. -/
theorem backward_nonneg (htiny : 0 < tiny) (hg : Grid n nu) (ht : 0 < t) {ir dnu : ℕ → ℝ}
    (hP : Monotone P) (hP1 : ∀ x, P x ≤ 1) (hnt : 0 ≤ nutr)
    (h : backward tiny n nmax nu (face ir dnu) t P nutr old = some R) {input : ℕ → ℝ}
    (hi : ∀ f < n, 0 ≤ input f) {m : ℕ} (hm : m < n) : 0 ≤ mapFreq n R input m := by
  rw [mapFreq_eq]
  apply Finset.sum_nonneg
  intro f hf
  rw [Finset.mem_range] at hf
  apply mul_nonneg (hi f hf)
  have hs := hg.scale ht
  obtain ⟨hn, -, ⟨h1, rfl⟩ | ⟨h1, rfl⟩⟩ := backward_cases h
  · by_cases hf' : f < n - 1
    · refine share_nonneg (old := old f) hs htiny (hg.lt f (by omega)) (face_nonneg ir dnu f)
        (face_nonneg ir dnu (f + 1)) ?_ ?_ hm
      · unfold rowUp
        rw [if_pos hf']
        exact located_up hs (s := nu) (fun i hi => scale_le hg h1.le hi) hf'
      · unfold rowUp
        rw [if_pos hf']
    · unfold coef rowUp
      rw [if_neg hf']
      dsimp only
      split
      · rw [if_pos (by omega)]; norm_num
      · exact le_rfl
  · by_cases hf' : f < n - 1
    · refine share_nonneg (old := old f) hs htiny (hg.lt f (by omega)) (face_nonneg ir dnu f)
        (face_nonneg ir dnu (f + 1)) ?_ ?_ hm
      · unfold rowDown
        rw [if_pos hf']
        exact located_down hs hg (fun i hi => le_scale hg h1 hi) hf'
      · unfold rowDown
        rw [if_pos hf']
    · obtain rfl : f = n - 1 := by omega
      exact tail_nonneg htiny _ hnt hP hP1 old hs hg (fun i hi => le_scale hg h1 hi) hm

/-- **C98.** When the inverse of the stored map is used, mapping its result gives the intensities it
was given: the linear system is solved.  Partial: for a shift to lower frequencies the slots of
`split_ratio` which this map did not write must not hold ratios of an earlier one (see
`stale_diagonal`). -/
theorem inverse_solves_partial (htiny : 0 < tiny) (hg : Grid n nu) (ht : 0 < t)
    (hold : t < 1 → ∀ f j, old f j < tiny)
    (h : forward tiny n nmax nu fc t P nutr old = some R)
    (hd : diagOk tiny n nmax R n 0 = some true) {input a : ℕ → ℝ}
    (ha : inverse n R t input = some a) {m : ℕ} (hm : m < n) : mapFreq n R a m = input m := by
  have hs := hg.scale ht
  obtain ⟨hin, hne⟩ := diag_in htiny hold h hd
  obtain ⟨hn, -, ⟨h1, rfl⟩ | ⟨h1, rfl⟩⟩ := forward_cases h
  · unfold inverse at ha
    rw [if_pos h1] at ha
    split at ha
    · simp at ha
    · obtain rfl := Option.some.inj ha
      exact solve_up (mono_up tiny fc old hs) (fun f hf => up_lo_ge tiny _ _ fc old hf) hin hne
        input hm
  · unfold inverse at ha
    rw [if_neg (not_le.mpr h1)] at ha
    split at ha
    · simp at ha
    · obtain rfl := Option.some.inj ha
      exact solve_down (mono_down tiny fc P nutr old hs)
        (fun f hf => down_hi_le tiny _ _ fc P nutr old hf) hin hne input hm

/-- **C98.** To the co-moving grid and back: if nothing happens in between, intensities return to
their values whenever the code finds the map invertible. -/
theorem round_trip_partial (htiny : 0 < tiny) (hg : Grid n nu) (ht : 0 < t)
    (hold : t < 1 → ∀ f j, old f j < tiny)
    (h : forward tiny n nmax nu fc t P nutr old = some R)
    (hd : diagOk tiny n nmax R n 0 = some true) {x : ℕ → ℝ} (hx : ∀ i < n, 0 ≤ x i)
    (B : Option (ℕ → Row)) :
    ∃ a, toLab tiny n nmax R B t (mapFreq n R x) = some a ∧ ∀ i < n, a i = x i := by
  have hs := hg.scale ht
  obtain ⟨hin, hne⟩ := diag_in htiny hold h hd
  have key : ∃ a, inverse n R t (mapFreq n R x) = some a ∧ ∀ i < n, a i = x i := by
    obtain ⟨hn, -, ⟨h1, rfl⟩ | ⟨h1, rfl⟩⟩ := forward_cases h
    · have hmono := mono_up tiny (g := nu) fc old hs
      have hlo := fun f hf => up_lo_ge tiny (n := n) nu (fun i => nu i * t) fc old (f := f) hf
      have heq := inj_up hmono hlo hin hne (a := solveUp n _ (mapFreq n _ x) (n - 1)) (b := x)
        (fun m hm => solve_up hmono hlo hin hne _ hm)
      refine ⟨_, ?_, heq⟩
      unfold inverse
      rw [if_pos h1, if_neg]
      rintro ⟨i, -, h3, h4⟩
      rw [heq i h3] at h4
      have := hx i h3
      linarith
    · have hmono := mono_down tiny (g := nu) fc P nutr old hs
      have hhi := fun f hf =>
        down_hi_le tiny (n := n) nu (fun i => nu i * t) fc P nutr old (f := f) hf
      have heq := inj_down hmono hhi hin hne (a := solveDown n _ (mapFreq n _ x) (n - 1)) (b := x)
        (fun m hm => solve_down hmono hhi hin hne _ hm)
      refine ⟨_, ?_, heq⟩
      unfold inverse
      rw [if_neg (not_le.mpr h1), if_neg]
      rintro ⟨i, h3, h4⟩
      rw [heq i (by omega)] at h4
      have := hx i (by omega)
      linarith
  obtain ⟨a, h1, h2⟩ := key
  refine ⟨a, ?_, h2⟩
  unfold toLab
  rw [hd]
  dsimp only
  rw [h1]

/-- **C98.** Whichever way the intensities return to the lab grid, their sum over frequency is
kept. -/
theorem lab_energy_partial (htiny : 0 < tiny) (hg : Grid n nu) (ht : 0 < t)
    (hold : t < 1 → ∀ f j, old f j < tiny)
    (h : forward tiny n nmax nu fc t P nutr old = some R) {fc' : ℕ → ℝ} {nutr' : ℝ}
    {input r : ℕ → ℝ}
    (hr : toLab tiny n nmax R (backward tiny n nmax nu fc' t P nutr' fun f => (R f).ratio) t input =
      some r) :
    ∑ i ∈ Finset.range n, r i = ∑ i ∈ Finset.range n, input i := by
  have hback : ∀ r, ((backward tiny n nmax nu fc' t P nutr' fun f => (R f).ratio).map
      fun b => mapFreq n b input) = some r →
      ∑ i ∈ Finset.range n, r i = ∑ i ∈ Finset.range n, input i := by
    intro r h1
    obtain ⟨b, h2, rfl⟩ := Option.map_eq_some_iff.mp h1
    exact backward_energy h2 input
  unfold toLab at hr
  split at hr
  · simp at hr
  · rename_i hd
    split at hr
    · rename_i a ha
      obtain rfl := Option.some.inj hr
      rw [← forward_energy h a]
      apply Finset.sum_congr rfl
      intro m hm
      exact inverse_solves_partial htiny hg ht hold h hd ha (Finset.mem_range.mp hm)
    · exact hback r hr
  · exact hback r hr

/-- **C98.** Whichever way they return, no intensity is negative. -/
theorem lab_nonneg_partial (htiny : 0 < tiny) (hg : Grid n nu) (ht : 0 < t)
    (hold : t < 1 → ∀ f j, old f j < tiny)
    (h : forward tiny n nmax nu fc t P nutr old = some R) {ir dnu : ℕ → ℝ} {nutr' : ℝ}
    (hP : Monotone P) (hP1 : ∀ x, P x ≤ 1) (hnt : 0 ≤ nutr') {input r : ℕ → ℝ}
    (hi : ∀ f < n, 0 ≤ input f)
    (hr : toLab tiny n nmax R (backward tiny n nmax nu (face ir dnu) t P nutr'
      fun f => (R f).ratio) t input = some r) {i : ℕ} (hin : i < n) : 0 ≤ r i := by
  have hback : ∀ r, ((backward tiny n nmax nu (face ir dnu) t P nutr' fun f => (R f).ratio).map
      fun b => mapFreq n b input) = some r → 0 ≤ r i := by
    intro r h1
    obtain ⟨b, h2, rfl⟩ := Option.map_eq_some_iff.mp h1
    exact backward_nonneg htiny hg ht hP hP1 hnt h2 hi hin
  unfold toLab at hr
  split at hr
  · simp at hr
  · rename_i hd
    split at hr
    · rename_i a ha
      obtain rfl := Option.some.inj hr
      obtain ⟨hdi, -⟩ := diag_in htiny hold h hd
      have hpos := diagOk_true hd
      have hs := hg.scale ht
      have hsol := fun m hm => inverse_solves_partial htiny hg ht hold h hd ha (m := m) hm
      obtain ⟨hn, -, ⟨h1, hR⟩ | ⟨h1, hR⟩⟩ := forward_cases h
      · by_cases h0 : i = 0
        · subst h0
          have hlo : ∀ f < n, f ≤ (R f).lo := fun f hf => by rw [hR]; exact up_lo_ge tiny _ _ fc old hf
          have hmono : MonoRows n R := by rw [hR]; exact mono_up tiny fc old hs
          have h3 := hsol 0 hin
          rw [map_up hmono hlo hin (hdi 0 hin)] at h3
          obtain ⟨h4, h5, -⟩ := srcs_up hmono hlo hin (hdi 0 hin)
          rw [show count n R 0 = 1 by omega, Finset.Ico_self, Finset.sum_empty, add_zero] at h3
          have h6 : tiny ≤ matUp n R 0 0 := by
            unfold matUp
            rw [if_pos ⟨le_rfl, by simpa using hin, by simpa using hdi 0 hin⟩]
            simpa using (hpos 0 le_rfl (by omega)).2
          have h7 := hi 0 hin
          rw [← h3] at h7
          exact nonneg_of_mul_nonneg_right h7 (by linarith)
        · unfold inverse at ha
          rw [if_pos h1] at ha
          split at ha
          · simp at ha
          · rename_i h3
            obtain rfl := Option.some.inj ha
            by_contra hc
            exact h3 ⟨i, by omega, hin, not_le.mp hc⟩
      · by_cases h0 : i = n - 1
        · have hhi : ∀ f < n, (R f).hi ≤ f :=
            fun f hf => by rw [hR]; exact down_hi_le tiny _ _ fc P nutr old hf
          have hmono : MonoRows n R := by rw [hR]; exact mono_down tiny fc P nutr old hs
          have h3 := hsol i hin
          rw [map_down hmono hhi hin (hdi i hin)] at h3
          obtain ⟨h4, h5, -⟩ := srcs_down hmono hhi hin (hdi i hin)
          rw [show count n R i = 1 by omega, Finset.Ico_self, Finset.sum_empty, add_zero] at h3
          have h6 : tiny ≤ matDown n R i 0 := by
            unfold matDown
            rw [if_pos ⟨by simpa using hin, by simpa using hdi i hin⟩]
            simpa using (hpos i (Nat.zero_le _) (by omega)).2
          have h7 := hi i hin
          rw [← h3] at h7
          exact nonneg_of_mul_nonneg_right h7 (by linarith)
        · unfold inverse at ha
          rw [if_neg (not_le.mpr h1)] at ha
          split at ha
          · simp at ha
          · rename_i h3
            obtain rfl := Option.some.inj ha
            by_contra hc
            exact h3 ⟨i, by omega, not_le.mp hc⟩
    · exact hback r hr
  · exact hback r hr

end

/-! ### Findings -/

/-- **C98, finding F100.** The search compares the frequency before the index: for every shift to
higher frequencies the last bin but one reads the entry behind the end of the grid. -/
theorem reads_past_end {n : ℕ} {nu : ℕ → ℝ} {t : ℝ} (hg : Grid n nu) (ht : 1 < t) {l : ℕ}
    (hl : l ≤ n - 1) : n ∈ upReads n nu (nu (n - 1) * t) n l := by
  have h2 := hg.two
  have hpos : 0 < nu (n - 1) := by
    have := hg.strict (show 0 < n - 1 by omega) (by omega)
    rwa [hg.zero] at this
  have hx : nu (n - 1) < nu (n - 1) * t := by nlinarith
  have key : ∀ k l, n ≤ k + l → l ≤ n - 1 → n ∈ upReads n nu (nu (n - 1) * t) k l := by
    intro k
    induction k with
    | zero => intro l h1 h2; omega
    | succ k ih =>
      intro l h1 h3
      unfold upReads
      rcases Nat.lt_or_ge l (n - 1) with h4 | h4
      · have h5 : nu (l + 1) < nu (n - 1) * t :=
          lt_of_le_of_lt (hg.mono (by omega) (by omega)) hx
        rw [if_pos ⟨h5, h4⟩]
        exact List.mem_cons_of_mem _ (ih (l + 1) (by omega) (by omega))
      · rw [show l + 1 = n by omega]
        exact List.mem_cons_self
  exact key n l (by omega) hl

/-- **C98, finding F101.** For a shift to higher frequencies by more than a bin the test of the
diagonal reads `split_ratio` at a negative index. -/
theorem diagonal_before_row {tiny : ℝ} {n nmax : ℕ} {nu fc : ℕ → ℝ} {t : ℝ} {P : ℝ → ℝ} {nutr : ℝ}
    {old : ℕ → ℕ → ℝ} {R : ℕ → Row} (ht : 1 ≤ t)
    (h : forward tiny n nmax nu fc t P nutr old = some R) {f : ℕ} (hf : f < n - 1)
    (hshift : nu (f + 1) < nu f * t) :
    f < (R f).lo ∧ ((∀ i < f, (R i).lo ≤ i ∧ i - (R i).lo < nmax ∧
      tiny ≤ (R i).ratio (i - (R i).lo)) → diagOk tiny n nmax R n 0 = none) := by
  have hlo : f < (R f).lo := by
    obtain ⟨hn, -, ⟨h1, rfl⟩ | ⟨h1, rfl⟩⟩ := forward_cases h
    · unfold rowUp
      rw [if_pos hf]
      dsimp only
      obtain ⟨a, b, c, -⟩ := up_spec n nu (nu f * t) n f (by omega) (by omega)
      by_contra hc
      have h3 : up n nu (nu f * t) n f = f := by omega
      rw [h3] at c
      have := c hf
      linarith
    · linarith
  refine ⟨hlo, fun hprev => ?_⟩
  have key : ∀ k i, i ≤ f → f < i + k → diagOk tiny n nmax R k i = none := by
    intro k
    induction k with
    | zero => intro i h1 h2; omega
    | succ k ih =>
      intro i h1 h2
      unfold diagOk
      rcases Nat.lt_or_ge i f with h3 | h3
      · obtain ⟨h4, h5, h6⟩ := hprev i h3
        rw [if_pos ⟨h4, h5⟩, if_neg (not_lt.mpr h6)]
        exact ih (i + 1) (by omega) (by omega)
      · obtain rfl : i = f := by omega
        rw [if_neg]
        rintro ⟨h4, -⟩
        omega
  exact key n 0 (Nat.zero_le _) (by omega)

/-- **C98, finding F102.** The width of the last row is not compared with the number of slots: when
the whole grid is shifted below the first positive face, no error is raised and the last row needs a
slot for every bin. -/
theorem last_row_too_wide {tiny : ℝ} {n nmax : ℕ} {nu fc : ℕ → ℝ} {t : ℝ} {P : ℝ → ℝ} {nutr : ℝ}
    {old : ℕ → ℕ → ℝ} (hg : Grid n nu) (ht : 0 < t) (ht1 : t < 1) (hshift : nu (n - 1) * t < nu 1)
    (hmax : 1 ≤ nmax) :
    ∃ R, forward tiny n nmax nu fc t P nutr old = some R ∧
      (R (n - 1)).hi - (R (n - 1)).lo + 1 = n := by
  have h2 := hg.two
  have hs := hg.scale ht
  have hz : ∀ x r, x < nu 1 → r < n → down nu x r = 0 := by
    intro x r hx hr
    obtain ⟨a, b, -⟩ := down_spec nu x r
    by_contra hc
    have h3 := b (by omega)
    have h4 := hg.mono (show 1 ≤ down nu x r by omega) (by omega)
    linarith
  refine ⟨rowDown tiny n nu (fun i => nu i * t) fc P nutr old, ?_, ?_⟩
  · unfold forward
    dsimp only
    rw [if_neg (not_le.mpr ht1), if_pos]
    refine ⟨h2, fun f hf => ?_⟩
    unfold rowDown
    rw [if_pos hf]
    dsimp only
    have h3 : down nu (nu (f + 1) * t) f = 0 :=
      hz _ _ (lt_of_le_of_lt (hs.mono (show f + 1 ≤ n - 1 by omega) (by omega)) hshift) (by omega)
    rw [h3]
    omega
  · unfold rowDown
    rw [if_neg (lt_irrefl _)]
    dsimp only
    rw [hz _ _ hshift (by omega)]
    omega

/-- **C98, finding F103.** For a shift to lower frequencies by more than a bin the diagonal is not in
the row; the test then looks at a slot which this map has not written, and a value left there by an
earlier cell makes the code divide by the zero on the diagonal of the matrix. -/
theorem stale_diagonal {tiny : ℝ} {n nmax : ℕ} {nu fc : ℕ → ℝ} {t : ℝ} {P : ℝ → ℝ} {nutr : ℝ}
    {old : ℕ → ℕ → ℝ} {R : ℕ → Row} (ht1 : t < 1)
    (h : forward tiny n nmax nu fc t P nutr old = some R) {f : ℕ} (h0 : 0 < f) (hf : f < n - 1)
    (hshift : nu (f + 1) * t < nu f) :
    (R f).ratio (f - (R f).lo) = old f (f - (R f).lo) ∧ matDown n R f 0 = 0 := by
  obtain ⟨hn, -, ⟨h1, hR⟩ | ⟨h1, hR⟩⟩ := forward_cases h
  · linarith
  have hhi : (R f).hi < f := by
    rw [hR]
    unfold rowDown
    rw [if_pos hf]
    dsimp only
    obtain ⟨a, b, -⟩ := down_spec nu (nu (f + 1) * t) f
    by_contra hc
    have h3 : down nu (nu (f + 1) * t) f = f := by omega
    rw [h3] at b
    have := b h0
    linarith
  have hle : (R f).lo ≤ (R f).hi := by
    rw [hR]; exact (rows_down tiny hn ..).le f (by omega)
  constructor
  · have := down_stale tiny (n := n) nu (fun i => nu i * t) fc P nutr old (f := f)
      (j := f - (R f).lo) (by rw [← hR]; omega)
    rwa [← hR] at this
  · unfold matDown
    rw [if_neg]
    rintro ⟨-, -, h4⟩
    simp at h4
    omega

/-! ### The hypotheses are met -/

/-- A grid of four bins. -/
noncomputable def grid4 (i : ℕ) : ℝ := i

theorem grid4_grid : Grid 4 grid4 where
  two := by norm_num
  zero := by simp [grid4]
  lt i _ := by simp [grid4]

/-- A shift by an eighth to higher frequencies is accepted, the last rows reach the next bin and the
diagonal is found. -/
theorem grid4_forward : ∃ R, forward (1 / 10 ^ 20) 4 3 grid4 (fun _ => 0) (9 / 8) (fun _ => 0) 1
    (fun _ _ => 0) = some R ∧ (R 2).lo = 2 ∧ (R 2).hi = 3 ∧
      diagOk (1 / 10 ^ 20) 4 3 R 4 0 = some true := by
  refine ⟨rowUp (1 / 10 ^ 20) 4 grid4 (fun i => grid4 i * (9 / 8)) (fun _ => 0) (fun _ _ => 0),
    ?_, ?_, ?_, ?_⟩
  · unfold forward
    dsimp only
    rw [if_pos (show (9 / 8 : ℝ) ≥ 1 by norm_num), if_pos]
    refine ⟨by norm_num, fun f hf => ?_⟩
    have : f = 0 ∨ f = 1 ∨ f = 2 := by omega
    rcases this with rfl | rfl | rfl <;> norm_num [rowUp, up, grid4]
  · norm_num [rowUp, up, grid4]
  · norm_num [rowUp, up, grid4]
  · norm_num [diagOk, rowUp, up, grid4, splitLinear, piece]

example : ∃ R, forward (1 / 10 ^ 20) 4 3 grid4 (fun _ => 0) (9 / 8) (fun _ => 0) 1
    (fun _ _ => 0) = some R ∧ ∀ x : ℕ → ℝ, (∀ i < 4, 0 ≤ x i) → ∀ B,
    ∃ a, toLab (1 / 10 ^ 20) 4 3 R B (9 / 8) (mapFreq 4 R x) = some a ∧ ∀ i < 4, a i = x i := by
  obtain ⟨R, h, -, -, hd⟩ := grid4_forward
  exact ⟨R, h, fun x hx B => round_trip_partial (by norm_num) grid4_grid (by norm_num)
    (fun h => by norm_num at h) h hd hx B⟩

example : grid4 (4 - 1) * (1 / 4) < grid4 1 := by norm_num [grid4]

example : grid4 (1 + 1) * (1 / 4) < grid4 1 := by norm_num [grid4]

example : grid4 (2 + 1) < grid4 2 * 2 := by norm_num [grid4]

end Verif.FreqMap
