import Verif.Model.FreqMap
import Verif.Spec.FreqMap
import Mathlib.Tactic

namespace Verif.FreqMap

open scoped BigOperators

/-! ### The searches -/

theorem up_spec (n : ℕ) (g : ℕ → ℝ) (x : ℝ) (k l : ℕ) (hk : n ≤ k + l + 1) (hl : l ≤ n - 1) :
    l ≤ up n g x k l ∧ up n g x k l ≤ n - 1 ∧
    (up n g x k l < n - 1 → x ≤ g (up n g x k l + 1)) ∧
    ∀ i, l ≤ i → i < up n g x k l → g (i + 1) < x := by
  induction k generalizing l with
  | zero =>
    simp only [up]
    exact ⟨le_rfl, hl, fun h => by omega, fun i h1 h2 => by omega⟩
  | succ k ih =>
    simp only [up]
    split
    · rename_i h
      obtain ⟨a, b, c, d⟩ := ih (l + 1) (by omega) (by omega)
      refine ⟨by omega, b, c, fun i h1 h2 => ?_⟩
      rcases Nat.lt_or_ge l i with h3 | h3
      · exact d i h3 h2
      · have : i = l := by omega
        subst this; exact h.1
    · rename_i h
      refine ⟨le_rfl, hl, fun h1 => ?_, fun i h1 h2 => by omega⟩
      by_contra h2
      exact h ⟨lt_of_not_ge h2, h1⟩

theorem down_spec (g : ℕ → ℝ) (x : ℝ) (r : ℕ) :
    down g x r ≤ r ∧ (0 < down g x r → g (down g x r) ≤ x) ∧
    ∀ i, down g x r < i → i ≤ r → x < g i := by
  induction r with
  | zero => simp [down]; intro i h1 h2; omega
  | succ r ih =>
    simp only [down]
    split
    · rename_i h
      obtain ⟨a, b, c⟩ := ih
      refine ⟨by omega, b, fun i h1 h2 => ?_⟩
      rcases Nat.lt_or_ge r i with h3 | h3
      · have : i = r + 1 := by omega
        subst this; exact h
      · exact c i h1 h3
    · rename_i h
      exact ⟨le_rfl, fun _ => not_lt.mp h, fun i h1 h2 => by omega⟩

/-- Where a source bin `[nul, nur]` lies on the grid `g` of `n` faces. -/
structure Located (n : ℕ) (g : ℕ → ℝ) (nul nur : ℝ) (lo hi : ℕ) : Prop where
  le : lo ≤ hi
  lt : hi < n
  inner : ∀ i, lo < i → i ≤ hi → nul ≤ g i ∧ g i ≤ nur
  left : g lo ≤ nul
  right : hi < n - 1 → nur ≤ g (hi + 1)

theorem Grid.strict {n : ℕ} {g : ℕ → ℝ} (h : Grid n g) {i j : ℕ} (hij : i < j) (hj : j < n) :
    g i < g j := by
  induction j with
  | zero => omega
  | succ j ih =>
    rcases Nat.lt_or_ge i j with h1 | h1
    · exact (ih h1 (by omega)).trans (h.lt j hj)
    · have : i = j := by omega
      subst this; exact h.lt i hj

theorem Grid.mono {n : ℕ} {g : ℕ → ℝ} (h : Grid n g) {i j : ℕ} (hij : i ≤ j) (hj : j < n) :
    g i ≤ g j := by
  rcases Nat.lt_or_ge i j with h1 | h1
  · exact (h.strict h1 hj).le
  · have : i = j := by omega
    subst this; exact le_rfl

theorem Grid.nonneg {n : ℕ} {g : ℕ → ℝ} (h : Grid n g) {j : ℕ} (hj : j < n) : 0 ≤ g j := by
  rw [← h.zero]; exact h.mono (Nat.zero_le _) hj

theorem Grid.scale {n : ℕ} {g : ℕ → ℝ} (h : Grid n g) {t : ℝ} (ht : 0 < t) :
    Grid n (fun i => g i * t) where
  two := h.two
  zero := by simp [h.zero]
  lt i hi := by simpa using mul_lt_mul_of_pos_right (h.lt i hi) ht

theorem located_up {n : ℕ} {g s : ℕ → ℝ} (hg : Grid n g)
    (hgs : ∀ i, i < n → g i ≤ s i) {f : ℕ} (hf : f < n - 1) :
    Located n g (s f) (s (f + 1)) (up n g (s f) n f)
      (up n g (s (f + 1)) n (up n g (s f) n f)) := by
  obtain ⟨a, b, c, d⟩ := up_spec n g (s f) n f (by omega) (by omega)
  set l := up n g (s f) n f with hl
  obtain ⟨a', b', c', d'⟩ := up_spec n g (s (f + 1)) n l (by omega) b
  set r := up n g (s (f + 1)) n l with hr
  have h2 := hg.two
  refine ⟨a', by omega, ?_, ?_, c'⟩
  · intro i h3 h4
    constructor
    · have := c (by omega)
      exact this.trans (hg.mono h3 (by omega))
    · have := d' (i - 1) (by omega) (by omega)
      rw [show i - 1 + 1 = i by omega] at this
      exact this.le
  · rcases Nat.lt_or_ge f l with h3 | h3
    · have := d (l - 1) (by omega) (by omega)
      rw [show l - 1 + 1 = l by omega] at this
      exact this.le
    · have : l = f := by omega
      rw [this]; exact hgs f (by omega)

theorem located_down {n : ℕ} {g s : ℕ → ℝ} (hg : Grid n g) (hs : Grid n s)
    (hgs : ∀ i, i < n → s i ≤ g i) {f : ℕ} (hf : f < n - 1) :
    Located n g (s f) (s (f + 1)) (down g (s f) (down g (s (f + 1)) f))
      (down g (s (f + 1)) f) := by
  obtain ⟨a, b, c⟩ := down_spec g (s (f + 1)) f
  set r := down g (s (f + 1)) f with hr
  obtain ⟨a', b', c'⟩ := down_spec g (s f) r
  set l := down g (s f) r with hl
  have h2 := hg.two
  refine ⟨a', by omega, ?_, ?_, ?_⟩
  · intro i h3 h4
    exact ⟨(c' i h3 h4).le, (hg.mono h4 (by omega)).trans (b (by omega))⟩
  · rcases Nat.eq_zero_or_pos l with h3 | h3
    · rw [h3, hg.zero]; exact hs.nonneg (by omega)
    · exact b' h3
  · intro h3
    rcases Nat.lt_or_ge r f with h4 | h4
    · exact (c (r + 1) (by omega) (by omega)).le
    · have : r = f := by omega
      rw [this]; exact hgs _ (by omega)

/-! ### The ratios -/

theorem split_sum (tiny : ℝ) (g : ℕ → ℝ) (l r : ℕ) (nul nur irl irr : ℝ) (old : ℕ → ℝ) :
    ∑ j ∈ Finset.range (r - l + 1), splitLinear tiny g l r nul nur irl irr old j = 1 := by
  by_cases h : r = l
  · subst h; simp [splitLinear]
  · rw [Finset.sum_range_succ]
    have h1 : ∑ j ∈ Finset.range (r - l), splitLinear tiny g l r nul nur irl irr old j =
        ∑ j ∈ Finset.range (r - l), piece tiny g l nul nur irl irr j := by
      apply Finset.sum_congr rfl
      intro j hj
      simp only [Finset.mem_range] at hj
      simp [splitLinear, h, hj]
    rw [h1]
    simp [splitLinear, h]

/-- A set of rows every one of which spreads a bin over bins of the grid. -/
structure Rows (n : ℕ) (R : ℕ → Row) : Prop where
  le : ∀ f < n, (R f).lo ≤ (R f).hi
  lt : ∀ f < n, (R f).hi < n
  sum : ∀ f < n, ∑ j ∈ Finset.range ((R f).hi - (R f).lo + 1), (R f).ratio j = 1

theorem rows_up (tiny : ℝ) {n : ℕ} (h2 : 2 ≤ n) (g s fc : ℕ → ℝ) (old : ℕ → ℕ → ℝ) :
    Rows n (rowUp tiny n g s fc old) := by
  have key : ∀ f, f < n - 1 → f ≤ up n g (s f) n f ∧
      up n g (s f) n f ≤ up n g (s (f + 1)) n (up n g (s f) n f) ∧
      up n g (s (f + 1)) n (up n g (s f) n f) ≤ n - 1 := by
    intro f hf
    obtain ⟨a, b, -, -⟩ := up_spec n g (s f) n f (by omega) (by omega)
    obtain ⟨a', b', -, -⟩ := up_spec n g (s (f + 1)) n (up n g (s f) n f) (by omega) b
    exact ⟨a, a', b'⟩
  refine ⟨fun f hf => ?_, fun f hf => ?_, fun f hf => ?_⟩ <;> unfold rowUp <;> split
  · rename_i h; exact (key f h).2.1
  · exact le_rfl
  · rename_i h; have := (key f h).2.2; dsimp only; omega
  · dsimp only; omega
  · exact split_sum ..
  · simp

theorem rows_down (tiny : ℝ) {n : ℕ} (h2 : 2 ≤ n) (g s fc : ℕ → ℝ) (P : ℝ → ℝ) (nutr : ℝ)
    (old : ℕ → ℕ → ℝ) : Rows n (rowDown tiny n g s fc P nutr old) := by
  refine ⟨fun f hf => ?_, fun f hf => ?_, fun f hf => ?_⟩ <;> unfold rowDown <;> split
  · exact (down_spec g (s f) _).1
  · have := (down_spec g (s (n - 1)) (n - 2)).1; dsimp only; omega
  · have := (down_spec g (s (f + 1)) f).1; dsimp only; omega
  · dsimp only; omega
  · exact split_sum ..
  · dsimp only
    rw [Finset.sum_range_succ]
    have h1 : ∀ L : ℕ, ∑ x ∈ Finset.range L, (if x < L then tailPiece tiny g
        (down g (s (n - 1)) (n - 2)) (s (n - 1)) P nutr x else
        if x = L then 1 - ∑ i ∈ Finset.range L, tailPiece tiny g
        (down g (s (n - 1)) (n - 2)) (s (n - 1)) P nutr i else old f x) =
        ∑ i ∈ Finset.range L, tailPiece tiny g
        (down g (s (n - 1)) (n - 2)) (s (n - 1)) P nutr i := by
      intro L
      apply Finset.sum_congr rfl
      intro j hj
      simp only [Finset.mem_range] at hj
      simp [hj]
    rw [h1]
    simp

/-- What bin `m` gets of bin `f`. -/
noncomputable def coef (R : ℕ → Row) (f m : ℕ) : ℝ :=
  if (R f).lo ≤ m ∧ m ≤ (R f).hi then (R f).ratio (m - (R f).lo) else 0

theorem mapFreq_eq (n : ℕ) (R : ℕ → Row) (input : ℕ → ℝ) (m : ℕ) :
    mapFreq n R input m = ∑ f ∈ Finset.range n, input f * coef R f m := by
  unfold mapFreq coef
  apply Finset.sum_congr rfl
  intro f _
  split <;> simp

theorem coef_sum {n : ℕ} {R : ℕ → Row} (h : Rows n R) {f : ℕ} (hf : f < n) :
    ∑ m ∈ Finset.range n, coef R f m = 1 := by
  have h1 := h.le f hf
  have h2 := h.lt f hf
  rw [← h.sum f hf]
  unfold coef
  rw [← Finset.sum_filter]
  symm
  apply Finset.sum_nbij' (fun j => j + (R f).lo) (fun m => m - (R f).lo)
  · intro j hj; simp only [Finset.mem_range, Finset.mem_filter] at *; omega
  · intro j hj; simp only [Finset.mem_range, Finset.mem_filter] at *; omega
  · intro j hj; simp
  · intro j hj; simp only [Finset.mem_range, Finset.mem_filter] at *; omega
  · intro j hj; simp

theorem map_total {n : ℕ} {R : ℕ → Row} (h : Rows n R) (input : ℕ → ℝ) :
    ∑ m ∈ Finset.range n, mapFreq n R input m = ∑ f ∈ Finset.range n, input f := by
  simp only [mapFreq_eq]
  rw [Finset.sum_comm]
  apply Finset.sum_congr rfl
  intro f hf
  rw [← Finset.mul_sum, coef_sum h (Finset.mem_range.mp hf), mul_one]


theorem trap_add (u v a D x y z : ℝ) :
    (u + (v - u) * ((x - a) * D) + (u + (v - u) * ((y - a) * D))) / 2 * (y - x) +
    (u + (v - u) * ((y - a) * D) + (u + (v - u) * ((z - a) * D))) / 2 * (z - y) =
    (u + (v - u) * ((x - a) * D) + (u + (v - u) * ((z - a) * D))) / 2 * (z - x) := by
  ring

/-- Integral of the linear spectrum between ordered ends. -/
noncomputable def trap (u v a b x y : ℝ) : ℝ := (lin u v a b x + lin u v a b y) / 2 * (y - x)

theorem trap_trans (u v a b x y z : ℝ) :
    trap u v a b x y + trap u v a b y z = trap u v a b x z := by
  unfold trap lin
  have := trap_add u v a (b - a)⁻¹ x y z
  simpa only [div_eq_mul_inv _ (b - a)] using this

theorem area_eq_trap {u v a b x y : ℝ} (h : x ≤ y) : area u v a b x y = trap u v a b x y := by
  unfold area trap
  split
  · rfl
  · have : x = y := le_antisymm h (by linarith)
    subst this; ring

theorem trap_whole {u v a b : ℝ} (hab : a < b) : trap u v a b a b = (u + v) / 2 * (b - a) := by
  unfold trap lin
  have : (b - a) ≠ 0 := by linarith
  rw [div_self this]; ring

theorem piece_area {tiny irl irr nul nur : ℝ} (g : ℕ → ℝ) (l j : ℕ) (ht : 0 < tiny)
    (hn : nul < nur) (u v : ℝ) (hs : shape tiny irl irr = (u, v)) :
    piece tiny g l nul nur irl irr j * trap u v nul nur nul nur =
      trap u v nul nur (if j = 0 then nul else g (l + j)) (g (l + j + 1)) := by
  rw [trap_whole hn]
  have hd : nur - nul ≠ 0 := by linarith
  unfold shape at hs
  unfold piece trap lin
  dsimp only
  split at hs
  · rename_i h
    obtain ⟨rfl, rfl⟩ := Prod.mk.inj hs
    rw [if_pos h]
    by_cases h0 : j = 0
    · subst h0
      simp only [if_pos, Nat.add_zero]
      field_simp
      ring
    · rw [if_neg h0, if_neg h0]
      field_simp
      ring
  · rename_i h
    obtain ⟨rfl, rfl⟩ := Prod.mk.inj hs
    rw [if_neg h]
    have hu : irl + irr ≠ 0 := by linarith
    by_cases h0 : j = 0
    · subst h0
      simp only [if_pos, Nat.add_zero]
      field_simp
      ring
    · rw [if_neg h0, if_neg h0]
      field_simp

theorem piece_sum {tiny irl irr nul nur : ℝ} (g : ℕ → ℝ) (l k : ℕ) (ht : 0 < tiny)
    (hn : nul < nur) (u v : ℝ) (hs : shape tiny irl irr = (u, v)) :
    (∑ j ∈ Finset.range (k + 1), piece tiny g l nul nur irl irr j) * trap u v nul nur nul nur =
      trap u v nul nur nul (g (l + k + 1)) := by
  induction k with
  | zero => simpa using piece_area g l 0 ht hn u v hs
  | succ k ih =>
    rw [Finset.sum_range_succ, add_mul, ih, piece_area g l (k + 1) ht hn u v hs,
      if_neg (Nat.succ_ne_zero k)]
    exact trap_trans ..

theorem split_share {tiny irl irr nul nur : ℝ} {n : ℕ} {g : ℕ → ℝ} (hg : Grid n g) (ht : 0 < tiny)
    (hn : nul < nur) (u v : ℝ) (hs : shape tiny irl irr = (u, v)) {l r : ℕ} (old : ℕ → ℝ)
    (hl : Located n g nul nur l r) {m : ℕ} (hm : m < n) :
    (if l ≤ m ∧ m ≤ r then splitLinear tiny g l r nul nur irl irr old (m - l) else 0) *
      area u v nul nur nul nur = overlap n g u v nul nur m := by
  have hle := hl.le
  have hlt := hl.lt
  rw [area_eq_trap hn.le]
  unfold overlap
  by_cases h : l ≤ m ∧ m ≤ r
  · rw [if_pos h]
    have hmax : max nul (g m) = if m = l then nul else g m := by
      split
      · rename_i h1; subst h1; exact max_eq_left hl.left
      · exact max_eq_right (hl.inner m (by omega) h.2).1
    have hmin : (if m + 1 < n then min nur (g (m + 1)) else nur) =
        if m = r then nur else g (m + 1) := by
      by_cases h1 : m = r
      · subst h1
        rw [if_pos rfl]
        split
        · exact min_eq_left (hl.right (by omega))
        · rfl
      · rw [if_neg h1, if_pos (by omega)]
        exact min_eq_right (hl.inner (m + 1) (by omega) (by omega)).2
    rw [hmax, hmin]
    by_cases hr : r = l
    · have h1 : m = l := by omega
      subst hr h1
      simp only [splitLinear, if_pos, Nat.sub_self, one_mul]
      exact (area_eq_trap hn.le).symm
    · by_cases hmr : m = r
      · subst hmr
        rw [if_neg hr, if_pos rfl, area_eq_trap (hl.inner m (by omega) le_rfl).2]
        have := piece_sum g l (m - l - 1) ht hn u v hs
        rw [show m - l - 1 + 1 = m - l by omega, show l + (m - l - 1) + 1 = m by omega] at this
        simp only [splitLinear, if_neg hr, lt_irrefl, if_false, if_true]
        rw [sub_mul, this, one_mul]
        have := trap_trans u v nul nur nul (g m) nur
        linarith
      · rw [if_neg hmr]
        have hj : m - l < r - l := by omega
        simp only [splitLinear, if_neg hr, if_pos hj]
        rw [piece_area g l (m - l) ht hn u v hs, show l + (m - l) = m by omega]
        by_cases h1 : m = l
        · rw [if_pos h1, if_pos (by omega)]
          exact (area_eq_trap (hl.inner (m + 1) (by omega) (by omega)).1).symm
        · rw [if_neg h1, if_neg (by omega)]
          exact (area_eq_trap (hg.mono (by omega) (by omega))).symm
  · rw [if_neg h, zero_mul]
    unfold area
    rw [if_neg]
    rw [not_lt]
    by_cases h1 : m < l
    · rw [if_pos (by omega)]
      have : g (m + 1) ≤ nul := (hg.mono (by omega) (by omega)).trans hl.left
      exact (min_le_right _ _).trans (this.trans (le_max_left _ _))
    · have h2 : nur ≤ g m := (hl.right (by omega)).trans (hg.mono (by omega) hm)
      refine le_trans ?_ (le_max_right _ _)
      split
      · exact (min_le_left _ _).trans h2
      · exact h2

theorem lin_nonneg {u v a b x : ℝ} (hu : 0 ≤ u) (hv : 0 ≤ v) (hab : a < b) (h1 : a ≤ x)
    (h2 : x ≤ b) : 0 ≤ lin u v a b x := by
  unfold lin
  have hd : 0 < b - a := by linarith
  have h3 : 0 ≤ (x - a) / (b - a) := div_nonneg (by linarith) hd.le
  have h4 : (x - a) / (b - a) ≤ 1 := by rw [div_le_one hd]; linarith
  nlinarith

theorem overlap_nonneg {n : ℕ} {g : ℕ → ℝ} {u v a b : ℝ} (hu : 0 ≤ u) (hv : 0 ≤ v) (hab : a < b)
    (m : ℕ) : 0 ≤ overlap n g u v a b m := by
  unfold overlap area
  have hb : (if m + 1 < n then min b (g (m + 1)) else b) ≤ b := by
    split
    · exact min_le_left _ _
    · exact le_rfl
  generalize (if m + 1 < n then min b (g (m + 1)) else b) = d at *
  split
  · rename_i h
    have ha : a ≤ max a (g m) := le_max_left _ _
    generalize max a (g m) = c at *
    have := lin_nonneg hu hv hab ha (h.le.trans hb)
    have := lin_nonneg hu hv hab (ha.trans h.le) hb
    have : 0 ≤ d - c := by linarith
    positivity
  · exact le_rfl

theorem forward_cases {tiny : ℝ} {n nmax : ℕ} {nu fc : ℕ → ℝ} {t : ℝ} {P : ℝ → ℝ} {nutr : ℝ}
    {old : ℕ → ℕ → ℝ} {R : ℕ → Row} (h : forward tiny n nmax nu fc t P nutr old = some R) :
    2 ≤ n ∧ (∀ f < n - 1, (R f).hi - (R f).lo + 1 ≤ nmax) ∧
    ((1 ≤ t ∧ R = rowUp tiny n nu (fun i => nu i * t) fc old) ∨
      (t < 1 ∧ R = rowDown tiny n nu (fun i => nu i * t) fc P nutr old)) := by
  unfold forward at h
  dsimp only at h
  by_cases ht : t ≥ 1
  · simp only [if_pos ht] at h
    by_cases hw : 2 ≤ n ∧ ∀ f < n - 1, (rowUp tiny n nu (fun i => nu i * t) fc old f).hi -
        (rowUp tiny n nu (fun i => nu i * t) fc old f).lo + 1 ≤ nmax
    · rw [if_pos hw] at h
      obtain rfl := Option.some.inj h
      exact ⟨hw.1, hw.2, Or.inl ⟨ht, rfl⟩⟩
    · rw [if_neg hw] at h; simp at h
  · simp only [if_neg ht] at h
    by_cases hw : 2 ≤ n ∧ ∀ f < n - 1, (rowDown tiny n nu (fun i => nu i * t) fc P nutr old f).hi -
        (rowDown tiny n nu (fun i => nu i * t) fc P nutr old f).lo + 1 ≤ nmax
    · rw [if_pos hw] at h
      obtain rfl := Option.some.inj h
      exact ⟨hw.1, hw.2, Or.inr ⟨not_le.mp ht, rfl⟩⟩
    · rw [if_neg hw] at h; simp at h

theorem backward_cases {tiny : ℝ} {n nmax : ℕ} {nu fc : ℕ → ℝ} {t : ℝ} {P : ℝ → ℝ} {nutr : ℝ}
    {old : ℕ → ℕ → ℝ} {R : ℕ → Row} (h : backward tiny n nmax nu fc t P nutr old = some R) :
    2 ≤ n ∧ (∀ f < n - 1, (R f).hi - (R f).lo + 1 ≤ nmax) ∧
    ((t < 1 ∧ R = rowUp tiny n (fun i => nu i * t) nu fc old) ∨
      (1 ≤ t ∧ R = rowDown tiny n (fun i => nu i * t) nu fc P nutr old)) := by
  unfold backward at h
  dsimp only at h
  by_cases ht : t < 1
  · simp only [if_pos ht] at h
    by_cases hw : 2 ≤ n ∧ ∀ f < n - 1, (rowUp tiny n (fun i => nu i * t) nu fc old f).hi -
        (rowUp tiny n (fun i => nu i * t) nu fc old f).lo + 1 ≤ nmax
    · rw [if_pos hw] at h
      obtain rfl := Option.some.inj h
      exact ⟨hw.1, hw.2, Or.inl ⟨ht, rfl⟩⟩
    · rw [if_neg hw] at h; simp at h
  · simp only [if_neg ht] at h
    by_cases hw : 2 ≤ n ∧ ∀ f < n - 1, (rowDown tiny n (fun i => nu i * t) nu fc P nutr old f).hi -
        (rowDown tiny n (fun i => nu i * t) nu fc P nutr old f).lo + 1 ≤ nmax
    · rw [if_pos hw] at h
      obtain rfl := Option.some.inj h
      exact ⟨hw.1, hw.2, Or.inr ⟨not_lt.mp ht, rfl⟩⟩
    · rw [if_neg hw] at h; simp at h

/-! ### The last bin -/

theorem tail_sum (tiny : ℝ) (g : ℕ → ℝ) (l : ℕ) (nul : ℝ) (P : ℝ → ℝ) (nutr : ℝ) (k : ℕ) :
    ∑ j ∈ Finset.range (k + 1), tailPiece tiny g l nul P nutr j =
      (P (nutr * g (l + k + 1) / nul) - P nutr) * divOri tiny P nutr := by
  induction k with
  | zero => simp [tailPiece]
  | succ k ih =>
    rw [Finset.sum_range_succ, ih]
    unfold tailPiece
    rw [if_neg (Nat.succ_ne_zero k), show l + (k + 1) = l + k + 1 by omega]
    ring

theorem single_map (n : ℕ) (R : ℕ → Row) {f : ℕ} (hf : f < n) (m : ℕ) :
    mapFreq n R (fun i => if i = f then 1 else 0) m = coef R f m := by
  rw [mapFreq_eq]
  simp only [ite_mul, one_mul, zero_mul]
  rw [Finset.sum_ite_eq' (Finset.range n) f, if_pos (Finset.mem_range.mpr hf)]

theorem tail_share {tiny : ℝ} (ht : 0 < tiny) {n : ℕ} {g s : ℕ → ℝ} (fc : ℕ → ℝ) {P : ℝ → ℝ} {nutr : ℝ}
    (old : ℕ → ℕ → ℝ) (hg : Grid n g) (hs : Grid n s) (hgs : ∀ i, i < n → s i ≤ g i)
    {m : ℕ} (hm : m < n) :
    coef (rowDown tiny n g s fc P nutr old) (n - 1) m =
      if 1 - P nutr > tiny then
        tailPart n g P nutr (s (n - 1)) m / (1 - P nutr)
      else if m = n - 1 then 1 else 0 := by
  unfold tailPart
  have h2 := hg.two
  have hpos : 0 < s (n - 1) := by
    have := hs.strict (show 0 < n - 1 by omega) (by omega)
    rwa [hs.zero] at this
  obtain ⟨a, b, c⟩ := down_spec g (s (n - 1)) (n - 2)
  unfold coef rowDown
  rw [if_neg (lt_irrefl _)]
  dsimp only
  generalize hL : down g (s (n - 1)) (n - 2) = l at *
  have hll : g l ≤ s (n - 1) := by
    rcases Nat.eq_zero_or_pos l with h3 | h3
    · rw [h3, hg.zero]; exact hpos.le
    · exact b h3
  have hN : nutr * s (n - 1) / s (n - 1) = nutr := by field_simp
  have hgt : ∀ i, l < i → i < n → s (n - 1) ≤ g i := by
    intro i h3 h4
    rcases Nat.lt_or_ge i (n - 1) with h5 | h5
    · exact (c i h3 (by omega)).le
    · obtain rfl : i = n - 1 := by omega
      exact hgs _ h4
  by_cases hml : l ≤ m ∧ m ≤ n - 1
  · rw [if_pos hml]
    have hlast : ∑ i ∈ Finset.range (n - 1 - l), tailPiece tiny g l (s (n - 1)) P nutr i =
        (P (nutr * g (n - 1) / s (n - 1)) - P nutr) * divOri tiny P nutr := by
      have := tail_sum tiny g l (s (n - 1)) P nutr (n - 2 - l)
      rw [show n - 2 - l + 1 = n - 1 - l by omega, show l + (n - 2 - l) + 1 = n - 1 by omega]
        at this
      exact this
    have hsum1 : m = n - 1 → (if m - l < n - 1 - l then tailPiece tiny g l (s (n - 1)) P nutr (m - l)
        else if m - l = n - 1 - l then
          1 - ∑ i ∈ Finset.range (n - 1 - l), tailPiece tiny g l (s (n - 1)) P nutr i
        else old (n - 1) (m - l)) =
        1 - (P (nutr * g (n - 1) / s (n - 1)) - P nutr) * divOri tiny P nutr := by
      intro hm1
      rw [if_neg (by omega), if_pos (by omega), hlast]
    have hsum2 : m ≠ n - 1 → (if m - l < n - 1 - l then tailPiece tiny g l (s (n - 1)) P nutr (m - l)
        else if m - l = n - 1 - l then
          1 - ∑ i ∈ Finset.range (n - 1 - l), tailPiece tiny g l (s (n - 1)) P nutr i
        else old (n - 1) (m - l)) =
        (P (nutr * g (m + 1) / s (n - 1)) - P (nutr * max (s (n - 1)) (g m) / s (n - 1))) *
          divOri tiny P nutr := by
      intro hm1
      rw [if_pos (by omega)]
      unfold tailPiece
      by_cases h3 : m = l
      · rw [if_pos (by omega), h3, max_eq_left hll, hN]
      · rw [if_neg (by omega), max_eq_right (hgt m (by omega) hm), show l + (m - l) = m by omega]
    by_cases ho : 1 - P nutr > tiny
    · have hdiv : divOri tiny P nutr = 1 / (1 - P nutr) := if_pos ho
      have hne : 1 - P nutr ≠ 0 := by linarith
      rw [if_pos ho]
      by_cases hm1 : m = n - 1
      · rw [hsum1 hm1, hdiv]
        have h5 : ¬ (m + 1 < n) := by omega
        rw [if_neg (fun h => h5 h.1), if_neg h5, hm1, max_eq_right (hgs _ (by omega))]
        field_simp
        ring
      · rw [hsum2 hm1, hdiv]
        have h5 : m + 1 < n := by omega
        by_cases h6 : g (m + 1) ≤ s (n - 1)
        · rw [if_pos ⟨h5, h6⟩]
          have h7 : g (m + 1) = s (n - 1) := le_antisymm h6 (hgt _ (by omega) h5)
          have h8 : g m ≤ s (n - 1) := (hg.mono (Nat.le_succ m) h5).trans h6
          rw [h7, max_eq_left h8]; ring
        · rw [if_neg (fun h => h6 h.2), if_pos h5]
          ring
    · have hdiv : divOri tiny P nutr = 0 := if_neg ho
      rw [if_neg ho]
      by_cases hm1 : m = n - 1
      · rw [hsum1 hm1, hdiv, if_pos hm1]; ring
      · rw [hsum2 hm1, hdiv, if_neg hm1]; ring
  · rw [if_neg hml]
    have h3 : m < l := by omega
    have h4 : g (m + 1) ≤ s (n - 1) := (hg.mono (by omega) (by omega)).trans hll
    have h5 : m + 1 < n ∧ g (m + 1) ≤ s (n - 1) := ⟨by omega, h4⟩
    rw [if_pos h5, if_neg (show ¬ m = n - 1 by omega)]
    simp

theorem tail_nonneg {tiny : ℝ} (ht : 0 < tiny) {n : ℕ} {g s : ℕ → ℝ} (fc : ℕ → ℝ) {P : ℝ → ℝ}
    {nutr : ℝ} (hnt : 0 ≤ nutr) (hP : Monotone P) (hP1 : ∀ x, P x ≤ 1)
    (old : ℕ → ℕ → ℝ) (hg : Grid n g) (hs : Grid n s) (hgs : ∀ i, i < n → s i ≤ g i)
    {m : ℕ} (hm : m < n) : 0 ≤ coef (rowDown tiny n g s fc P nutr old) (n - 1) m := by
  rw [tail_share ht fc old hg hs hgs hm]
  unfold tailPart
  have h2 := hg.two
  have hpos : 0 < s (n - 1) := by
    have := hs.strict (show 0 < n - 1 by omega) (by omega)
    rwa [hs.zero] at this
  split
  · rename_i ho
    apply div_nonneg _ (by linarith)
    split
    · exact le_rfl
    · rename_i h
      split
      · rename_i h3
        have h4 : s (n - 1) < g (m + 1) := by
          by_contra hc; exact h ⟨h3, not_lt.mp hc⟩
        have h5 : max (s (n - 1)) (g m) ≤ g (m + 1) := max_le h4.le (hg.lt m h3).le
        have := hP (show nutr * max (s (n - 1)) (g m) / s (n - 1) ≤ nutr * g (m + 1) / s (n - 1) by
          gcongr)
        linarith
      · have := hP1 (nutr * max (s (n - 1)) (g m) / s (n - 1))
        linarith
  · split <;> norm_num

theorem face_nonneg (ir dnu : ℕ → ℝ) (f : ℕ) : 0 ≤ face ir dnu f := by
  cases f with
  | zero => exact le_rfl
  | succ f => exact le_max_right _ _

theorem coef_share {tiny : ℝ} {n : ℕ} {g : ℕ → ℝ} {R : ℕ → Row} {f : ℕ} {nul nur irl irr : ℝ}
    {old : ℕ → ℝ} (hg : Grid n g) (ht : 0 < tiny) (hn : nul < nur)
    (hl : Located n g nul nur (R f).lo (R f).hi)
    (hr : (R f).ratio = splitLinear tiny g (R f).lo (R f).hi nul nur irl irr old) {m : ℕ}
    (hm : m < n) :
    coef R f m * area (shape tiny irl irr).1 (shape tiny irl irr).2 nul nur nul nur =
      overlap n g (shape tiny irl irr).1 (shape tiny irl irr).2 nul nur m := by
  unfold coef
  rw [hr]
  exact split_share hg ht hn _ _ rfl old hl hm

theorem share_nonneg {tiny : ℝ} {n : ℕ} {g : ℕ → ℝ} {R : ℕ → Row} {f : ℕ} {nul nur irl irr : ℝ}
    {old : ℕ → ℝ} (hg : Grid n g) (ht : 0 < tiny) (hn : nul < nur) (hi1 : 0 ≤ irl) (hi2 : 0 ≤ irr)
    (hl : Located n g nul nur (R f).lo (R f).hi)
    (hr : (R f).ratio = splitLinear tiny g (R f).lo (R f).hi nul nur irl irr old) {m : ℕ}
    (hm : m < n) : 0 ≤ coef R f m := by
  have h := coef_share hg ht hn hl hr hm
  have hu : 0 ≤ (shape tiny irl irr).1 ∧ 0 ≤ (shape tiny irl irr).2 ∧
      0 < (shape tiny irl irr).1 + (shape tiny irl irr).2 := by
    unfold shape
    split
    · norm_num
    · rename_i h; exact ⟨hi1, hi2, by dsimp only; linarith⟩
  rw [area_eq_trap hn.le, trap_whole hn] at h
  have h3 := overlap_nonneg (n := n) (g := g) hu.1 hu.2.1 hn m
  rw [← h] at h3
  refine nonneg_of_mul_nonneg_left h3 ?_
  have : 0 < nur - nul := by linarith
  have := hu.2.2
  positivity

end Verif.FreqMap
