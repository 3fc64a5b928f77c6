import Verif.Model.LinAlg
import Mathlib.Tactic.Ring
import Mathlib.Tactic.Linarith
import Mathlib.Tactic.LinearCombination
import Mathlib.Tactic.FieldSimp
import Mathlib.Tactic.Positivity
import Mathlib.Algebra.BigOperators.Ring.Finset
import Mathlib.Algebra.BigOperators.Intervals

/-!
# Invariants of the LU decomposition
-/

namespace Verif.Lin

open Finset

theorem put_same (a : Mat) (i j : ℕ) (v : ℝ) : put a i j v i j = v := by simp [put]

theorem put_ne (a : Mat) {i j r c : ℕ} (v : ℝ) (h : r ≠ i ∨ c ≠ j) : put a i j v r c = a r c := by
  unfold put
  rw [if_neg]
  rintro ⟨rfl, rfl⟩
  rcases h with h | h <;> exact h rfl

theorem putV_same (b : ℕ → ℝ) (i : ℕ) (v : ℝ) : putV b i v i = v := by simp [putV]

theorem putV_ne (b : ℕ → ℝ) {i r : ℕ} (v : ℝ) (h : r ≠ i) : putV b i v r = b r := by
  unfold putV; rw [if_neg h]

/-! ### substitution -/

theorem backward_untouched (n : ℕ) (a : Mat) (b : ℕ → ℝ) (m : ℕ) (hm : m ≤ n) (r : ℕ)
    (hr : r < n - m) : backward n a b m r = b r := by
  induction m with
  | zero => rfl
  | succ m ih =>
    have : backward n a b (m + 1) r = backward n a b m r := putV_ne _ _ (by omega)
    rw [this, ih (by omega) (by omega)]

theorem backward_solves (n : ℕ) (a : Mat) (b : ℕ → ℝ) (hd : ∀ i < n, a i i ≠ 0) (m : ℕ)
    (hm : m ≤ n) : ∀ r, n - m ≤ r → r < n →
      ∑ c ∈ Ico r n, a r c * backward n a b m c = b r := by
  induction m with
  | zero => intro r h1 h2; omega
  | succ m ih =>
    intro r h1 h2
    set b0 := backward n a b m with hb0
    have hstep : backward n a b (m + 1) = putV b0 (n - 1 - m)
      ((b0 (n - 1 - m) - ∑ j ∈ Ico (n - 1 - m + 1) n, a (n - 1 - m) j * b0 j)
        / a (n - 1 - m) (n - 1 - m)) := rfl
    rw [hstep]
    by_cases hr : r = n - 1 - m
    · rw [← hr]
      rw [Finset.sum_eq_sum_Ico_succ_bot h2, putV_same]
      have e : ∑ k ∈ Ico (r + 1) n, a r k * putV b0 r
          ((b0 r - ∑ j ∈ Ico (r + 1) n, a r j * b0 j) / a r r) k
          = ∑ k ∈ Ico (r + 1) n, a r k * b0 k := by
        refine Finset.sum_congr rfl fun k hk => ?_
        rw [Finset.mem_Ico] at hk
        rw [putV_ne _ _ (by omega)]
      rw [e, mul_div_cancel₀ _ (hd r h2), hb0,
        backward_untouched n a b m (by omega) r (by omega)]
      ring
    · have e : ∑ c ∈ Ico r n, a r c * putV b0 (n - 1 - m)
          ((b0 (n - 1 - m) - ∑ j ∈ Ico (n - 1 - m + 1) n, a (n - 1 - m) j * b0 j)
          / a (n - 1 - m) (n - 1 - m)) c = ∑ c ∈ Ico r n, a r c * b0 c := by
        refine Finset.sum_congr rfl fun k hk => ?_
        rw [Finset.mem_Ico] at hk
        rw [putV_ne _ _ (by omega)]
      rw [e]
      exact ih (by omega) r (by omega) h2

/-- Rows as the interchanges recorded so far have put them. -/
def sig (indx : ℕ → ℕ) : ℕ → ℕ → ℕ
  | 0 => id
  | j + 1 => fun r => sig indx j (swp (indx j) j r)

theorem swp_lt {i j r n : ℕ} (hi : i < n) (hj : j < n) (hr : r < n) : swp i j r < n := by
  unfold swp; split_ifs <;> assumption

theorem swp_swp (i j r : ℕ) : swp i j (swp i j r) = r := by
  unfold swp; split_ifs <;> omega

theorem swp_self (j r : ℕ) : swp j j r = r := by
  unfold swp; split_ifs <;> omega

theorem swp_of_lt {i j r : ℕ} (hi : j ≤ i) (h : r < j) : swp i j r = r := by
  unfold swp; rw [if_neg (by omega), if_neg (by omega)]

theorem sig_surj (indx : ℕ → ℕ) (n j : ℕ) (hj : j ≤ n) (hx : ∀ k < j, indx k < n) :
    ∀ i < n, ∃ r < n, sig indx j r = i := by
  induction j with
  | zero => intro i hi; exact ⟨i, hi, rfl⟩
  | succ j ih =>
    intro i hi
    obtain ⟨r, hr, he⟩ := ih (by omega) (fun k hk => hx k (by omega)) i hi
    refine ⟨swp (indx j) j r, swp_lt (hx j (by omega)) (by omega) hr, ?_⟩
    change sig indx j (swp (indx j) j (swp (indx j) j r)) = i
    rw [swp_swp, he]

theorem sig_lt (indx : ℕ → ℕ) (n j : ℕ) (hj : j ≤ n) (hx : ∀ k < j, indx k < n) :
    ∀ r < n, sig indx j r < n := by
  induction j with
  | zero => intro r hr; exact hr
  | succ j ih =>
    intro r hr
    exact ih (by omega) (fun k hk => hx k (by omega)) _
      (swp_lt (hx j (by omega)) (by omega) hr)

theorem sig_congr {f g : ℕ → ℕ} (j : ℕ) (h : ∀ k < j, f k = g k) : sig f j = sig g j := by
  induction j with
  | zero => rfl
  | succ j ih =>
    funext r
    change sig f j (swp (f j) j r) = sig g j (swp (g j) j r)
    rw [ih fun k hk => h k (by omega), h j (by omega)]

theorem forward_spec (a : Mat) (indx : ℕ → ℕ) (b : ℕ → ℝ) (i : ℕ) (hx : ∀ k < i, k ≤ indx k) :
    (∀ r, i ≤ r → (forward a indx b i).1 r = b (sig indx i r)) ∧
    (∀ r < i, (forward a indx b i).1 r + ∑ k ∈ range r, a r k * (forward a indx b i).1 k
      = b (sig indx i r)) ∧
    (∀ ii, (forward a indx b i).2 = some ii → ii < i ∧ ∀ r < ii, (forward a indx b i).1 r = 0) ∧
    ((forward a indx b i).2 = none → ∀ r < i, (forward a indx b i).1 r = 0) := by
  induction i with
  | zero =>
    refine ⟨fun r _ => rfl, fun r h => absurd h (Nat.not_lt_zero r), ?_, ?_⟩
    · intro ii h; exact absurd h (by simp [forward])
    · intro _ r h; exact absurd h (Nat.not_lt_zero r)
  | succ i ih =>
    obtain ⟨h1, h2, h3, h4⟩ := ih fun k hk => hx k (by omega)
    have hip := hx i (by omega)
    set s := forward a indx b i with hs
    set ip := indx i with hipd
    set c := putV s.1 ip (s.1 i) with hc
    have hclt : ∀ r < i, c r = s.1 r := fun r hr => putV_ne _ _ (by omega)
    have hsum : s.1 ip = b (sig indx (i + 1) i) := by
      rw [h1 ip hip]
      change b (sig indx i ip) = b (sig indx i (swp ip i i))
      congr 2
      unfold swp; split_ifs <;> omega
    have hrest : ∀ r, i + 1 ≤ r → c r = b (sig indx (i + 1) r) := by
      intro r hr
      change c r = b (sig indx i (swp ip i r))
      by_cases hrp : r = ip
      · rw [hrp, hc, putV_same, h1 i le_rfl]
        unfold swp; rw [if_pos rfl]
      · rw [hc, putV_ne _ _ hrp, h1 r (by omega)]
        unfold swp; rw [if_neg hrp, if_neg (by omega)]
    have hsame : ∀ r < i, sig indx (i + 1) r = sig indx i r := by
      intro r hr
      change sig indx i (swp ip i r) = sig indx i r
      rw [swp_of_lt hip hr]
    -- the value of row `i`
    have key : ∀ v, v + ∑ k ∈ range i, a i k * s.1 k = b (sig indx (i + 1) i) →
        (∀ r, i + 1 ≤ r → putV c i v r = b (sig indx (i + 1) r)) ∧
        (∀ r < i + 1, putV c i v r + ∑ k ∈ range r, a r k * putV c i v k
          = b (sig indx (i + 1) r)) := by
      intro v hv
      refine ⟨fun r hr => by rw [putV_ne _ _ (by omega), hrest r hr], fun r hr => ?_⟩
      have e : ∑ k ∈ range r, a r k * putV c i v k = ∑ k ∈ range r, a r k * s.1 k := by
        refine Finset.sum_congr rfl fun k hk => ?_
        rw [Finset.mem_range] at hk
        rw [putV_ne _ _ (by omega), hclt k (by omega)]
      rw [e]
      by_cases hri : r = i
      · rw [hri, putV_same]; exact hv
      · rw [putV_ne _ _ hri, hclt r (by omega), hsame r (by omega)]
        exact h2 r (by omega)
    cases h5 : s.2 with
    | none =>
      have hz := h4 h5
      have e : forward a indx b (i + 1) = (putV c i (s.1 ip),
          if s.1 ip ≠ 0 then some i else none) := by
        rw [forward]; simp only [← hs, h5]; rfl
      have hv : s.1 ip + ∑ k ∈ range i, a i k * s.1 k = b (sig indx (i + 1) i) := by
        rw [Finset.sum_eq_zero fun k hk => by
          rw [hz k (Finset.mem_range.mp hk), mul_zero], add_zero, hsum]
      rw [e]
      obtain ⟨k1, k2⟩ := key _ hv
      refine ⟨k1, k2, ?_, ?_⟩
      · intro ii hii
        dsimp only at hii
        split_ifs at hii with h0
        · have : i = ii := Option.some.inj hii
          subst this
          refine ⟨by omega, fun r hr => ?_⟩
          dsimp only
          rw [putV_ne _ _ (by omega), hclt r hr, hz r hr]
      · intro hn r hr
        dsimp only at hn ⊢
        split_ifs at hn with h0
        · push Not at h0
          by_cases hri : r = i
          · rw [hri, putV_same, h0]
          · rw [putV_ne _ _ hri, hclt r (by omega), hz r (by omega)]
    | some ii =>
      obtain ⟨hlt, hz⟩ := h3 ii h5
      have e : forward a indx b (i + 1) = (putV c i (s.1 ip - ∑ j ∈ Ico ii i, a i j * c j),
          some ii) := by
        rw [forward]; simp only [← hs, h5]; rfl
      have hv : (s.1 ip - ∑ j ∈ Ico ii i, a i j * c j) + ∑ k ∈ range i, a i k * s.1 k
          = b (sig indx (i + 1) i) := by
        rw [← Finset.sum_range_add_sum_Ico _ hlt.le,
          Finset.sum_eq_zero (s := range ii) fun k hk => by
            rw [hz k (Finset.mem_range.mp hk), mul_zero]]
        have : ∑ j ∈ Ico ii i, a i j * c j = ∑ j ∈ Ico ii i, a i j * s.1 j := by
          refine Finset.sum_congr rfl fun k hk => ?_
          rw [Finset.mem_Ico] at hk
          rw [hclt k hk.2]
        rw [this, hsum]; ring
      rw [e]
      obtain ⟨k1, k2⟩ := key _ hv
      refine ⟨k1, k2, ?_, ?_⟩
      · intro jj hjj
        have : ii = jj := Option.some.inj hjj
        subst this
        refine ⟨by omega, fun r hr => ?_⟩
        dsimp only
        rw [putV_ne _ _ (by omega), hclt r (by omega), hz r hr]
      · intro hn; exact absurd hn (by simp)

/-! ### one column -/

theorem upper_spec (a : Mat) (j m : ℕ) (hm : m ≤ j) :
    (∀ r c, c ≠ j → upper a j m r c = a r c) ∧ (∀ r, m ≤ r → upper a j m r j = a r j) ∧
    (∀ r < m, upper a j m r j + ∑ k ∈ range r, a r k * upper a j m k j = a r j) := by
  induction m with
  | zero => exact ⟨fun _ _ _ => rfl, fun _ _ => rfl, fun r h => absurd h (Nat.not_lt_zero r)⟩
  | succ m ih =>
    obtain ⟨h1, h2, h3⟩ := ih (by omega)
    set u := upper a j m with hu
    have hs : upper a j (m + 1) = put u m j (u m j - ∑ k ∈ range m, u m k * u k j) := rfl
    rw [hs]
    refine ⟨fun r c hc => by rw [put_ne _ _ (Or.inr hc), h1 r c hc],
      fun r hr => by rw [put_ne _ _ (Or.inl (by omega)), h2 r (by omega)], fun r hr => ?_⟩
    have e : ∑ k ∈ range r, a r k * put u m j (u m j - ∑ k ∈ range m, u m k * u k j) k j
        = ∑ k ∈ range r, a r k * u k j := by
      refine Finset.sum_congr rfl fun k hk => ?_
      rw [Finset.mem_range] at hk
      rw [put_ne _ _ (Or.inl (by omega))]
    rw [e]
    by_cases hrm : r = m
    · rw [hrm, put_same, h2 m le_rfl]
      have : ∑ k ∈ range m, u m k * u k j = ∑ k ∈ range m, a m k * u k j := by
        refine Finset.sum_congr rfl fun k hk => ?_
        rw [Finset.mem_range] at hk
        rw [h1 m k (by omega)]
      rw [this]; ring
    · rw [put_ne _ _ (Or.inl hrm)]
      exact h3 r (by omega)

theorem lower_spec (rs : ℕ → ℝ) (a : Mat) (j im m : ℕ) (hrs : ∀ i, j ≤ i → i < j + m → 0 ≤ rs i) :
    (∀ r c, (c ≠ j ∨ r < j ∨ j + m ≤ r) → (lower rs a j im m).1 r c = a r c) ∧
    (∀ r, j ≤ r → r < j + m → (lower rs a j im m).1 r j + ∑ k ∈ range j, a r k * a k j = a r j) ∧
    0 ≤ (lower rs a j im m).2.1 ∧
    (0 < m → j ≤ (lower rs a j im m).2.2 ∧ (lower rs a j im m).2.2 < j + m ∧
      (lower rs a j im m).2.1 = rs (lower rs a j im m).2.2 *
        |(lower rs a j im m).1 (lower rs a j im m).2.2 j|) ∧
    (∀ r, j ≤ r → r < j + m → rs r * |(lower rs a j im m).1 r j| ≤ (lower rs a j im m).2.1) := by
  induction m with
  | zero =>
    refine ⟨fun _ _ _ => rfl, fun r h1 h2 => by omega, le_rfl, fun h => by omega,
      fun r h1 h2 => by omega⟩
  | succ m ih =>
    obtain ⟨h1, h2, h3, h4, h5⟩ := ih fun i hi hi2 => hrs i hi (by omega)
    set s := lower rs a j im m with hs
    set sum := s.1 (j + m) j - ∑ k ∈ range j, s.1 (j + m) k * s.1 k j with hsum
    set p := put s.1 (j + m) j sum with hp
    have hsv : sum = a (j + m) j - ∑ k ∈ range j, a (j + m) k * a k j := by
      rw [hsum, h1 (j + m) j (Or.inr (Or.inr le_rfl))]
      congr 1
      refine Finset.sum_congr rfl fun k hk => ?_
      rw [Finset.mem_range] at hk
      rw [h1 _ k (Or.inl (by omega)), h1 k j (Or.inr (Or.inl hk))]
    have hd0 : 0 ≤ rs (j + m) * |sum| := mul_nonneg (hrs _ (by omega) (by omega)) (abs_nonneg _)
    have hp1 : ∀ r c, (c ≠ j ∨ r < j ∨ j + (m + 1) ≤ r) → p r c = a r c := by
      intro r c h
      rw [hp, put_ne, h1 r c]
      · omega
      · omega
    have hp2 : ∀ r, j ≤ r → r < j + (m + 1) → p r j + ∑ k ∈ range j, a r k * a k j = a r j := by
      intro r hr1 hr2
      by_cases hr : r = j + m
      · rw [hr, hp, put_same, hsv]; ring
      · rw [hp, put_ne _ _ (Or.inl hr)]; exact h2 r hr1 (by omega)
    have hpm : p (j + m) j = sum := by rw [hp, put_same]
    have hpo : ∀ r, r ≠ j + m → p r j = s.1 r j := fun r hr => by rw [hp, put_ne _ _ (Or.inl hr)]
    have e : lower rs a j im (m + 1) = if s.2.1 ≤ rs (j + m) * |sum| then
        (p, rs (j + m) * |sum|, j + m) else (p, s.2.1, s.2.2) := rfl
    rw [e]
    by_cases hle : s.2.1 ≤ rs (j + m) * |sum|
    · rw [if_pos hle]
      refine ⟨hp1, hp2, hd0, fun _ => ⟨by dsimp only; omega, by dsimp only; omega, ?_⟩, ?_⟩
      · dsimp only; rw [hpm]
      · intro r hr1 hr2
        dsimp only
        by_cases hr : r = j + m
        · rw [hr, hpm]
        · rw [hpo r hr]; exact (h5 r hr1 (by omega)).trans hle
    · rw [if_neg hle]
      push Not at hle
      have hm : 0 < m := by
        rcases Nat.eq_zero_or_pos m with h0 | h0
        · subst h0
          have : s.2.1 = 0 := rfl
          linarith
        · exact h0
      obtain ⟨g1, g2, g3⟩ := h4 hm
      refine ⟨hp1, hp2, h3, fun _ => ⟨g1, by dsimp only; omega, ?_⟩, ?_⟩
      · dsimp only
        rw [hpo _ (by omega)]; exact g3
      · intro r hr1 hr2
        dsimp only
        by_cases hr : r = j + m
        · rw [hr, hpm]; exact hle.le
        · rw [hpo r hr]; exact h5 r hr1 (by omega)

/-- The unit lower triangle stored in the array. -/
def low (w : Mat) (r k : ℕ) : ℝ := if k < r then w r k else if k = r then 1 else 0

/-- What holds after `j` columns: the first `j` columns of the matrix with its rows
interchanged are products of the triangles, the others are still those of the matrix. -/
structure Inv (n : ℕ) (A : Mat) (s : LU) (j : ℕ) : Prop where
  idx : ∀ k < j, k ≤ s.indx k ∧ s.indx k < n
  done : ∀ c < j, ∀ r < n, A (sig s.indx j r) c = ∑ k ∈ range (c + 1), low s.a r k * s.a k c
  rest : ∀ c, j ≤ c → ∀ r < n, s.a r c = A (sig s.indx j r) c
  diag : ∀ k < j, s.a k k ≠ 0
  rs : ∀ r < n, 0 < s.rs r

/-- Only the zero vector is mapped to zero. -/
def Regular (n : ℕ) (A : Mat) : Prop :=
  ∀ x : ℕ → ℝ, (∀ i < n, ∑ c ∈ range n, A i c * x c = 0) → ∀ c < n, x c = 0

theorem sum_triangle (f : ℕ → ℕ → ℝ) (j : ℕ) :
    ∑ c ∈ range j, ∑ k ∈ range (c + 1), f k c = ∑ k ∈ range j, ∑ c ∈ Ico k j, f k c := by
  refine Finset.sum_comm' fun x y => ?_
  simp only [Finset.mem_range, Finset.mem_Ico]
  omega

/-- The column of the matrix before the pivot is chosen. -/
theorem column_sum (w : Mat) (v : ℕ → ℝ) (r j : ℕ) (hr : r < j) :
    ∑ k ∈ range j, low w r k * v k = v r + ∑ k ∈ range r, w r k * v k := by
  rw [← Finset.sum_range_add_sum_Ico _ (Nat.succ_le_of_lt hr), Finset.sum_range_succ]
  have e1 : ∑ k ∈ range r, low w r k * v k = ∑ k ∈ range r, w r k * v k := by
    refine Finset.sum_congr rfl fun k hk => ?_
    rw [Finset.mem_range] at hk
    unfold low; rw [if_pos hk]
  have e2 : ∑ k ∈ Ico (r + 1) j, low w r k * v k = 0 := by
    refine Finset.sum_eq_zero fun k hk => ?_
    rw [Finset.mem_Ico] at hk
    unfold low; rw [if_neg (by omega), if_neg (by omega), zero_mul]
  have e3 : low w r r = 1 := by unfold low; rw [if_neg (lt_irrefl r), if_pos rfl]
  rw [e1]
  simp only [Nat.succ_eq_add_one] at *
  rw [e2, e3]; ring

theorem column_sum_below (w : Mat) (v : ℕ → ℝ) (r j : ℕ) (hr : j ≤ r) :
    ∑ k ∈ range j, low w r k * v k = ∑ k ∈ range j, w r k * v k := by
  refine Finset.sum_congr rfl fun k hk => ?_
  rw [Finset.mem_range] at hk
  unfold low; rw [if_pos (by omega)]

/-- If a column has no pivot the matrix is not regular. -/
theorem pivot_exists {n : ℕ} {A : Mat} (hA : Regular n A) {s : LU} {j : ℕ} (hj : j < n)
    (h : Inv n A s j) (v : ℕ → ℝ)
    (h1 : ∀ r < j, v r + ∑ k ∈ range r, s.a r k * v k = s.a r j)
    (h2 : ∀ r, j ≤ r → r < n → v r + ∑ k ∈ range j, s.a r k * v k = s.a r j)
    (hz : ∀ r, j ≤ r → r < n → v r = 0) : False := by
  set x := backward j s.a (fun k => -v k) j with hx
  have hsolve : ∀ k < j, ∑ c ∈ Ico k j, s.a k c * x c = -v k := fun k hk =>
    backward_solves j s.a (fun k => -v k) h.diag j le_rfl k (by omega) hk
  set y : ℕ → ℝ := fun c => if c < j then x c else if c = j then 1 else 0 with hy
  have hcol : ∀ r < n, A (sig s.indx j r) j = ∑ k ∈ range j, low s.a r k * v k := by
    intro r hr
    rw [← h.rest j le_rfl r hr]
    by_cases hrj : r < j
    · rw [column_sum _ _ _ _ hrj, h1 r hrj]
    · push Not at hrj
      rw [column_sum_below _ _ _ _ hrj, ← h2 r hrj hr, hz r hrj hr, zero_add]
  have hrow : ∀ r < n, ∑ c ∈ range n, A (sig s.indx j r) c * y c = 0 := by
    intro r hr
    rw [← Finset.sum_range_add_sum_Ico _ (Nat.succ_le_of_lt hj), Finset.sum_range_succ]
    have e1 : ∑ c ∈ Ico (j + 1) n, A (sig s.indx j r) c * y c = 0 := by
      refine Finset.sum_eq_zero fun c hc => ?_
      rw [Finset.mem_Ico] at hc
      have : y c = 0 := by rw [hy]; dsimp only; rw [if_neg (by omega), if_neg (by omega)]
      rw [this, mul_zero]
    have e2 : y j = 1 := by rw [hy]; dsimp only; rw [if_neg (lt_irrefl j), if_pos rfl]
    have e3 : ∑ c ∈ range j, A (sig s.indx j r) c * y c
        = ∑ c ∈ range j, ∑ k ∈ range (c + 1), low s.a r k * (s.a k c * x c) := by
      refine Finset.sum_congr rfl fun c hc => ?_
      rw [Finset.mem_range] at hc
      have : y c = x c := by rw [hy]; dsimp only; rw [if_pos hc]
      rw [this, h.done c hc r hr, Finset.sum_mul]
      exact Finset.sum_congr rfl fun k _ => by ring
    have e4 : ∑ k ∈ range j, ∑ c ∈ Ico k j, low s.a r k * (s.a k c * x c)
        = -∑ k ∈ range j, low s.a r k * v k := by
      rw [← Finset.sum_neg_distrib]
      refine Finset.sum_congr rfl fun k hk => ?_
      rw [← Finset.mul_sum, hsolve k (Finset.mem_range.mp hk)]; ring
    rw [e3, sum_triangle, e4, e2, hcol r hr]
    simp only [Nat.succ_eq_add_one] at *
    rw [e1]; ring
  have hall : ∀ i < n, ∑ c ∈ range n, A i c * y c = 0 := by
    intro i hi
    obtain ⟨r, hr, he⟩ := sig_surj s.indx n j hj.le (fun k hk => (h.idx k hk).2) i hi
    rw [← he]; exact hrow r hr
  have := hA y hall j hj
  have e2 : y j = 1 := by rw [hy]; dsimp only; rw [if_neg (lt_irrefl j), if_pos rfl]
  rw [e2] at this
  exact one_ne_zero this

theorem column_inv {n : ℕ} {A : Mat} (hA : Regular n A) {s : LU} {j : ℕ} (hj : j < n)
    (h : Inv n A s j) : Inv n A (column n s j) (j + 1) := by
  classical
  set u := upper s.a j j with hu
  obtain ⟨u1, u2, u3⟩ := upper_spec s.a j j le_rfl
  rw [← hu] at u1 u2 u3
  have hjn : j + (n - j) = n := by omega
  obtain ⟨l1, l2, l3, l4, l5⟩ := lower_spec s.rs u j s.imax (n - j)
    (fun i _ hi => (h.rs i (by omega)).le)
  set l := lower s.rs u j s.imax (n - j) with hl
  rw [hjn] at l1 l2 l4 l5
  obtain ⟨p1, p2, p3⟩ := l4 (by omega)
  set im := l.2.2 with him
  -- the column before the interchange
  have q1 : ∀ r < j, l.1 r j + ∑ k ∈ range r, s.a r k * l.1 k j = s.a r j := by
    intro r hr
    rw [← u3 r hr, l1 r j (Or.inr (Or.inl hr))]
    congr 1
    refine Finset.sum_congr rfl fun k hk => ?_
    rw [Finset.mem_range] at hk
    rw [l1 k j (Or.inr (Or.inl (by omega)))]
  have q2 : ∀ r, j ≤ r → r < n → l.1 r j + ∑ k ∈ range j, s.a r k * l.1 k j = s.a r j := by
    intro r hr hrn
    rw [← u2 r hr, ← l2 r hr hrn]
    congr 1
    refine Finset.sum_congr rfl fun k hk => ?_
    rw [Finset.mem_range] at hk
    rw [l1 k j (Or.inr (Or.inl hk)), u1 r k (by omega)]
  have q3 : ∀ r c, c ≠ j → l.1 r c = s.a r c := fun r c hc => by
    rw [l1 r c (Or.inl hc), u1 r c hc]
  have hpiv : l.1 im j ≠ 0 := by
    intro h0
    refine pivot_exists hA hj h (fun r => l.1 r j) q1 q2 fun r hr hrn => ?_
    have hle := l5 r hr hrn
    rw [p3, h0, abs_zero, mul_zero] at hle
    have hp := h.rs r hrn
    have : |l.1 r j| ≤ 0 := by
      by_contra hc
      push Not at hc
      have := mul_pos hp hc
      linarith
    exact abs_eq_zero.mp (le_antisymm this (abs_nonneg _))
  -- the array after the interchange
  set a3 : Mat := fun r c => l.1 (swp im j r) c with ha3
  have e3 : (if j ≠ im then fun r c => l.1 (swp im j r) c else l.1) = a3 := by
    split_ifs with hne
    · rfl
    · push Not at hne
      funext r c
      rw [ha3]; dsimp only; rw [← hne, swp_self]
  have hswj : swp im j j = im := by unfold swp; split_ifs <;> omega
  have hjj : a3 j j = l.1 im j := by rw [ha3]; dsimp only; rw [hswj]
  have e4 : (if a3 j j = 0 then put a3 j j tiny else a3) = a3 := if_neg (by rw [hjj]; exact hpiv)
  set d := 1 / a3 j j with hd
  set a5 : Mat := fun r c => if c = j ∧ j < r ∧ r < n then a3 r c * d else a3 r c with ha5
  have hcol : column n s j = ⟨a5, if j ≠ im then putV s.rs im (s.rs j) else s.rs,
      fun r => if r = j then im else s.indx r, im⟩ := by
    unfold column
    simp only [← hu, ← hl, ← him, e3, e4, ← hd, ← ha5]
  rw [hcol]
  have hidx : (fun r => if r = j then im else s.indx r) j = im := if_pos rfl
  have hsig : sig (fun r => if r = j then im else s.indx r) (j + 1)
      = fun r => sig s.indx j (swp im j r) := by
    funext r
    change sig (fun r => if r = j then im else s.indx r) j
      (swp (if j = j then im else s.indx j) j r) = _
    rw [if_pos rfl, sig_congr j (g := s.indx) fun k hk => by
      rw [if_neg (by omega)]]
  have hswn : ∀ r < n, swp im j r < n := fun r hr => swp_lt p2 hj hr
  -- entries of the new array
  have a5lt : ∀ k c, k < j → a5 k c = l.1 k c := by
    intro k c hk
    rw [ha5]; dsimp only
    rw [if_neg (by omega)]
    rw [ha3]; dsimp only; rw [swp_of_lt p1 hk]
  have a5ne : ∀ r c, c ≠ j → a5 r c = s.a (swp im j r) c := by
    intro r c hc
    rw [ha5]; dsimp only
    rw [if_neg (by omega)]
    exact q3 _ c hc
  have a5jj : a5 j j = a3 j j := by rw [ha5]; dsimp only; rw [if_neg (by omega)]
  have hd1 : a3 j j * d = 1 := by
    rw [hd, hjj]; exact mul_one_div_cancel hpiv
  refine ⟨?_, ?_, ?_, ?_, ?_⟩
  · intro k hk
    dsimp only
    by_cases hkj : k = j
    · rw [if_pos hkj, hkj]; exact ⟨p1, p2⟩
    · rw [if_neg hkj]; exact h.idx k (by omega)
  · intro c hc r hr
    dsimp only
    rw [hsig]
    dsimp only
    by_cases hcj : c = j
    · subst hcj
      rw [← h.rest c le_rfl _ (hswn r hr), Finset.sum_range_succ]
      have es : ∑ k ∈ range c, low a5 r k * a5 k c
          = ∑ k ∈ range c, low a5 r k * l.1 k c := by
        refine Finset.sum_congr rfl fun k hk => ?_
        rw [a5lt k c (Finset.mem_range.mp hk)]
      rw [es]
      rcases lt_trichotomy r c with hrc | hrc | hrc
      · rw [swp_of_lt p1 hrc, column_sum a5 (fun k => l.1 k c) r c hrc, ← q1 r hrc]
        have : low a5 r c = 0 := by unfold low; rw [if_neg (by omega), if_neg (by omega)]
        rw [this, zero_mul, add_zero]
        congr 1
        refine Finset.sum_congr rfl fun k hk => ?_
        rw [Finset.mem_range] at hk
        rw [a5ne r k (by omega), swp_of_lt p1 hrc]
      · subst hrc
        have : low a5 r r = 1 := by unfold low; rw [if_neg (by omega), if_pos rfl]
        rw [column_sum_below a5 (fun k => l.1 k r) r r le_rfl, this, one_mul, a5jj, hjj, hswj,
          ← q2 im p1 p2, add_comm]
        congr 1
        refine Finset.sum_congr rfl fun k hk => ?_
        rw [Finset.mem_range] at hk
        rw [a5ne r k (by omega), hswj]
      · have hlw : low a5 r c = a5 r c := by unfold low; rw [if_pos hrc]
        have hsj : c ≤ swp im c r := by unfold swp; split_ifs <;> omega
        have h5 : a5 r c = l.1 (swp im c r) c * d := by
          rw [ha5]; dsimp only; rw [if_pos ⟨rfl, hrc, hr⟩]
        rw [column_sum_below a5 (fun k => l.1 k c) r c hrc.le, hlw, a5jj, h5,
          ← q2 _ hsj (hswn r hr), add_comm]
        have : l.1 (swp im c r) c * d * a3 c c = l.1 (swp im c r) c := by
          rw [mul_assoc, mul_comm d, hd1, mul_one]
        rw [this]
        congr 1
        refine Finset.sum_congr rfl fun k hk => ?_
        rw [Finset.mem_range] at hk
        rw [a5ne r k (by omega)]
    · have hc' : c < j := by omega
      rw [h.done c hc' _ (hswn r hr)]
      refine Finset.sum_congr rfl fun k hk => ?_
      rw [Finset.mem_range] at hk
      have h1 : a5 k c = s.a k c := by
        rw [a5ne k c hcj, swp_of_lt p1 (by omega)]
      rw [h1]
      congr 1
      by_cases hrj : r < j
      · rw [swp_of_lt p1 hrj]
        unfold low
        rw [a5ne r k (by omega), swp_of_lt p1 hrj]
      · have hsj : j ≤ swp im j r := by unfold swp; split_ifs <;> omega
        unfold low
        rw [if_pos (by omega), if_pos (by omega), a5ne r k (by omega)]
  · intro c hc r hr
    dsimp only
    rw [hsig, a5ne r c (by omega)]
    exact h.rest c (by omega) _ (hswn r hr)
  · intro k hk
    dsimp only
    by_cases hkj : k = j
    · rw [hkj, a5jj, hjj]; exact hpiv
    · rw [a5ne k k hkj, swp_of_lt p1 (by omega)]
      exact h.diag k (by omega)
  · intro r hr
    dsimp only
    split_ifs
    · by_cases hri : r = im
      · rw [hri, putV_same]; exact h.rs j hj
      · rw [putV_ne _ _ hri]; exact h.rs r hr
    · exact h.rs r hr

theorem rowMax_nonneg (a : Mat) (i m : ℕ) : 0 ≤ rowMax a i m := by
  induction m with
  | zero => exact le_rfl
  | succ m ih =>
    unfold rowMax
    split_ifs
    · exact abs_nonneg _
    · exact ih

theorem rowMax_zero (a : Mat) (i m : ℕ) : rowMax a i m = 0 ↔ ∀ c < m, a i c = 0 := by
  induction m with
  | zero => exact ⟨fun _ c h => absurd h (Nat.not_lt_zero c), fun _ => rfl⟩
  | succ m ih =>
    have hn := rowMax_nonneg a i m
    unfold rowMax
    split_ifs with h
    · constructor
      · intro h0; rw [h0] at h; linarith
      · intro h0; rw [h0 m (by omega), abs_zero]
    · push Not at h
      rw [ih]
      constructor
      · intro h0 c hc
        by_cases hcm : c = m
        · rw [hcm]
          rw [(ih.mpr h0)] at h
          exact abs_eq_zero.mp (le_antisymm h (abs_nonneg _))
        · exact h0 c (by omega)
      · intro h0 c hc; exact h0 c (by omega)

theorem columns_inv {n : ℕ} {A : Mat} (hA : Regular n A) (s : LU) (h0 : Inv n A s 0) (j : ℕ)
    (hj : j ≤ n) : Inv n A (columns n s j) j := by
  induction j with
  | zero => exact h0
  | succ j ih => exact column_inv hA (by omega) (ih (by omega))

/-- The decomposition followed by the substitutions solves the equations. -/
theorem lubksb_solves {n : ℕ} {A : Mat} {s : LU} (h : Inv n A s n) (b : ℕ → ℝ) :
    ∀ i < n, ∑ c ∈ range n, A i c * lubksb n s b c = b i := by
  intro i hi
  obtain ⟨r, hr, rfl⟩ := sig_surj s.indx n n le_rfl (fun k hk => (h.idx k hk).2) i hi
  obtain ⟨_, f2, _, _⟩ := forward_spec s.a s.indx b n fun k hk => (h.idx k hk).1
  set y := (forward s.a s.indx b n).1 with hy
  have hx : ∀ k < n, ∑ c ∈ Ico k n, s.a k c * lubksb n s b c = y k := fun k hk =>
    backward_solves n s.a y h.diag n le_rfl k (by omega) hk
  have e : ∑ c ∈ range n, A (sig s.indx n r) c * lubksb n s b c
      = ∑ c ∈ range n, ∑ k ∈ range (c + 1), low s.a r k * (s.a k c * lubksb n s b c) := by
    refine Finset.sum_congr rfl fun c hc => ?_
    rw [h.done c (Finset.mem_range.mp hc) r hr, Finset.sum_mul]
    exact Finset.sum_congr rfl fun k _ => by ring
  rw [e, sum_triangle]
  have e2 : ∑ k ∈ range n, ∑ c ∈ Ico k n, low s.a r k * (s.a k c * lubksb n s b c)
      = ∑ k ∈ range n, low s.a r k * y k := by
    refine Finset.sum_congr rfl fun k hk => ?_
    rw [← Finset.mul_sum, hx k (Finset.mem_range.mp hk)]
  rw [e2, column_sum _ _ _ _ hr]
  exact f2 r hr

end Verif.Lin
