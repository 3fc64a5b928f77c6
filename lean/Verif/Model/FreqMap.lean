import Mathlib.Data.Real.Basic
import Mathlib.Algebra.BigOperators.Group.Finset.Basic
import Mathlib.Algebra.BigOperators.Intervals
import Mathlib.Data.Finset.Card

/-!
Maps of the intensities between the frequency grid of the lab frame and the Doppler-shifted grid of
the co-moving frame, nr_radiation/integrators/multi_group.cpp.  Real numbers for `Real`.
-/

namespace Verif.FreqMap

open scoped BigOperators

/-- What the code stores for one source bin: `map_start`, `map_end` and the row of `split_ratio`. -/
structure Row where
  lo : ℕ
  hi : ℕ
  ratio : ℕ → ℝ

/-- Intensities at the faces of the bins, `GetCmMCIntensity`, multi_group.cpp:73-83. -/
noncomputable def face (ir dnu : ℕ → ℝ) : ℕ → ℝ
  | 0 => 0
  | f + 1 => max (2 * ir f / dnu f - face ir dnu f) 0

open Classical in
/-- `while ((x > g[l+1]) && (l < nfreq-1)) l++`, multi_group.cpp:114, 116, 425, 427; the first
argument after `x` bounds the number of passes (`nfreq` suffices). -/
noncomputable def up (n : ℕ) (g : ℕ → ℝ) (x : ℝ) : ℕ → ℕ → ℕ
  | 0, l => l
  | k + 1, l => if x > g (l + 1) ∧ l < n - 1 then up n g x k (l + 1) else l

open Classical in
/-- The indices of `g` which that loop reads: the frequency is compared before the index is. -/
noncomputable def upReads (n : ℕ) (g : ℕ → ℝ) (x : ℝ) : ℕ → ℕ → List ℕ
  | 0, _ => []
  | k + 1, l => (l + 1) :: if x > g (l + 1) ∧ l < n - 1 then upReads n g x k (l + 1) else []

open Classical in
/-- `while ((x < g[r]) && (r > 0)) r--`, multi_group.cpp:141, 143, 160, 452, 454, 475. -/
noncomputable def down (g : ℕ → ℝ) (x : ℝ) : ℕ → ℕ
  | 0 => 0
  | r + 1 => if x < g (r + 1) then down g x r else r + 1

open Classical in
/-- The ratio `split_ratio[j]`, `j < r_bd - l_bd`, of `SplitFrequencyBinLinear`,
multi_group.cpp:341-364. -/
noncomputable def piece (tiny : ℝ) (g : ℕ → ℝ) (l : ℕ) (nul nur irl irr : ℝ) (j : ℕ) : ℝ :=
  let d := 1 / (nur - nul)
  if irl + irr < tiny then
    if j = 0 then (g (l + 1) - nul) * d else (g (l + j + 1) - g (l + j)) * d
  else if j = 0 then
    let q := (g (l + 1) - nul) * d
    ((irl + (irr - irl) * q + irl) / (irl + irr)) * q
  else
    let q := (g (l + j + 1) - g (l + j)) * d
    let q2 := (g (l + j + 1) - nul) * d
    let q1 := (g (l + j) - nul) * d
    ((irl + (irr - irl) * q1 + (irl + (irr - irl) * q2)) / (irl + irr)) * q

/-- `SplitFrequencyBinLinear`, multi_group.cpp:331-370; `old` is what the row of `split_ratio` held
before the call: slots behind `r_bd - l_bd` are not written. -/
noncomputable def splitLinear (tiny : ℝ) (g : ℕ → ℝ) (l r : ℕ) (nul nur irl irr : ℝ)
    (old : ℕ → ℝ) (j : ℕ) : ℝ :=
  if r = l then (if j = 0 then 1 else old j)
  else if j < r - l then piece tiny g l nul nur irl irr j
  else if j = r - l then 1 - ∑ i ∈ Finset.range (r - l), piece tiny g l nul nur irl irr i
  else old j

/-- Rows for source faces `s` at or above the faces `g` of the target grid: `ForwardSplitting` with
`tran_coef >= 1`, multi_group.cpp:107-133, and `BackwardSplitting` with `tran_coef < 1`,
multi_group.cpp:418-444. -/
noncomputable def rowUp (tiny : ℝ) (n : ℕ) (g s fc : ℕ → ℝ) (old : ℕ → ℕ → ℝ) (f : ℕ) : Row :=
  if f < n - 1 then
    let l := up n g (s f) n f
    let r := up n g (s (f + 1)) n l
    ⟨l, r, splitLinear tiny g l r (s f) (s (f + 1)) (fc f) (fc (f + 1)) (old f)⟩
  else ⟨n - 1, n - 1, fun j => if j = 0 then 1 else old f j⟩

open Classical in
/-- `div_ori`, multi_group.cpp:170-172, 485-488. -/
noncomputable def divOri (tiny : ℝ) (P : ℝ → ℝ) (nutr : ℝ) : ℝ :=
  if 1 - P nutr > tiny then 1 / (1 - P nutr) else 0

/-- Ratios of the last bin but the last of them, multi_group.cpp:175-187, 489-502; `P` is
`FitIntPlanckFunc`, `nutr` the value of `EffectiveBlackBody`, both left open. -/
noncomputable def tailPiece (tiny : ℝ) (g : ℕ → ℝ) (l : ℕ) (nul : ℝ) (P : ℝ → ℝ) (nutr : ℝ)
    (j : ℕ) : ℝ :=
  if j = 0 then (P (nutr * g (l + 1) / nul) - P nutr) * divOri tiny P nutr
  else (P (nutr * g (l + j + 1) / nul) - P (nutr * g (l + j) / nul)) * divOri tiny P nutr

/-- Rows for source faces at or below the faces of the target grid: `ForwardSplitting` with
`tran_coef < 1`, multi_group.cpp:134-196, and `BackwardSplitting` with `tran_coef >= 1`,
multi_group.cpp:445-504. -/
noncomputable def rowDown (tiny : ℝ) (n : ℕ) (g s fc : ℕ → ℝ) (P : ℝ → ℝ) (nutr : ℝ)
    (old : ℕ → ℕ → ℝ) (f : ℕ) : Row :=
  if f < n - 1 then
    let r := down g (s (f + 1)) f
    let l := down g (s f) r
    ⟨l, r, splitLinear tiny g l r (s f) (s (f + 1)) (fc f) (fc (f + 1)) (old f)⟩
  else
    let l := down g (s (n - 1)) (n - 2)
    ⟨l, n - 1, fun j =>
      if j < n - 1 - l then tailPiece tiny g l (s (n - 1)) P nutr j
      else if j = n - 1 - l then
        1 - ∑ i ∈ Finset.range (n - 1 - l), tailPiece tiny g l (s (n - 1)) P nutr i
      else old f j⟩

open Classical in
/-- `ForwardSplitting`, multi_group.cpp:91-198; `none` for the fatal error.  The width of the last
bin's row is not compared with `nmax_map_`. -/
noncomputable def forward (tiny : ℝ) (n nmax : ℕ) (nu fc : ℕ → ℝ) (t : ℝ) (P : ℝ → ℝ) (nutr : ℝ)
    (old : ℕ → ℕ → ℝ) : Option (ℕ → Row) :=
  let R := if t ≥ 1 then rowUp tiny n nu (fun i => nu i * t) fc old
    else rowDown tiny n nu (fun i => nu i * t) fc P nutr old
  if 2 ≤ n ∧ ∀ f < n - 1, (R f).hi - (R f).lo + 1 ≤ nmax then some R else none

open Classical in
/-- `BackwardSplitting`, multi_group.cpp:397-506. -/
noncomputable def backward (tiny : ℝ) (n nmax : ℕ) (nu fc : ℕ → ℝ) (t : ℝ) (P : ℝ → ℝ) (nutr : ℝ)
    (old : ℕ → ℕ → ℝ) : Option (ℕ → Row) :=
  let R := if t < 1 then rowUp tiny n (fun i => nu i * t) nu fc old
    else rowDown tiny n (fun i => nu i * t) nu fc P nutr old
  if 2 ≤ n ∧ ∀ f < n - 1, (R f).hi - (R f).lo + 1 ≤ nmax then some R else none

/-- `MapIrcmFrequency`, multi_group.cpp:203-230; the `+=` of the two loops written as a sum over the
source bins. -/
noncomputable def mapFreq (n : ℕ) (R : ℕ → Row) (input : ℕ → ℝ) (m : ℕ) : ℝ :=
  ∑ f ∈ Finset.range n,
    if (R f).lo ≤ m ∧ m ≤ (R f).hi then input f * (R f).ratio (m - (R f).lo) else 0

open Classical in
/-- The test of the diagonal in `FreMapMatrix`, multi_group.cpp:245-251, from bin `f` on; `none` for
an index `ifr - map_bin_start(ifr)` outside the row of `nmax_map_` slots. -/
noncomputable def diagOk (tiny : ℝ) (n nmax : ℕ) (R : ℕ → Row) : ℕ → ℕ → Option Bool
  | 0, _ => some true
  | k + 1, f =>
    if (R f).lo ≤ f ∧ f - (R f).lo < nmax then
      if (R f).ratio (f - (R f).lo) < tiny then some false else diagOk tiny n nmax R k (f + 1)
    else none

/-- `map_count`, multi_group.cpp:264, 277. -/
def count (n : ℕ) (R : ℕ → Row) (m : ℕ) : ℕ :=
  ((Finset.range n).filter fun f => (R f).lo ≤ m ∧ m ≤ (R f).hi).card

/-- `map_matrix(m, j)` for `tran_coef >= 1`, multi_group.cpp:253-265. -/
noncomputable def matUp (n : ℕ) (R : ℕ → Row) (m j : ℕ) : ℝ :=
  if j ≤ m ∧ m - j < n ∧ (R (m - j)).lo ≤ m ∧ m ≤ (R (m - j)).hi then
    (R (m - j)).ratio (m - (R (m - j)).lo) else 0

/-- `map_matrix(m, j)` for `tran_coef < 1`, multi_group.cpp:266-280. -/
noncomputable def matDown (n : ℕ) (R : ℕ → Row) (m j : ℕ) : ℝ :=
  if m + j < n ∧ (R (m + j)).lo ≤ m ∧ m ≤ (R (m + j)).hi then
    (R (m + j)).ratio (m - (R (m + j)).lo) else 0

/-- `shift_array` of `InverseMapFrequency` after bins `0 .. k`, `tran_coef >= 1`,
multi_group.cpp:297-310. -/
noncomputable def solveUp (n : ℕ) (R : ℕ → Row) (input : ℕ → ℝ) : ℕ → ℕ → ℝ
  | 0 => Function.update (fun _ => 0) 0 (input 0 / matUp n R 0 0)
  | k + 1 =>
    let a := solveUp n R input k
    Function.update a (k + 1)
      ((input (k + 1) -
        ∑ m ∈ Finset.Ico 1 (count n R (k + 1)), matUp n R (k + 1) m * a (k + 1 - m)) /
        matUp n R (k + 1) 0)

/-- `shift_array` after bins `nfreq-1 .. nfreq-1-k`, `tran_coef < 1`, multi_group.cpp:311-326. -/
noncomputable def solveDown (n : ℕ) (R : ℕ → Row) (input : ℕ → ℝ) : ℕ → ℕ → ℝ
  | 0 => Function.update (fun _ => 0) (n - 1) (input (n - 1) / matDown n R (n - 1) 0)
  | k + 1 =>
    let a := solveDown n R input k
    let i := n - 2 - k
    Function.update a i
      ((input i - ∑ m ∈ Finset.Ico 1 (count n R i), matDown n R i m * a (i + m)) /
        matDown n R i 0)

open Classical in
/-- `InverseMapFrequency`, multi_group.cpp:288-328; `none` when it returns `false`.  The bin treated
first is not tested for a negative value. -/
noncomputable def inverse (n : ℕ) (R : ℕ → Row) (t : ℝ) (input : ℕ → ℝ) : Option (ℕ → ℝ) :=
  if t ≥ 1 then
    if ∃ i, 1 ≤ i ∧ i < n ∧ solveUp n R input (n - 1) i < 0 then none
    else some (solveUp n R input (n - 1))
  else
    if ∃ i, i < n - 1 ∧ solveDown n R input (n - 1) i < 0 then none
    else some (solveDown n R input (n - 1))

/-- From the co-moving grid back to the lab grid, rad_source.cpp:204-222: the inverse of the stored
map if there is one without negative intensities, otherwise `MapCmToLabFrequency`,
multi_group.cpp:376-390.  `R` are the rows of the forward map, `B` those of the backward map. -/
noncomputable def toLab (tiny : ℝ) (n nmax : ℕ) (R : ℕ → Row) (B : Option (ℕ → Row)) (t : ℝ)
    (input : ℕ → ℝ) : Option (ℕ → ℝ) :=
  match diagOk tiny n nmax R n 0 with
  | none => none
  | some true =>
    match inverse n R t input with
    | some a => some a
    | none => B.map fun b => mapFreq n b input
  | some false => B.map fun b => mapFreq n b input

end Verif.FreqMap
