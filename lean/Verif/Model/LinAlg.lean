import Mathlib.Data.Real.Basic
import Mathlib.Algebra.BigOperators.Group.Finset.Basic
import Mathlib.Algebra.Order.Group.Abs
import Mathlib.Order.Interval.Finset.Nat

/-!
# Small dense linear systems

Model of `src/utils/matrix_mult.cpp`: `MatrixMult`, LU decomposition with scaled partial
pivoting, substitution, inverse.  Arithmetic is real.  Arrays are functions of natural numbers;
`sum -= x*y` in a loop over entries that the loop does not write is a difference and a sum.
-/

namespace Verif.Lin

open Finset

/-- Contents of an `AthenaArray<Real>` with two indices. -/
abbrev Mat := ℕ → ℕ → ℝ

/-- `a(i,j) = v`. -/
def put (a : Mat) (i j : ℕ) (v : ℝ) : Mat := fun r c => if r = i ∧ c = j then v else a r c

/-- `b(i) = v`. -/
def putV (b : ℕ → ℝ) (i : ℕ) (v : ℝ) : ℕ → ℝ := fun r => if r = i then v else b r

/-- `MatrixMult`, matrix_mult.cpp:24-34. -/
def matVec (n : ℕ) (a : Mat) (b : ℕ → ℝ) (i : ℕ) : ℝ := ∑ j ∈ range n, a i j * b j

/-- `TINY_NUMBER`, defs.hpp.in:146. -/
noncomputable def tiny : ℝ := 1 / 10 ^ 20

open Classical in
/-- `big` of the loop over a row, matrix_mult.cpp:92-94. -/
noncomputable def rowMax (a : Mat) (i : ℕ) : ℕ → ℝ
  | 0 => 0
  | j + 1 => if rowMax a i j < |a i j| then |a i j| else rowMax a i j

/-- State of `Ludcmp_nr`: the array, `rowscale`, `indx` and `imax`.  The sign `d` is not read
by any caller and left out. -/
structure LU where
  a : Mat
  rs : ℕ → ℝ
  indx : ℕ → ℕ
  imax : ℕ

/-- The upper block of column `j`, rows below `i`, matrix_mult.cpp:105-113. -/
def upper (a : Mat) (j : ℕ) : ℕ → Mat
  | 0 => a
  | i + 1 =>
    let a := upper a j i
    put a i j (a i j - ∑ k ∈ range i, a i k * a k j)

open Classical in
/-- The lower block of column `j`, first step, and the search for the pivot,
matrix_mult.cpp:115-129: `m` rows from `j` on.  Result: the array, `big`, `imax`. -/
noncomputable def lower (rs : ℕ → ℝ) (a : Mat) (j imax : ℕ) : ℕ → Mat × ℝ × ℕ
  | 0 => (a, 0, imax)
  | m + 1 =>
    let s := lower rs a j imax m
    let i := j + m
    let sum := s.1 i j - ∑ k ∈ range j, s.1 i k * s.1 k j
    let a := put s.1 i j sum
    if s.2.1 ≤ rs i * |sum| then (a, rs i * |sum|, i) else (a, s.2.1, s.2.2)

/-- Row `r` after rows `i` and `j` are interchanged. -/
def swp (i j r : ℕ) : ℕ := if r = i then j else if r = j then i else r

open Classical in
/-- One column of Crout's method, matrix_mult.cpp:103-146.  Rows are interchanged in all
columns (the code stops at column `n`, beyond which there is nothing). -/
noncomputable def column (n : ℕ) (s : LU) (j : ℕ) : LU :=
  let l := lower s.rs (upper s.a j j) j s.imax (n - j)
  let imax := l.2.2
  let a := if j ≠ imax then fun r c => l.1 (swp imax j r) c else l.1
  let rs := if j ≠ imax then putV s.rs imax (s.rs j) else s.rs
  let indx := fun r => if r = j then imax else s.indx r
  let a := if a j j = 0 then put a j j tiny else a
  let dum := 1 / a j j
  let a := fun r c => if c = j ∧ j < r ∧ r < n then a r c * dum else a r c
  ⟨a, rs, indx, imax⟩

/-- The loop over columns, matrix_mult.cpp:103. -/
noncomputable def columns (n : ℕ) (s : LU) : ℕ → LU
  | 0 => s
  | j + 1 => column n (columns n s j) j

open Classical in
/-- `Ludcmp_nr`, matrix_mult.cpp:78-147; `none` is the exception for a row of zeros.  `indx` is
zero before it is set. -/
noncomputable def ludcmp (n : ℕ) (a : Mat) : Option LU :=
  if ∃ i < n, rowMax a i n = 0 then none
  else some (columns n ⟨a, fun i => 1 / rowMax a i n, fun _ => 0, 0⟩ n)

open Classical in
/-- Forward substitution of `Lubksb_nr`, matrix_mult.cpp:164-177: the vector and `ii`
(`none` is `-1`). -/
noncomputable def forward (a : Mat) (indx : ℕ → ℕ) (b : ℕ → ℝ) : ℕ → (ℕ → ℝ) × Option ℕ
  | 0 => (b, none)
  | i + 1 =>
    let s := forward a indx b i
    let ip := indx i
    let sum := s.1 ip
    let b := putV s.1 ip (s.1 i)
    match s.2 with
    | some ii => (putV b i (sum - ∑ j ∈ Ico ii i, a i j * b j), some ii)
    | none => (putV b i sum, if sum ≠ 0 then some i else none)

/-- Backward substitution of `Lubksb_nr`, matrix_mult.cpp:179-187, after `m` rows from the
last. -/
noncomputable def backward (n : ℕ) (a : Mat) (b : ℕ → ℝ) : ℕ → ℕ → ℝ
  | 0 => b
  | m + 1 =>
    let b := backward n a b m
    let i := n - 1 - m
    putV b i ((b i - ∑ j ∈ Ico (i + 1) n, a i j * b j) / a i i)

/-- `Lubksb_nr`, matrix_mult.cpp:160-188. -/
noncomputable def lubksb (n : ℕ) (s : LU) (b : ℕ → ℝ) : ℕ → ℝ :=
  backward n s.a (forward s.a s.indx b n).1 n

/-- `InverseMatrix`, matrix_mult.cpp:42-63. -/
noncomputable def inverseMatrix (n : ℕ) (a : Mat) : Option Mat :=
  (ludcmp n a).map fun s i j => lubksb n s (fun r => if r = j then 1 else 0) i

end Verif.Lin
