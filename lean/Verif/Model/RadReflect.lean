import Mathlib.Data.Real.Basic
import Mathlib.Data.List.Basic
import Mathlib.Logic.Function.Basic

/-!
Reflecting boundary of radiation at the x1 faces, bvals/cc/nr_radiation/reflect_rad.cpp.  The row
of cells along x1 is one stretch of memory, as `ir` is allocated with the angles as the fastest index
(nr_radiation/radiation.cpp:70): addresses are natural numbers and an index past the angles of a cell
is the next cell.
-/

namespace Verif.RadReflect

/-- Sequential copies `mem[p.1] = mem[p.2]`. -/
def run (l : List (ℕ × ℕ)) (mem : ℕ → ℝ) : ℕ → ℝ :=
  l.foldl (fun a p => Function.update a p.1 (a p.2)) mem

/-- `CopyIntensity`, reflect_rad.cpp:31-39, as a list of copies; `pin` and `pout` are the addresses
`iri` and `iro`. -/
def copyIntensity (pin pout li lo nAng : ℕ) : List (ℕ × ℕ) :=
  (List.range nAng).flatMap fun n =>
    [(pout + (li * nAng + n), pin + (lo * nAng + n)), (pout + (lo * nAng + n), pin + (li * nAng + n))]

/-- Pairs of octants exchanged at an x1 face, reflect_rad.cpp:61-68. -/
def octantsX1 (noct : ℕ) : List (ℕ × ℕ) :=
  [(0, 1)] ++ (if noct > 2 then [(2, 3)] else []) ++ (if noct > 3 then [(4, 5), (6, 7)] else [])

/-- Address of the first angle of group `ifr` in cell `i`, reflect_rad.cpp:59-60; `nang = noct*n_ang`. -/
def base (nfreq noct nAng i ifr : ℕ) : ℕ := (i * nfreq + ifr) * (noct * nAng)

/-- The loops of the x1 faces, reflect_rad.cpp:54-72 and 90-108, for one row of cells: `src i` and
`dst i` are the cells of `iri` and `iro`. -/
def reflectX1 (src dst : ℕ → ℕ) (ngh nfreq noct nAng : ℕ) : List (ℕ × ℕ) :=
  (List.range ngh).flatMap fun i0 =>
    (List.range nfreq).flatMap fun ifr =>
      (octantsX1 noct).flatMap fun o =>
        copyIntensity (base nfreq noct nAng (src (i0 + 1)) ifr) (base nfreq noct nAng (dst (i0 + 1)) ifr)
          o.1 o.2 nAng

/-- `ReflectInnerX1`, reflect_rad.cpp:46-74. -/
def reflectInnerX1 (il ngh nfreq noct nAng : ℕ) : List (ℕ × ℕ) :=
  reflectX1 (fun i => il + i - 1) (fun i => il - i) ngh nfreq noct nAng

/-- `ReflectOuterX1`, reflect_rad.cpp:82-110. -/
def reflectOuterX1 (iu ngh nfreq noct nAng : ℕ) : List (ℕ × ℕ) :=
  reflectX1 (fun i => iu - i + 1) (fun i => iu + i) ngh nfreq noct nAng

/-- First cosine in two and three dimensions (`angle_flag == 0`), nr_radiation/angulargrid.cpp:181-185
and 211-215: the parity of the octant gives its sign. -/
def cosX (nAng : ℕ) (mutmp : ℕ → ℝ) (mi : ℕ) : ℝ :=
  if mi / nAng % 2 = 0 then mutmp (mi % nAng) else -mutmp (mi % nAng)

/-! ### The other faces -/

/-- Pairs of octants exchanged at an x2 face, reflect_rad.cpp:133-139. -/
def octantsX2 (noct : ℕ) : List (ℕ × ℕ) :=
  [(0, 2), (1, 3)] ++ if noct > 3 then [(4, 6), (5, 7)] else []

/-- Pairs of octants exchanged at an x3 face, reflect_rad.cpp:208-211. -/
def octantsX3 : List (ℕ × ℕ) := [(0, 4), (1, 5), (2, 6), (3, 7)]

/-- The loops of the x2 and x3 faces, reflect_rad.cpp:126-143, 163-180, 201-215 and 232-246.  A cell has
number `row*N + r`: for x2 a row is a line of `N = ncells1` cells (of one plane), for x3 a plane of
`N = ncells1*ncells2`; `rs` are the cells of a row the loops visit, `src`, `dst` the rows of `iri` and
`iro`. -/
def reflectRows (octs : List (ℕ × ℕ)) (src dst : ℕ → ℕ) (N : ℕ) (rs : List ℕ)
    (ngh nfreq noct nAng : ℕ) : List (ℕ × ℕ) :=
  (List.range ngh).flatMap fun j0 =>
    rs.flatMap fun r =>
      (List.range nfreq).flatMap fun ifr =>
        octs.flatMap fun o =>
          copyIntensity (base nfreq noct nAng (src (j0 + 1) * N + r) ifr)
            (base nfreq noct nAng (dst (j0 + 1) * N + r) ifr) o.1 o.2 nAng

/-- `ReflectInnerX2`, reflect_rad.cpp:117-145, and `ReflectInnerX3`, reflect_rad.cpp:192-217. -/
def reflectInner (octs : List (ℕ × ℕ)) (jl N : ℕ) (rs : List ℕ) (ngh nfreq noct nAng : ℕ) :
    List (ℕ × ℕ) :=
  reflectRows octs (fun j => jl + j - 1) (fun j => jl - j) N rs ngh nfreq noct nAng

/-- `ReflectOuterX2`, reflect_rad.cpp:154-182, and `ReflectOuterX3`, reflect_rad.cpp:224-248. -/
def reflectOuter (octs : List (ℕ × ℕ)) (ju N : ℕ) (rs : List ℕ) (ngh nfreq noct nAng : ℕ) :
    List (ℕ × ℕ) :=
  reflectRows octs (fun j => ju - j + 1) (fun j => ju + j) N rs ngh nfreq noct nAng

/-- Cosines in three dimensions, nr_radiation/angulargrid.cpp:203-225: axis `a` has the sign of bit `a`
of the octant. -/
def cosAxis (nAng : ℕ) (mutmp : ℕ → ℕ → ℝ) (a mi : ℕ) : ℝ :=
  if mi / nAng / 2 ^ a % 2 = 0 then mutmp (mi % nAng) a else -mutmp (mi % nAng) a

end Verif.RadReflect
