import Mathlib.Analysis.SpecialFunctions.Trigonometric.Basic

/-!
# Angular grids of the radiation module

Model of `src/nr_radiation/angulargrid.cpp`, of `src/utils/permutation.cpp` and of the
numbers of angles in `src/nr_radiation/radiation.cpp:143-195`.  Arithmetic is real.

Not modelled: the one dimensional grid of `angle_flag = 0` (Gauss-Legendre, `Gauleg`), the
faces `zeta_f`, `psi_f` and lengths of angular cells, and `ConvertAngle`, which is empty for
Cartesian coordinates and rotates the directions otherwise.
-/

namespace Verif.Rad

/-- A direction with its weight: `mu(0..2,k,j,i,n)` and `wmu(n)`. -/
structure Ray where
  x : ℝ
  y : ℝ
  z : ℝ
  w : ℝ

/-- Levels, kept as a triple of indices. -/
abbrev Tri := ℕ × ℕ × ℕ

/-! ### `angle_flag = 0` : level symmetric quadrature -/

/-- `deltamu`, angulargrid.cpp:78. -/
noncomputable def deltamu (nmu : ℕ) : ℝ := 2 / (2 * nmu - 1)

/-- `mu2tmp`, angulargrid.cpp:79-82. -/
noncomputable def mu2 (nmu : ℕ) : ℕ → ℝ
  | 0 => 1 / (3 * (2 * nmu - 1))
  | i + 1 => mu2 nmu i + deltamu nmu

/-- `w2` when `wtmp2(i)` is set by the loop, angulargrid.cpp:84-89. -/
noncomputable def w2 (nmu : ℕ) : ℕ → ℝ
  | 0 => 4 * mu2 nmu 0
  | i + 1 => w2 nmu i + deltamu nmu

/-- `wsum2` after the loop, angulargrid.cpp:85-92: `wtmp2(0)` and the entries `1 .. nmu-3`. -/
noncomputable def wsum2 (nmu : ℕ) : ℝ :=
  √(w2 nmu 0) + ((List.range (nmu - 3)).map (fun l => √(w2 nmu (l + 1)))).sum

/-- `wtmp2`, angulargrid.cpp:84-95. -/
noncomputable def wtmp2 (nmu i : ℕ) : ℝ :=
  if 2 < nmu ∧ i = nmu - 2 then 2 * (nmu - 1) / 3 - wsum2 nmu else √(w2 nmu i)

/-- `wtmp(i)` for `i < nmu-1`, angulargrid.cpp:97-100. -/
noncomputable def wlev (nmu : ℕ) : ℕ → ℝ
  | 0 => wtmp2 nmu 0
  | i + 1 => wtmp2 nmu (i + 1) - wtmp2 nmu i

/-- `wtmp`, angulargrid.cpp:97-103: the last entry is what is missing from one. -/
noncomputable def wtmp (nmu i : ℕ) : ℝ :=
  if i = nmu - 1 then 1 - ((List.range (nmu - 1)).map (wlev nmu)).sum else wlev nmu i

/-- The triples visited by the three loops with `i + j + k == nmu - 1`, in the order of the
loops, angulargrid.cpp:113-116. -/
def triples (nmu : ℕ) : List Tri :=
  ((List.range nmu).flatMap fun i => (List.range nmu).flatMap fun j =>
    (List.range nmu).map fun k => (i, j, k)).filter fun t => t.1 + t.2.1 + t.2.2 = nmu - 1

/-- The test of `Permutation` on one row `p` of the table, permutation.cpp:23-41: some
positions `m`, `n`, `o`, pairwise different, hold `i`, `j`, `k`. -/
def sameFam (t p : Tri) : Bool :=
  (t.1 == p.1 && (t.2.1 == p.2.1 && t.2.2 == p.2.2 || t.2.1 == p.2.2 && t.2.2 == p.2.1)) ||
  (t.1 == p.2.1 && (t.2.1 == p.1 && t.2.2 == p.2.2 || t.2.1 == p.2.2 && t.2.2 == p.1)) ||
  (t.1 == p.2.2 && (t.2.1 == p.1 && t.2.2 == p.2.1 || t.2.1 == p.2.1 && t.2.2 == p.1))

/-- `Permutation`, permutation.cpp:19-44: the last row of the table that matches. -/
def permutation (t : Tri) : List Tri → Option ℕ
  | [] => none
  | p :: ps =>
    match permutation t ps with
    | some l => some (l + 1)
    | none => if sameFam t p then some 0 else none

/-- The loop body with the table `pl`, angulargrid.cpp:122-134: every triple gets a label, a
new family extends the table.  Result: the final table and the triples with `plab`. -/
def families : List Tri → List Tri → List Tri × List (Tri × ℕ)
  | pl, [] => (pl, [])
  | pl, t :: ts =>
    match permutation t pl with
    | none => let r := families (pl ++ [t]) ts; (r.1, (t, pl.length) :: r.2)
    | some ip => let r := families pl ts; (r.1, (t, ip) :: r.2)

/-- The table `pl` after the loops; its length is the final `np`. -/
def famTable (nmu : ℕ) : List Tri := (families [] (triples nmu)).1

/-- `plab`, with the triple the angle comes from. -/
def labels (nmu : ℕ) : List (Tri × ℕ) := (families [] (triples nmu)).2

/-- `pmat(i,p)`, angulargrid.cpp:108-111, 127, 131: one is added for every angle of first
index `i` and label `p`. -/
def pmat (nmu i p : ℕ) : ℕ := ((labels nmu).filter fun e => e.1.1 = i ∧ e.2 = p).length

/-- `mutmp(iang,0..2)`, angulargrid.cpp:118-120. -/
noncomputable def mutmp (nmu : ℕ) (t : Tri) : ℝ × ℝ × ℝ :=
  (√(mu2 nmu t.2.1), √(mu2 nmu t.2.2), √(mu2 nmu t.1))

/-- `± v`, the first sign when the index of the octant is zero, angulargrid.cpp:210-224. -/
def sgn (b : ℕ) (v : ℝ) : ℝ := if b = 0 then v else -v

/-- The eight octants `(j,k,l)` in the order `m = 4*j+2*k+l`, angulargrid.cpp:203-206. -/
def octants : List (ℕ × ℕ × ℕ) :=
  (List.range 2).flatMap fun j => (List.range 2).flatMap fun k => (List.range 2).map fun l =>
    (j, k, l)

/-- The four quadrants `(j,k)` in the order `l = 2*j+k`, angulargrid.cpp:174-176. -/
def quadrants : List (ℕ × ℕ) :=
  (List.range 2).flatMap fun j => (List.range 2).map fun k => (j, k)

/-- The directions and weights of the three dimensional grid for `nmu > 1`,
angulargrid.cpp:146-150 and 199-236.  `wpf` are the weights of the families. -/
noncomputable def grid3 (nmu : ℕ) (wpf : ℕ → ℝ) : List Ray :=
  octants.flatMap fun o => (labels nmu).map fun e =>
    { x := sgn o.2.2 (mutmp nmu e.1).1
      y := sgn o.2.1 (mutmp nmu e.1).2.1
      z := sgn o.1 (mutmp nmu e.1).2.2
      w := wpf e.2 * 0.125 }

/-- The two dimensional grid for `nmu > 1`, angulargrid.cpp:146-150 and 170-199.  Only the
first two components are stored; `z` is left at zero. -/
noncomputable def grid2 (nmu : ℕ) (wpf : ℕ → ℝ) : List Ray :=
  quadrants.flatMap fun o => (labels nmu).map fun e =>
    { x := sgn o.2 (mutmp nmu e.1).1
      y := sgn o.1 (mutmp nmu e.1).2.1
      z := 0
      w := wpf e.2 * 0.25 }

/-! ### `angle_flag = 10` -/

/-- `phi*(Real)(2*i+1)`, angulargrid.cpp:247-251. -/
noncomputable def phi10 (nmu i : ℕ) : ℝ := 0.5 * Real.pi / (2 * nmu) * (2 * i + 1)

/-- The grid of `angle_flag = 10`, angulargrid.cpp:245-280, for two dimensions. -/
noncomputable def grid10 (nmu : ℕ) : List Ray :=
  quadrants.flatMap fun o => (List.range nmu).map fun i =>
    { x := sgn o.2 (√2 / √3 * Real.cos (phi10 nmu i))
      y := sgn o.1 (√2 / √3 * Real.sin (phi10 nmu i))
      z := 0
      w := 0.25 / nmu }

/-! ### `angle_flag = 1` -/

/-- `coszeta_f(i)` for `i ≤ nzeta`, angulargrid.cpp:337-342. -/
noncomputable def coszetaF (cmax : ℝ) (nz i : ℕ) : ℝ :=
  if i = nz then 0 else cmax - i * (cmax / nz)

/-- `coszeta_v(i)` for `i < nzeta`, angulargrid.cpp:346-357. -/
noncomputable def coszetaUp (polar : Bool) (cmax : ℝ) (nz i : ℕ) : ℝ :=
  let m := 0.5 * (coszetaF cmax nz i + coszetaF cmax nz (i + 1))
  if polar then m else m * (2 * nz / √(4 * nz * nz - 1))

/-- `coszeta_v(i)`, angulargrid.cpp:346-360: the lower half mirrors the upper one. -/
noncomputable def coszeta (polar : Bool) (cmax : ℝ) (nz i : ℕ) : ℝ :=
  if i < nz then coszetaUp polar cmax nz i else -coszetaUp polar cmax nz (2 * nz - i - 1)

/-- `psi_v(i)`, angulargrid.cpp:439-445. -/
noncomputable def psiV (np i : ℕ) : ℝ :=
  if i < np then (i + 0.5) * (Real.pi / np)
  else 2 * Real.pi - ((2 * np - i - 1 : ℕ) + 0.5) * (Real.pi / np)

/-- `coszeta_max`, angulargrid.cpp:319-322. -/
noncomputable def coszetaMax (polar : Bool) (nang : ℕ) : ℝ :=
  if polar then (nang - 2) / nang else 1

/-- The two directions of `polar_angle`, angulargrid.cpp:579-586. -/
noncomputable def poles (nang : ℕ) : List Ray :=
  [⟨0, 0, 1, 1 / nang⟩, ⟨0, 0, -1, 1 / nang⟩]

/-- The three dimensional grid (also two dimensional in spherical polar coordinates with
`npsi > 1`), angulargrid.cpp:528-547, 567-588, 593-595: `x`, `y`, `z` stand for the axes
`axisx`, `axisy`, `axisz`. -/
noncomputable def gridZ (polar : Bool) (nang nz np : ℕ) : List Ray :=
  ((List.range (2 * nz)).flatMap fun n => (List.range (2 * np)).map fun m =>
    { x := √(1 - coszeta polar (coszetaMax polar nang) nz n *
          coszeta polar (coszetaMax polar nang) nz n) * Real.cos (psiV np m)
      y := √(1 - coszeta polar (coszetaMax polar nang) nz n *
          coszeta polar (coszetaMax polar nang) nz n) * Real.sin (psiV np m)
      z := coszeta polar (coszetaMax polar nang) nz n
      w := 1 / (nang : ℝ) }) ++ (if polar then poles nang else [])

/-- Two dimensions, `npsi = 1`, angulargrid.cpp:508-526, without `polar_angle`. -/
noncomputable def gridZ1 (nang nz : ℕ) : List Ray :=
  (List.range (2 * nz)).flatMap fun n => (List.range 2).map fun m =>
    { x := if m = 0 then √(1 - coszeta false 1 nz n * coszeta false 1 nz n)
        else -√(1 - coszeta false 1 nz n * coszeta false 1 nz n)
      y := 0
      z := coszeta false 1 nz n
      w := 1 / (nang : ℝ) }

/-- Two dimensions, `npsi > 1`, not spherical polar, angulargrid.cpp:548-557, without
`polar_angle`: the loop sets `2*npsi` directions, the others stay zero, and all `nang` angles
have the same weight. -/
noncomputable def gridPlane (nang np : ℕ) : List Ray :=
  (List.range nang).map fun m =>
    { x := if m < 2 * np then Real.cos (psiV np m) else 0
      y := if m < 2 * np then Real.sin (psiV np m) else 0
      z := 0
      w := 1 / (nang : ℝ) }

/-- Numbers of angles for `angle_flag = 1`, radiation.cpp:145-173, with `nang = n_ang*noct`
and the two polar angles, radiation.cpp:194-198.  `sph` is spherical polar coordinates. -/
def nangZeta (ndim : ℕ) (sph polar : Bool) (nz np : ℕ) : ℕ :=
  (if ndim = 1 then nz * 2
   else if ndim = 2 then
    (if sph then nz * np / 2 * 8
     else (if np ≤ 1 then nz else if nz = 0 then np / 2 else nz * np) * 4)
   else nz * np / 2 * 8) + (if polar then 2 else 0)

end Verif.Rad
