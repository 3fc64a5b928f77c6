import Verif.Model.Grid
import Mathlib.Data.Real.Basic
import Mathlib.Data.Nat.Bitwise

/-!
# Multigrid solver of self-gravity: the kernels and the V-cycle

`MGGravity` (mg_gravity.cpp) and the parts of `Multigrid` and `MultigridDriver` it runs on a mesh without refinement,
in exact arithmetic. There is one variable (`nvar_ = 1` for gravity), so arrays have the indices `(k, j, i)`.
-/
namespace Verif.Mg
open Verif.Arr (loop)
open Verif.Grid (A3 rng2)

/-- The arguments `il, iu, jl, ju, kl, ku` of the kernels. -/
structure Box where
  kl : ℤ
  ku : ℤ
  jl : ℤ
  ju : ℤ
  il : ℤ
  iu : ℤ

/-- `for k, j, i: a(k,j,i) = f(k,j,i,a)` over a box. -/
def Box.each (b : Box) (f : ℤ → ℤ → ℤ → A3 ℝ → ℝ) (a : A3 ℝ) : A3 ℝ :=
  loop b.kl b.ku (fun k => loop b.jl b.ju fun j => loop b.il b.iu fun i a => Function.update a (k, j, i) (f k j i a)) a

/-- The spacing at relative level `rlev` (mg_gravity.cpp:225-227, 277-279, 309-311). -/
noncomputable def dxAt (rdx : ℝ) (rlev : ℤ) : ℝ :=
  if rlev ≤ 0 then rdx * 2 ^ (-rlev).toNat else rdx / 2 ^ rlev.toNat

/-- `6.0*u(k,j,i) - u(k+1,j,i) - u(k,j+1,i) - u(k,j,i+1) - u(k-1,j,i) - u(k,j-1,i) - u(k,j,i-1)`
(mg_gravity.cpp:240-241, 287-288, 319-320). -/
def lap6 (u : A3 ℝ) (k j i : ℤ) : ℝ :=
  6 * u (k, j, i) - u (k+1, j, i) - u (k, j+1, i) - u (k, j, i+1) - u (k-1, j, i) - u (k, j-1, i) - u (k, j, i-1)

/-- `MGGravity::Smooth` (mg_gravity.cpp:222-244). `color & 1` and `coffset_` are 0 or 1. -/
noncomputable def smooth (omega rdx : ℝ) (rlev : ℤ) (coffset : ℕ) (b : Box) (color : ℕ) (src u : A3 ℝ) : A3 ℝ :=
  let dx2 := dxAt rdx rlev ^ 2
  let isix := omega / 6
  let color := color ^^^ coffset
  loop b.kl b.ku (fun k => loop b.jl b.ju fun j u =>
    let c := ((color : ℤ) + k + j) % 2
    (rng2 (b.il + c) b.iu).foldl (fun u i =>
      Function.update u (k, j, i) (u (k, j, i) - (lap6 u k j i + src (k, j, i) * dx2) * isix)) u) u

/-- `MGGravity::CalculateDefect` (mg_gravity.cpp:272-295). -/
noncomputable def defect (rdx : ℝ) (rlev : ℤ) (b : Box) (u src : A3 ℝ) (d : A3 ℝ) : A3 ℝ :=
  let idx2 := 1 / dxAt rdx rlev ^ 2
  b.each (fun k j i _ => lap6 u k j i * idx2 + src (k, j, i)) d

/-- `MGGravity::CalculateFASRHS` (mg_gravity.cpp:304-327). -/
noncomputable def fasRhs (rdx : ℝ) (rlev : ℤ) (b : Box) (u src : A3 ℝ) : A3 ℝ :=
  let idx2 := 1 / dxAt rdx rlev ^ 2
  b.each (fun k j i src => src (k, j, i) - lap6 u k j i * idx2) src

/-- `Multigrid::Restrict` (multigrid.cpp:765-787). -/
noncomputable def restrict (b : Box) (src dst : A3 ℝ) : A3 ℝ :=
  b.each (fun k j i _ =>
    let fk := 2 * k - b.kl
    let fj := 2 * j - b.jl
    let fi := 2 * i - b.il
    0.125 * (src (fk, fj, fi) + src (fk, fj, fi+1) + src (fk, fj+1, fi) + src (fk, fj+1, fi+1)
      + src (fk+1, fj, fi) + src (fk+1, fj, fi+1) + src (fk+1, fj+1, fi) + src (fk+1, fj+1, fi+1))) dst

/-- Tricubic prolongation: fine cell `(fk+0, fj+0, fi+0)` (multigrid.cpp:808). -/
noncomputable def cubic000 (s : A3 ℝ) (k j i : ℤ) : ℝ :=
    (125 * s (k-1, j-1, i-1) + 750 * s (k-1, j-1, i) - 75 * s (k-1, j-1, i+1) + 750 * s (k-1, j, i-1) + 4500 *
      s (k-1, j, i) - 450 * s (k-1, j, i+1) - 75 * s (k-1, j+1, i-1) - 450 * s (k-1, j+1, i) + 45 * s (k-1,
      j+1, i+1) + 750 * s (k, j-1, i-1) + 4500 * s (k, j-1, i) - 450 * s (k, j-1, i+1) + 4500 * s (k, j, i-1)
      + 27000 * s (k, j, i) - 2700 * s (k, j, i+1) - 450 * s (k, j+1, i-1) - 2700 * s (k, j+1, i) + 270 * s
      (k, j+1, i+1) - 75 * s (k+1, j-1, i-1) - 450 * s (k+1, j-1, i) + 45 * s (k+1, j-1, i+1) - 450 * s (k+1,
      j, i-1) - 2700 * s (k+1, j, i) + 270 * s (k+1, j, i+1) + 45 * s (k+1, j+1, i-1) + 270 * s (k+1, j+1, i)
      - 27 * s (k+1, j+1, i+1)) / 32768

/-- Tricubic prolongation: fine cell `(fk+0, fj+0, fi+1)` (multigrid.cpp:819). -/
noncomputable def cubic001 (s : A3 ℝ) (k j i : ℤ) : ℝ :=
    (-75 * s (k-1, j-1, i-1) + 750 * s (k-1, j-1, i) + 125 * s (k-1, j-1, i+1) - 450 * s (k-1, j, i-1) + 4500
      * s (k-1, j, i) + 750 * s (k-1, j, i+1) + 45 * s (k-1, j+1, i-1) - 450 * s (k-1, j+1, i) - 75 * s (k-1,
      j+1, i+1) - 450 * s (k, j-1, i-1) + 4500 * s (k, j-1, i) + 750 * s (k, j-1, i+1) - 2700 * s (k, j, i-1)
      + 27000 * s (k, j, i) + 4500 * s (k, j, i+1) + 270 * s (k, j+1, i-1) - 2700 * s (k, j+1, i) - 450 * s
      (k, j+1, i+1) + 45 * s (k+1, j-1, i-1) - 450 * s (k+1, j-1, i) - 75 * s (k+1, j-1, i+1) + 270 * s (k+1,
      j, i-1) - 2700 * s (k+1, j, i) - 450 * s (k+1, j, i+1) - 27 * s (k+1, j+1, i-1) + 270 * s (k+1, j+1, i)
      + 45 * s (k+1, j+1, i+1)) / 32768

/-- Tricubic prolongation: fine cell `(fk+0, fj+1, fi+0)` (multigrid.cpp:830). -/
noncomputable def cubic010 (s : A3 ℝ) (k j i : ℤ) : ℝ :=
    (-75 * s (k-1, j-1, i-1) - 450 * s (k-1, j-1, i) + 45 * s (k-1, j-1, i+1) + 750 * s (k-1, j, i-1) + 4500 *
      s (k-1, j, i) - 450 * s (k-1, j, i+1) + 125 * s (k-1, j+1, i-1) + 750 * s (k-1, j+1, i) - 75 * s (k-1,
      j+1, i+1) - 450 * s (k, j-1, i-1) - 2700 * s (k, j-1, i) + 270 * s (k, j-1, i+1) + 4500 * s (k, j, i-1)
      + 27000 * s (k, j, i) - 2700 * s (k, j, i+1) + 750 * s (k, j+1, i-1) + 4500 * s (k, j+1, i) - 450 * s
      (k, j+1, i+1) + 45 * s (k+1, j-1, i-1) + 270 * s (k+1, j-1, i) - 27 * s (k+1, j-1, i+1) - 450 * s (k+1,
      j, i-1) - 2700 * s (k+1, j, i) + 270 * s (k+1, j, i+1) - 75 * s (k+1, j+1, i-1) - 450 * s (k+1, j+1, i)
      + 45 * s (k+1, j+1, i+1)) / 32768

/-- Tricubic prolongation: fine cell `(fk+0, fj+1, fi+1)` (multigrid.cpp:841). -/
noncomputable def cubic011 (s : A3 ℝ) (k j i : ℤ) : ℝ :=
    (45 * s (k-1, j-1, i-1) - 450 * s (k-1, j-1, i) - 75 * s (k-1, j-1, i+1) - 450 * s (k-1, j, i-1) + 4500 *
      s (k-1, j, i) + 750 * s (k-1, j, i+1) - 75 * s (k-1, j+1, i-1) + 750 * s (k-1, j+1, i) + 125 * s (k-1,
      j+1, i+1) + 270 * s (k, j-1, i-1) - 2700 * s (k, j-1, i) - 450 * s (k, j-1, i+1) - 2700 * s (k, j, i-1)
      + 27000 * s (k, j, i) + 4500 * s (k, j, i+1) - 450 * s (k, j+1, i-1) + 4500 * s (k, j+1, i) + 750 * s
      (k, j+1, i+1) - 27 * s (k+1, j-1, i-1) + 270 * s (k+1, j-1, i) + 45 * s (k+1, j-1, i+1) + 270 * s (k+1,
      j, i-1) - 2700 * s (k+1, j, i) - 450 * s (k+1, j, i+1) + 45 * s (k+1, j+1, i-1) - 450 * s (k+1, j+1, i)
      - 75 * s (k+1, j+1, i+1)) / 32768

/-- Tricubic prolongation: fine cell `(fk+1, fj+0, fi+0)` (multigrid.cpp:852). -/
noncomputable def cubic100 (s : A3 ℝ) (k j i : ℤ) : ℝ :=
    (-75 * s (k-1, j-1, i-1) - 450 * s (k-1, j-1, i) + 45 * s (k-1, j-1, i+1) - 450 * s (k-1, j, i-1) - 2700 *
      s (k-1, j, i) + 270 * s (k-1, j, i+1) + 45 * s (k-1, j+1, i-1) + 270 * s (k-1, j+1, i) - 27 * s (k-1,
      j+1, i+1) + 750 * s (k, j-1, i-1) + 4500 * s (k, j-1, i) - 450 * s (k, j-1, i+1) + 4500 * s (k, j, i-1)
      + 27000 * s (k, j, i) - 2700 * s (k, j, i+1) - 450 * s (k, j+1, i-1) - 2700 * s (k, j+1, i) + 270 * s
      (k, j+1, i+1) + 125 * s (k+1, j-1, i-1) + 750 * s (k+1, j-1, i) - 75 * s (k+1, j-1, i+1) + 750 * s (k+1,
      j, i-1) + 4500 * s (k+1, j, i) - 450 * s (k+1, j, i+1) - 75 * s (k+1, j+1, i-1) - 450 * s (k+1, j+1, i)
      + 45 * s (k+1, j+1, i+1)) / 32768

/-- Tricubic prolongation: fine cell `(fk+1, fj+0, fi+1)` (multigrid.cpp:863). -/
noncomputable def cubic101 (s : A3 ℝ) (k j i : ℤ) : ℝ :=
    (45 * s (k-1, j-1, i-1) - 450 * s (k-1, j-1, i) - 75 * s (k-1, j-1, i+1) + 270 * s (k-1, j, i-1) - 2700 *
      s (k-1, j, i) - 450 * s (k-1, j, i+1) - 27 * s (k-1, j+1, i-1) + 270 * s (k-1, j+1, i) + 45 * s (k-1,
      j+1, i+1) - 450 * s (k, j-1, i-1) + 4500 * s (k, j-1, i) + 750 * s (k, j-1, i+1) - 2700 * s (k, j, i-1)
      + 27000 * s (k, j, i) + 4500 * s (k, j, i+1) + 270 * s (k, j+1, i-1) - 2700 * s (k, j+1, i) - 450 * s
      (k, j+1, i+1) - 75 * s (k+1, j-1, i-1) + 750 * s (k+1, j-1, i) + 125 * s (k+1, j-1, i+1) - 450 * s (k+1,
      j, i-1) + 4500 * s (k+1, j, i) + 750 * s (k+1, j, i+1) + 45 * s (k+1, j+1, i-1) - 450 * s (k+1, j+1, i)
      - 75 * s (k+1, j+1, i+1)) / 32768

/-- Tricubic prolongation: fine cell `(fk+1, fj+1, fi+0)` (multigrid.cpp:874). -/
noncomputable def cubic110 (s : A3 ℝ) (k j i : ℤ) : ℝ :=
    (45 * s (k-1, j-1, i-1) + 270 * s (k-1, j-1, i) - 27 * s (k-1, j-1, i+1) - 450 * s (k-1, j, i-1) - 2700 *
      s (k-1, j, i) + 270 * s (k-1, j, i+1) - 75 * s (k-1, j+1, i-1) - 450 * s (k-1, j+1, i) + 45 * s (k-1,
      j+1, i+1) - 450 * s (k, j-1, i-1) - 2700 * s (k, j-1, i) + 270 * s (k, j-1, i+1) + 4500 * s (k, j, i-1)
      + 27000 * s (k, j, i) - 2700 * s (k, j, i+1) + 750 * s (k, j+1, i-1) + 4500 * s (k, j+1, i) - 450 * s
      (k, j+1, i+1) - 75 * s (k+1, j-1, i-1) - 450 * s (k+1, j-1, i) + 45 * s (k+1, j-1, i+1) + 750 * s (k+1,
      j, i-1) + 4500 * s (k+1, j, i) - 450 * s (k+1, j, i+1) + 125 * s (k+1, j+1, i-1) + 750 * s (k+1, j+1, i)
      - 75 * s (k+1, j+1, i+1)) / 32768

/-- Tricubic prolongation: fine cell `(fk+1, fj+1, fi+1)` (multigrid.cpp:885). -/
noncomputable def cubic111 (s : A3 ℝ) (k j i : ℤ) : ℝ :=
    (-27 * s (k-1, j-1, i-1) + 270 * s (k-1, j-1, i) + 45 * s (k-1, j-1, i+1) + 270 * s (k-1, j, i-1) - 2700 *
      s (k-1, j, i) - 450 * s (k-1, j, i+1) + 45 * s (k-1, j+1, i-1) - 450 * s (k-1, j+1, i) - 75 * s (k-1,
      j+1, i+1) + 270 * s (k, j-1, i-1) - 2700 * s (k, j-1, i) - 450 * s (k, j-1, i+1) - 2700 * s (k, j, i-1)
      + 27000 * s (k, j, i) + 4500 * s (k, j, i+1) - 450 * s (k, j+1, i-1) + 4500 * s (k, j+1, i) + 750 * s
      (k, j+1, i+1) + 45 * s (k+1, j-1, i-1) - 450 * s (k+1, j-1, i) - 75 * s (k+1, j-1, i+1) - 450 * s (k+1,
      j, i-1) + 4500 * s (k+1, j, i) + 750 * s (k+1, j, i+1) - 75 * s (k+1, j+1, i-1) + 750 * s (k+1, j+1, i)
      + 125 * s (k+1, j+1, i+1)) / 32768

/-- Trilinear prolongation: fine cell `(fk+0, fj+0, fi+0)` (multigrid.cpp:910). -/
noncomputable def linear000 (s : A3 ℝ) (k j i : ℤ) : ℝ :=
    0.015625 * (27 * s (k, j, i) + s (k-1, j-1, i-1) + 9 * (s (k, j, i-1) + s (k, j-1, i) + s (k-1, j, i)) + 3
      * (s (k-1, j-1, i) + s (k-1, j, i-1) + s (k, j-1, i-1)))

/-- Trilinear prolongation: fine cell `(fk+0, fj+0, fi+1)` (multigrid.cpp:914). -/
noncomputable def linear001 (s : A3 ℝ) (k j i : ℤ) : ℝ :=
    0.015625 * (27 * s (k, j, i) + s (k-1, j-1, i+1) + 9 * (s (k, j, i+1) + s (k, j-1, i) + s (k-1, j, i)) + 3
      * (s (k-1, j-1, i) + s (k-1, j, i+1) + s (k, j-1, i+1)))

/-- Trilinear prolongation: fine cell `(fk+0, fj+1, fi+0)` (multigrid.cpp:918). -/
noncomputable def linear010 (s : A3 ℝ) (k j i : ℤ) : ℝ :=
    0.015625 * (27 * s (k, j, i) + s (k-1, j+1, i-1) + 9 * (s (k, j, i-1) + s (k, j+1, i) + s (k-1, j, i)) + 3
      * (s (k-1, j+1, i) + s (k-1, j, i-1) + s (k, j+1, i-1)))

/-- Trilinear prolongation: fine cell `(fk+1, fj+0, fi+0)` (multigrid.cpp:922). -/
noncomputable def linear100 (s : A3 ℝ) (k j i : ℤ) : ℝ :=
    0.015625 * (27 * s (k, j, i) + s (k+1, j-1, i-1) + 9 * (s (k, j, i-1) + s (k, j-1, i) + s (k+1, j, i)) + 3
      * (s (k+1, j-1, i) + s (k+1, j, i-1) + s (k, j-1, i-1)))

/-- Trilinear prolongation: fine cell `(fk+1, fj+1, fi+0)` (multigrid.cpp:926). -/
noncomputable def linear110 (s : A3 ℝ) (k j i : ℤ) : ℝ :=
    0.015625 * (27 * s (k, j, i) + s (k+1, j+1, i-1) + 9 * (s (k, j, i-1) + s (k, j+1, i) + s (k+1, j, i)) + 3
      * (s (k+1, j+1, i) + s (k+1, j, i-1) + s (k, j+1, i-1)))

/-- Trilinear prolongation: fine cell `(fk+1, fj+0, fi+1)` (multigrid.cpp:930). -/
noncomputable def linear101 (s : A3 ℝ) (k j i : ℤ) : ℝ :=
    0.015625 * (27 * s (k, j, i) + s (k+1, j-1, i+1) + 9 * (s (k, j, i+1) + s (k, j-1, i) + s (k+1, j, i)) + 3
      * (s (k+1, j-1, i) + s (k+1, j, i+1) + s (k, j-1, i+1)))

/-- Trilinear prolongation: fine cell `(fk+0, fj+1, fi+1)` (multigrid.cpp:934). -/
noncomputable def linear011 (s : A3 ℝ) (k j i : ℤ) : ℝ :=
    0.015625 * (27 * s (k, j, i) + s (k-1, j+1, i+1) + 9 * (s (k, j, i+1) + s (k, j+1, i) + s (k-1, j, i)) + 3
      * (s (k-1, j+1, i) + s (k-1, j, i+1) + s (k, j+1, i+1)))

/-- Trilinear prolongation: fine cell `(fk+1, fj+1, fi+1)` (multigrid.cpp:938). -/
noncomputable def linear111 (s : A3 ℝ) (k j i : ℤ) : ℝ :=
    0.015625 * (27 * s (k, j, i) + s (k+1, j+1, i+1) + 9 * (s (k, j, i+1) + s (k, j+1, i) + s (k+1, j, i)) + 3
      * (s (k+1, j+1, i) + s (k+1, j, i+1) + s (k, j+1, i+1)))

/-- Full multigrid prolongation: fine cell `(fk+0, fj+0, fi+0)` (multigrid.cpp:970). -/
noncomputable def fmg000 (s : A3 ℝ) (k j i : ℤ) : ℝ :=
    (125 * s (k-1, j-1, i-1) + 750 * s (k-1, j-1, i) - 75 * s (k-1, j-1, i+1) + 750 * s (k-1, j, i-1) + 4500 *
      s (k-1, j, i) - 450 * s (k-1, j, i+1) - 75 * s (k-1, j+1, i-1) - 450 * s (k-1, j+1, i) + 45 * s (k-1,
      j+1, i+1) + 750 * s (k, j-1, i-1) + 4500 * s (k, j-1, i) - 450 * s (k, j-1, i+1) + 4500 * s (k, j, i-1)
      + 27000 * s (k, j, i) - 2700 * s (k, j, i+1) - 450 * s (k, j+1, i-1) - 2700 * s (k, j+1, i) + 270 * s
      (k, j+1, i+1) - 75 * s (k+1, j-1, i-1) - 450 * s (k+1, j-1, i) + 45 * s (k+1, j-1, i+1) - 450 * s (k+1,
      j, i-1) - 2700 * s (k+1, j, i) + 270 * s (k+1, j, i+1) + 45 * s (k+1, j+1, i-1) + 270 * s (k+1, j+1, i)
      - 27 * s (k+1, j+1, i+1)) / 32768

/-- Full multigrid prolongation: fine cell `(fk+0, fj+0, fi+1)` (multigrid.cpp:981). -/
noncomputable def fmg001 (s : A3 ℝ) (k j i : ℤ) : ℝ :=
    (-75 * s (k-1, j-1, i-1) + 750 * s (k-1, j-1, i) + 125 * s (k-1, j-1, i+1) - 450 * s (k-1, j, i-1) + 4500
      * s (k-1, j, i) + 750 * s (k-1, j, i+1) + 45 * s (k-1, j+1, i-1) - 450 * s (k-1, j+1, i) - 75 * s (k-1,
      j+1, i+1) - 450 * s (k, j-1, i-1) + 4500 * s (k, j-1, i) + 750 * s (k, j-1, i+1) - 2700 * s (k, j, i-1)
      + 27000 * s (k, j, i) + 4500 * s (k, j, i+1) + 270 * s (k, j+1, i-1) - 2700 * s (k, j+1, i) - 450 * s
      (k, j+1, i+1) + 45 * s (k+1, j-1, i-1) - 450 * s (k+1, j-1, i) - 75 * s (k+1, j-1, i+1) + 270 * s (k+1,
      j, i-1) - 2700 * s (k+1, j, i) - 450 * s (k+1, j, i+1) - 27 * s (k+1, j+1, i-1) + 270 * s (k+1, j+1, i)
      + 45 * s (k+1, j+1, i+1)) / 32768

/-- Full multigrid prolongation: fine cell `(fk+0, fj+1, fi+0)` (multigrid.cpp:992). -/
noncomputable def fmg010 (s : A3 ℝ) (k j i : ℤ) : ℝ :=
    (-75 * s (k-1, j-1, i-1) - 450 * s (k-1, j-1, i) + 45 * s (k-1, j-1, i+1) + 750 * s (k-1, j, i-1) + 4500 *
      s (k-1, j, i) - 450 * s (k-1, j, i+1) + 125 * s (k-1, j+1, i-1) + 750 * s (k-1, j+1, i) - 75 * s (k-1,
      j+1, i+1) - 450 * s (k, j-1, i-1) - 2700 * s (k, j-1, i) + 270 * s (k, j-1, i+1) + 4500 * s (k, j, i-1)
      + 27000 * s (k, j, i) - 2700 * s (k, j, i+1) + 750 * s (k, j+1, i-1) + 4500 * s (k, j+1, i) - 450 * s
      (k, j+1, i+1) + 45 * s (k+1, j-1, i-1) + 270 * s (k+1, j-1, i) - 27 * s (k+1, j-1, i+1) - 450 * s (k+1,
      j, i-1) - 2700 * s (k+1, j, i) + 270 * s (k+1, j, i+1) - 75 * s (k+1, j+1, i-1) - 450 * s (k+1, j+1, i)
      + 45 * s (k+1, j+1, i+1)) / 32768

/-- Full multigrid prolongation: fine cell `(fk+0, fj+1, fi+1)` (multigrid.cpp:1003). -/
noncomputable def fmg011 (s : A3 ℝ) (k j i : ℤ) : ℝ :=
    (45 * s (k-1, j-1, i-1) - 450 * s (k-1, j-1, i) - 75 * s (k-1, j-1, i+1) - 450 * s (k-1, j, i-1) + 4500 *
      s (k-1, j, i) + 750 * s (k-1, j, i+1) - 75 * s (k-1, j+1, i-1) + 750 * s (k-1, j+1, i) + 125 * s (k-1,
      j+1, i+1) + 270 * s (k, j-1, i-1) - 2700 * s (k, j-1, i) - 450 * s (k, j-1, i+1) - 2700 * s (k, j, i-1)
      + 27000 * s (k, j, i) + 4500 * s (k, j, i+1) - 450 * s (k, j+1, i-1) + 4500 * s (k, j+1, i) + 750 * s
      (k, j+1, i+1) - 27 * s (k+1, j-1, i-1) + 270 * s (k+1, j-1, i) + 45 * s (k+1, j-1, i+1) + 270 * s (k+1,
      j, i-1) - 2700 * s (k+1, j, i) - 450 * s (k+1, j, i+1) + 45 * s (k+1, j+1, i-1) - 450 * s (k+1, j+1, i)
      - 75 * s (k+1, j+1, i+1)) / 32768

/-- Full multigrid prolongation: fine cell `(fk+1, fj+0, fi+0)` (multigrid.cpp:1014). -/
noncomputable def fmg100 (s : A3 ℝ) (k j i : ℤ) : ℝ :=
    (-75 * s (k-1, j-1, i-1) - 450 * s (k-1, j-1, i) + 45 * s (k-1, j-1, i+1) - 450 * s (k-1, j, i-1) - 2700 *
      s (k-1, j, i) + 270 * s (k-1, j, i+1) + 45 * s (k-1, j+1, i-1) + 270 * s (k-1, j+1, i) - 27 * s (k-1,
      j+1, i+1) + 750 * s (k, j-1, i-1) + 4500 * s (k, j-1, i) - 450 * s (k, j-1, i+1) + 4500 * s (k, j, i-1)
      + 27000 * s (k, j, i) - 2700 * s (k, j, i+1) - 450 * s (k, j+1, i-1) - 2700 * s (k, j+1, i) + 270 * s
      (k, j+1, i+1) + 125 * s (k+1, j-1, i-1) + 750 * s (k+1, j-1, i) - 75 * s (k+1, j-1, i+1) + 750 * s (k+1,
      j, i-1) + 4500 * s (k+1, j, i) - 450 * s (k+1, j, i+1) - 75 * s (k+1, j+1, i-1) - 450 * s (k+1, j+1, i)
      + 45 * s (k+1, j+1, i+1)) / 32768

/-- Full multigrid prolongation: fine cell `(fk+1, fj+0, fi+1)` (multigrid.cpp:1025). -/
noncomputable def fmg101 (s : A3 ℝ) (k j i : ℤ) : ℝ :=
    (45 * s (k-1, j-1, i-1) - 450 * s (k-1, j-1, i) - 75 * s (k-1, j-1, i+1) + 270 * s (k-1, j, i-1) - 2700 *
      s (k-1, j, i) - 450 * s (k-1, j, i+1) - 27 * s (k-1, j+1, i-1) + 270 * s (k-1, j+1, i) + 45 * s (k-1,
      j+1, i+1) - 450 * s (k, j-1, i-1) + 4500 * s (k, j-1, i) + 750 * s (k, j-1, i+1) - 2700 * s (k, j, i-1)
      + 27000 * s (k, j, i) + 4500 * s (k, j, i+1) + 270 * s (k, j+1, i-1) - 2700 * s (k, j+1, i) - 450 * s
      (k, j+1, i+1) - 75 * s (k+1, j-1, i-1) + 750 * s (k+1, j-1, i) + 125 * s (k+1, j-1, i+1) - 450 * s (k+1,
      j, i-1) + 4500 * s (k+1, j, i) + 750 * s (k+1, j, i+1) + 45 * s (k+1, j+1, i-1) - 450 * s (k+1, j+1, i)
      - 75 * s (k+1, j+1, i+1)) / 32768

/-- Full multigrid prolongation: fine cell `(fk+1, fj+1, fi+0)` (multigrid.cpp:1036). -/
noncomputable def fmg110 (s : A3 ℝ) (k j i : ℤ) : ℝ :=
    (45 * s (k-1, j-1, i-1) + 270 * s (k-1, j-1, i) - 27 * s (k-1, j-1, i+1) - 450 * s (k-1, j, i-1) - 2700 *
      s (k-1, j, i) + 270 * s (k-1, j, i+1) - 75 * s (k-1, j+1, i-1) - 450 * s (k-1, j+1, i) + 45 * s (k-1,
      j+1, i+1) - 450 * s (k, j-1, i-1) - 2700 * s (k, j-1, i) + 270 * s (k, j-1, i+1) + 4500 * s (k, j, i-1)
      + 27000 * s (k, j, i) - 2700 * s (k, j, i+1) + 750 * s (k, j+1, i-1) + 4500 * s (k, j+1, i) - 450 * s
      (k, j+1, i+1) - 75 * s (k+1, j-1, i-1) - 450 * s (k+1, j-1, i) + 45 * s (k+1, j-1, i+1) + 750 * s (k+1,
      j, i-1) + 4500 * s (k+1, j, i) - 450 * s (k+1, j, i+1) + 125 * s (k+1, j+1, i-1) + 750 * s (k+1, j+1, i)
      - 75 * s (k+1, j+1, i+1)) / 32768

/-- Full multigrid prolongation: fine cell `(fk+1, fj+1, fi+1)` (multigrid.cpp:1047). -/
noncomputable def fmg111 (s : A3 ℝ) (k j i : ℤ) : ℝ :=
    (-27 * s (k-1, j-1, i-1) + 270 * s (k-1, j-1, i) + 45 * s (k-1, j-1, i+1) + 270 * s (k-1, j, i-1) - 2700 *
      s (k-1, j, i) - 450 * s (k-1, j, i+1) + 45 * s (k-1, j+1, i-1) - 450 * s (k-1, j+1, i) - 75 * s (k-1,
      j+1, i+1) + 270 * s (k, j-1, i-1) - 2700 * s (k, j-1, i) - 450 * s (k, j-1, i+1) - 2700 * s (k, j, i-1)
      + 27000 * s (k, j, i) + 4500 * s (k, j, i+1) - 450 * s (k, j+1, i-1) + 4500 * s (k, j+1, i) + 750 * s
      (k, j+1, i+1) + 45 * s (k+1, j-1, i-1) - 450 * s (k+1, j-1, i) - 75 * s (k+1, j-1, i+1) - 450 * s (k+1,
      j, i-1) + 4500 * s (k+1, j, i) + 750 * s (k+1, j, i+1) - 75 * s (k+1, j+1, i-1) + 750 * s (k+1, j+1, i)
      + 125 * s (k+1, j+1, i+1)) / 32768

/-- `dst(k,j,i) += v`. -/
noncomputable def addAt (q : ℤ × ℤ × ℤ) (v : ℝ) (dst : A3 ℝ) : A3 ℝ := Function.update dst q (dst q + v)

/-- `Multigrid::ProlongateAndCorrect`, loops and the order of the eight updates (multigrid.cpp:796-945); `cubic` for
`fprolongation_ == 1`. -/
noncomputable def prolongateAndCorrect (cubic : Bool) (b : Box) (fkl fjl fil : ℤ) (src dst : A3 ℝ) : A3 ℝ :=
  loop b.kl b.ku (fun k => loop b.jl b.ju fun j => loop b.il b.iu fun i dst =>
    let fk := 2 * (k - b.kl) + fkl
    let fj := 2 * (j - b.jl) + fjl
    let fi := 2 * (i - b.il) + fil
    if cubic then
      let dst := addAt (fk, fj, fi) (cubic000 src k j i) dst
      let dst := addAt (fk, fj, fi+1) (cubic001 src k j i) dst
      let dst := addAt (fk, fj+1, fi) (cubic010 src k j i) dst
      let dst := addAt (fk, fj+1, fi+1) (cubic011 src k j i) dst
      let dst := addAt (fk+1, fj, fi) (cubic100 src k j i) dst
      let dst := addAt (fk+1, fj, fi+1) (cubic101 src k j i) dst
      let dst := addAt (fk+1, fj+1, fi) (cubic110 src k j i) dst
      addAt (fk+1, fj+1, fi+1) (cubic111 src k j i) dst
    else
      let dst := addAt (fk, fj, fi) (linear000 src k j i) dst
      let dst := addAt (fk, fj, fi+1) (linear001 src k j i) dst
      let dst := addAt (fk, fj+1, fi) (linear010 src k j i) dst
      let dst := addAt (fk+1, fj, fi) (linear100 src k j i) dst
      let dst := addAt (fk+1, fj+1, fi) (linear110 src k j i) dst
      let dst := addAt (fk+1, fj, fi+1) (linear101 src k j i) dst
      let dst := addAt (fk, fj+1, fi+1) (linear011 src k j i) dst
      addAt (fk+1, fj+1, fi+1) (linear111 src k j i) dst) dst

/-- `Multigrid::FMGProlongate` (multigrid.cpp:958-1066). -/
noncomputable def fmgProlongate (b : Box) (fkl fjl fil : ℤ) (src dst : A3 ℝ) : A3 ℝ :=
  loop b.kl b.ku (fun k => loop b.jl b.ju fun j => loop b.il b.iu fun i dst =>
    let fk := 2 * (k - b.kl) + fkl
    let fj := 2 * (j - b.jl) + fjl
    let fi := 2 * (i - b.il) + fil
    let dst := Function.update dst (fk, fj, fi) (fmg000 src k j i)
    let dst := Function.update dst (fk, fj, fi+1) (fmg001 src k j i)
    let dst := Function.update dst (fk, fj+1, fi) (fmg010 src k j i)
    let dst := Function.update dst (fk, fj+1, fi+1) (fmg011 src k j i)
    let dst := Function.update dst (fk+1, fj, fi) (fmg100 src k j i)
    let dst := Function.update dst (fk+1, fj, fi+1) (fmg101 src k j i)
    let dst := Function.update dst (fk+1, fj+1, fi) (fmg110 src k j i)
    Function.update dst (fk+1, fj+1, fi+1) (fmg111 src k j i)) dst

end Verif.Mg
