import Mathlib.Analysis.SpecialFunctions.Exp
import Mathlib.Analysis.SpecialFunctions.Sqrt
import Mathlib.Algebra.BigOperators.Group.Finset.Basic

/-!
Implicit transport of the intensities, nr_radiation/implicit/implicit_first_order.cpp and
implicit_angular_flux.cpp, with the signal speeds of nr_radiation/integrators/rad_integrators.cpp.
Real numbers for `Real`; one direction of propagation and one frequency group at a time.
-/

namespace Verif.RadTransport

open scoped BigOperators

open Classical in
/-- `GetTaufactor`, rad_integrators.cpp:615-658; `fwd` is `dir > 0`, `one` is `tau_flag_ == 1`
(otherwise 2; other values are a fatal error). -/
noncomputable def tauFactor (one : Bool) (lim tau : ℝ) (fwd : Bool) : ℝ :=
  if fwd then
    if one then
      Real.sqrt (if tau * tau > lim then (1 - Real.exp (-(tau * tau))) / (tau * tau)
        else 1 - 0.5 * (tau * tau))
    else if tau > 1 then 1 / tau else 1
  else
    if one then
      Real.sqrt (if tau * tau > lim then (1 - Real.exp (-(tau * tau) * (tau * tau))) / (tau * tau)
        else tau * tau)
    else if tau > 1 then 1 / tau else tau

open Classical in
/-- `SignalSpeed`, rad_integrators.cpp:549-566: `smax` and `smin`. -/
noncomputable def speeds (advFlag : Bool) (adv fl fr vel : ℝ) : ℝ × ℝ :=
  let s := if vel > 0 then (fr * vel, -fl * vel) else (-fl * vel, fr * vel)
  if advFlag then s else (s.1 + |adv|, s.2 - |adv|)

/-- A face of cells: its area, the velocity `vel - adv` and the signal speeds. -/
structure Face where
  area : ℝ
  v : ℝ
  smax : ℝ
  smin : ℝ

open Classical in
/-- `sm_diff`, implicit_first_order.cpp:116-129. -/
noncomputable def Face.inv (tiny : ℝ) (f : Face) : ℝ :=
  if |f.smax - f.smin| < tiny then 0 else 1 / (f.smax - f.smin)

open Classical in
/-- `SplitVelocity` for the left face of a cell, rad_integrators.cpp:568-595: `vel_ex_l`, `vel_im_l`;
`split` is `ite_scheme == 1`. -/
noncomputable def splitL (split : Bool) (f : Face) : ℝ × ℝ :=
  if split then
    if f.v > 0 then (-f.smin * f.v, f.smin * f.smax) else (0, f.smin * (f.smax - f.v))
  else (0, f.smin * (f.smax - f.v))

open Classical in
/-- `SplitVelocity` for the right face, rad_integrators.cpp:580-606: `vel_ex_r`, `vel_im_r`. -/
noncomputable def splitR (split : Bool) (f : Face) : ℝ × ℝ :=
  if split then
    if f.v > 0 then (0, f.smax * (f.v - f.smin)) else (f.smax * f.v, -f.smax * f.smin)
  else (0, f.smax * (f.v - f.smin))

/-- Contribution of one direction to `const_coef_`, implicit_first_order.cpp:133-143 (x1), 221-231
(x2), 308-318 (x3), before the factor `wght/vol`. -/
noncomputable def coefIm (split : Bool) (tiny : ℝ) (l r : Face) : ℝ :=
  -l.area * (splitL split l).2 * l.inv tiny + r.area * (splitR split r).2 * r.inv tiny

/-- Contribution to `exp_coef_`. -/
noncomputable def coefEx (split : Bool) (tiny : ℝ) (l r : Face) : ℝ :=
  -l.area * (splitL split l).1 * l.inv tiny + r.area * (splitR split r).1 * r.inv tiny

/-- `const_coef1_l_` and its fellows. -/
noncomputable def coefL (tiny : ℝ) (l : Face) : ℝ := -l.area * l.smax * (l.v - l.smin) * l.inv tiny

/-- `const_coef1_r_` and its fellows. -/
noncomputable def coefR (tiny : ℝ) (r : Face) : ℝ := r.area * r.smin * (r.smax - r.v) * r.inv tiny

/-- One step of transport: `wght`, volumes, faces (index `k j i`, a face lies on the lower side of the
cell with its index), and the fluxes of the explicit advection, which are zero for `adv_flag_ == 0`. -/
structure Step where
  split : Bool
  two : Bool
  three : Bool
  tiny : ℝ
  wght : ℝ
  vol : ℕ → ℕ → ℕ → ℝ
  fx : ℕ → ℕ → ℕ → Face
  fy : ℕ → ℕ → ℕ → Face
  fz : ℕ → ℕ → ℕ → Face
  ax : ℕ → ℕ → ℕ → ℝ
  ay : ℕ → ℕ → ℕ → ℝ
  az : ℕ → ℕ → ℕ → ℝ

/-- `const_coef_`, implicit_first_order.cpp:324-358. -/
noncomputable def Step.const (s : Step) (k j i : ℕ) : ℝ :=
  (coefIm s.split s.tiny (s.fx k j i) (s.fx k j (i + 1)) +
    (if s.two then coefIm s.split s.tiny (s.fy k j i) (s.fy k (j + 1) i) else 0) +
    (if s.three then coefIm s.split s.tiny (s.fz k j i) (s.fz (k + 1) j i) else 0)) *
    (s.wght / s.vol k j i)

/-- `exp_coef_`. -/
noncomputable def Step.exp (s : Step) (k j i : ℕ) : ℝ :=
  (coefEx s.split s.tiny (s.fx k j i) (s.fx k j (i + 1)) +
    (if s.two then coefEx s.split s.tiny (s.fy k j i) (s.fy k (j + 1) i) else 0) +
    (if s.three then coefEx s.split s.tiny (s.fz k j i) (s.fz (k + 1) j i) else 0)) *
    (s.wght / s.vol k j i)

/-- `adv_flx_`, `FluxDivergence(wght)`, rad_transport.cpp:616-687. -/
noncomputable def Step.adv (s : Step) (k j i : ℕ) : ℝ :=
  -s.wght * ((s.fx k j (i + 1)).area * s.ax k j (i + 1) - (s.fx k j i).area * s.ax k j i) /
      s.vol k j i +
    (if s.two then -s.wght * ((s.fy k (j + 1) i).area * s.ay k (j + 1) i -
      (s.fy k j i).area * s.ay k j i) / s.vol k j i else 0) +
    (if s.three then -s.wght * ((s.fz (k + 1) j i).area * s.az (k + 1) j i -
      (s.fz k j i).area * s.az k j i) / s.vol k j i else 0)

/-- `divflx_`, `FirstOrderFluxDivergence`, implicit_first_order.cpp:361-405, from the intensities
`I` of the last iteration. -/
noncomputable def Step.div (s : Step) (I : ℕ → ℕ → ℕ → ℝ) (k j i : ℕ) : ℝ :=
  let d := s.wght / s.vol k j i;
  -(coefL s.tiny (s.fx k j i) * d * I k j (i - 1) +
      coefR s.tiny (s.fx k j (i + 1)) * d * I k j (i + 1) + s.exp k j i * I k j i) +
    s.adv k j i +
    (if s.two then -(coefL s.tiny (s.fy k j i) * d * I k (j - 1) i +
      coefR s.tiny (s.fy k (j + 1) i) * d * I k (j + 1) i) else 0) +
    (if s.three then -(coefL s.tiny (s.fz k j i) * d * I (k - 1) j i +
      coefR s.tiny (s.fz (k + 1) j i) * d * I (k + 1) j i) else 0)

/-- What a direction gives to the gas in a cell, rad_source.cpp:447-461 and 486-493 (no angular
fluxes): the new intensity less the one expected from transport alone. -/
noncomputable def Step.given (s : Step) (I0 Iold I : ℕ → ℕ → ℕ → ℝ) (k j i : ℕ) : ℝ :=
  I k j i - (I0 k j i + s.div Iold k j i - s.const k j i * I k j i)

/-- `rad_source(0)`, rad_source.cpp:440-520, of the directions `n` with weights `w`. -/
noncomputable def radSource {N : ℕ} (prat invred : ℝ) (w : Fin N → ℝ) (s : Fin N → Step)
    (I0 Iold I : Fin N → ℕ → ℕ → ℕ → ℝ) (k j i : ℕ) : ℝ :=
  -prat * (∑ n, I n k j i * w n -
    ∑ n, (I0 n k j i + (s n).div (Iold n) k j i - (s n).const k j i * I n k j i) * w n) * invred

/-! ### Angular fluxes -/

/-- Coefficients and fluxes in the polar angle alone (`npsi == 0`), implicit_angular_flux.cpp:64-87
and 145-166: what is added to the left side of the equation of direction `n` of `N`; `Iold` from the
last iteration.  `c` is `wght * reduced_c`. -/
noncomputable def zetaTerm (N : ℕ) (c : ℝ) (g area vol Iold I : ℕ → ℝ) (n : ℕ) : ℝ :=
  let coef0 := c * g n * area n / vol n
  let coef1 := -(c * g (n + 1)) * area (n + 1) / vol n
  if n = N - 1 then (coef0 + coef1) * I n
  else coef0 * I n - -(coef1 * Iold (n + 1))

open Classical in
/-- `ImplicitPsiFluxCoef` and `ImplicitPsiFlux`, implicit_angular_flux.cpp:89-142 and 176-211, for
direction `(n, m)`, `n < N` and `m < M`.  Where both faces have `g_psi` zero nothing is written to
`imp_ang_psi_l_`, `imp_ang_psi_r_`; they are zero from their allocation. -/
noncomputable def psiTerm (N M : ℕ) (c : ℝ) (gz : ℕ → ℝ) (gp : ℕ → ℕ → ℝ)
    (areaZ areaP vol Iold I : ℕ → ℕ → ℝ) (n m : ℕ) : ℝ :=
  let coef0 := c * gp n m * areaP n m / vol n m
  let coef1 := -(c * gp n (m + 1)) * areaP n (m + 1) / vol n m
  let z1 := -(c * gz (n + 1)) * areaZ m (n + 1) / vol n m
  let z := c * gz n * areaZ m n / vol n m
  let neg := gp n m < 0 ∨ gp n (m + 1) < 0
  let pos := gp n m > 0 ∨ gp n (m + 1) > 0
  let psiL := if neg then coef0 else 0
  let psiR := if neg then 0 else if pos then coef1 else 0
  let cc := if neg then coef1 else if pos then coef0 else 0
  let left := if m = 0 then M - 1 else m - 1
  let right := if m = M - 1 then 0 else m + 1
  if n = N - 1 then
    (cc + z + z1) * I n m - -(psiL * Iold n left + psiR * Iold n right)
  else
    (cc + z) * I n m - (-(psiL * Iold n left + psiR * Iold n right) - z1 * Iold (n + 1) m)

end Verif.RadTransport
