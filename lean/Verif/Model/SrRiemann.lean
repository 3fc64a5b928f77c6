import Verif.Model.SrHydro

/-!
# Riemann solvers of special relativistic hydrodynamics

`Hydro::RiemannSolver` of hydro/rsolvers/hydro/hlle_rel.cpp, llf_rel.cpp and hllc_rel.cpp for one interface, without
general relativity (`GENERAL_RELATIVITY` is 0: no change of frame, and the interface velocity is 0). Exact real
arithmetic. The solvers of the general relativistic files and of the magnetised files are not modelled.
-/
namespace Verif.Sr

/-- The loops `for (int n = 0; n < NWAVE; ++n)` are sums and multiples of arrays. -/
instance : Add Cons := ⟨fun a b => ⟨a.d + b.d, a.e + b.e, a.m1 + b.m1, a.m2 + b.m2, a.m3 + b.m3⟩⟩
/-- See above. -/
instance : Sub Cons := ⟨fun a b => ⟨a.d - b.d, a.e - b.e, a.m1 - b.m1, a.m2 - b.m2, a.m3 - b.m3⟩⟩
/-- See above. -/
instance : SMul ℝ Cons := ⟨fun c a => ⟨c * a.d, c * a.e, c * a.m1, c * a.m2, c * a.m3⟩⟩

/-- `wgas_l = rho_l + gamma_prime * pgas_l` (hlle_rel.cpp:146, 178; llf_rel.cpp:121, 152; hllc_rel.cpp:148, 180). -/
noncomputable def wgas (gamma : ℝ) (w : Prim) : ℝ := w.rho + gamma / (gamma - 1) * w.p

/-- `EquationOfState::SoundSpeedsSR` (adiabatic_hydro_sr.cpp:285-296): `*plambda_plus` and `*plambda_minus`. -/
noncomputable def soundSpeeds (gamma rhoH pgas vx gSq : ℝ) : ℝ × ℝ :=
  let csSq := gamma * pgas / rhoH
  let sigma := csSq / (gSq * (1 - csSq))
  let rel := Real.sqrt (sigma * (1 + sigma - vx ^ 2))
  let tmp := 1 / (1 + sigma)
  (tmp * (vx + rel), tmp * (vx - rel))

/-- `u_l[0]` (hlle_rel.cpp:159). -/
noncomputable def u0 (w : Prim) : ℝ := lorentz w.u1 w.u2 w.u3

/-- `lambda_p_l`, `lambda_m_l` (hlle_rel.cpp:176-186). -/
noncomputable def speeds (gamma : ℝ) (w : Prim) : ℝ × ℝ :=
  soundSpeeds gamma (wgas gamma w) w.p (w.u1 / u0 w) (u0 w ^ 2)

/-- `lambda_l` (hlle_rel.cpp:189, llf_rel.cpp:163, hllc_rel.cpp:191). -/
noncomputable def lamL (gamma : ℝ) (wl wr : Prim) : ℝ := min (speeds gamma wl).2 (speeds gamma wr).2
/-- `lambda_r` (hlle_rel.cpp:190, llf_rel.cpp:164, hllc_rel.cpp:192). -/
noncomputable def lamR (gamma : ℝ) (wl wr : Prim) : ℝ := max (speeds gamma wl).1 (speeds gamma wr).1

/-- `cons_l[]`, `cons_r[]` (hlle_rel.cpp:192-198, 208-214); component `ivx` is `m1`, `ivy` is `m2`, `ivz` is `m3`. -/
noncomputable def side (gamma : ℝ) (w : Prim) : Cons :=
  ⟨w.rho * u0 w, wgas gamma w * u0 w * u0 w - w.p, wgas gamma w * w.u1 * u0 w, wgas gamma w * w.u2 * u0 w,
    wgas gamma w * w.u3 * u0 w⟩

/-- `flux_l[]`, `flux_r[]` (hlle_rel.cpp:200-206, 216-222). -/
noncomputable def sideFlux (gamma : ℝ) (w : Prim) : Cons :=
  ⟨w.rho * w.u1, wgas gamma w * u0 w * w.u1, wgas gamma w * w.u1 * w.u1 + w.p, wgas gamma w * w.u2 * w.u1,
    wgas gamma w * w.u3 * w.u1⟩

/-- `cons_hll[]` (hlle_rel.cpp:224-232, hllc_rel.cpp:226-232). -/
noncomputable def consHll (ll lr : ℝ) (ul ur fl fr : Cons) : Cons :=
  (1 / (lr - ll)) • (lr • ur - ll • ul + fl - fr)

/-- `flux_hll[]` (hlle_rel.cpp:234-239, hllc_rel.cpp:234-239). -/
noncomputable def fluxHll (ll lr : ℝ) (ul ur fl fr : Cons) : Cons :=
  (1 / (lr - ll)) • (lr • fl - ll • fr + (ll * lr) • (ur - ul))

open Classical in
/-- HLLE (hlle_rel.cpp:148-270). -/
noncomputable def hlle (gamma : ℝ) (wl wr : Prim) : Cons :=
  let ll := lamL gamma wl wr
  let lr := lamR gamma wl wr
  if ll ≥ 0 then sideFlux gamma wl
  else if lr ≤ 0 then sideFlux gamma wr
  else fluxHll ll lr (side gamma wl) (side gamma wr) (sideFlux gamma wl) (sideFlux gamma wr)

/-- LLF (llf_rel.cpp:123-210). -/
noncomputable def llf (gamma : ℝ) (wl wr : Prim) : Cons :=
  let lam := max (lamR gamma wl wr) (-lamL gamma wl wr)
  (1 / 2 : ℝ) • (sideFlux gamma wl + sideFlux gamma wr - lam • (side gamma wr - side gamma wl))

open Classical in
/-- Speed of the contact wave (hllc_rel.cpp:241-250); `tiny` is `TINY_NUMBER`. -/
noncomputable def lamStar (tiny : ℝ) (u f : Cons) : ℝ :=
  let b := -(u.e + f.m1)
  if |f.e| > tiny then -2 * u.m1 / (b - Real.sqrt (b ^ 2 - 4 * f.e * u.m1)) else -u.m1 / b

/-- `pgas_star` (hllc_rel.cpp:254). -/
noncomputable def pStar (ls : ℝ) (f : Cons) : ℝ := -f.e * ls + f.m1

/-- `cons_lstar[]`, `cons_rstar[]` from the outer state and the outer speed `lam` (hllc_rel.cpp:256-267, 275-286). -/
noncomputable def consStar (gamma : ℝ) (w : Prim) (lam ls ps : ℝ) : Cons :=
  let v := w.u1 / u0 w
  let c := (lam - v) • side gamma w
  (1 / (lam - ls)) • ({ c with e := c.e + (ps * ls - w.p * v), m1 := c.m1 + (ps - w.p) } : Cons)

/-- `flux_lstar[]`, `flux_rstar[]` (hllc_rel.cpp:269-273, 288-292). -/
noncomputable def fluxStar (gamma : ℝ) (w : Prim) (lam ls ps : ℝ) : Cons :=
  sideFlux gamma w + lam • (consStar gamma w lam ls ps - side gamma w)

open Classical in
/-- HLLC (hllc_rel.cpp:150-327). -/
noncomputable def hllc (gamma tiny : ℝ) (wl wr : Prim) : Cons :=
  let ll := lamL gamma wl wr
  let lr := lamR gamma wl wr
  let uh := consHll ll lr (side gamma wl) (side gamma wr) (sideFlux gamma wl) (sideFlux gamma wr)
  let fh := fluxHll ll lr (side gamma wl) (side gamma wr) (sideFlux gamma wl) (sideFlux gamma wr)
  let ls := lamStar tiny uh fh
  let ps := pStar ls fh
  if ll ≥ 0 then sideFlux gamma wl
  else if lr ≤ 0 then sideFlux gamma wr
  else if ls ≥ 0 then fluxStar gamma wl ll ls ps
  else fluxStar gamma wr lr ls ps

/-- `prim_l(IDN,i)`, `prim_l(ivx,i)`, … of one interface (hlle_rel.cpp:141-142, 153-157). -/
def load (ivx : Nat) (w : Nat → ℝ) : Prim :=
  let ivy := 1 + ((ivx - 1) + 1) % 3
  let ivz := 1 + ((ivx - 1) + 2) % 3
  ⟨w 0, w 4, w ivx, w ivy, w ivz⟩

/-- `flux(n,k,j,i) = flux_interface[n]`, `NHYDRO` is 5 (hlle_rel.cpp:267-270). -/
def store (ivx : Nat) (f : Cons) (old : Nat → ℝ) : Nat → ℝ :=
  let ivy := 1 + ((ivx - 1) + 1) % 3
  let ivz := 1 + ((ivx - 1) + 2) % 3
  Function.update (Function.update (Function.update (Function.update (Function.update old 0 f.d) 4 f.e) ivx f.m1)
    ivy f.m2) ivz f.m3

/-- One interface of a sweep in direction `ivx`. -/
def face (solver : Prim → Prim → Cons) (ivx : Nat) (wl wr old : Nat → ℝ) : Nat → ℝ :=
  store ivx (solver (load ivx wl) (load ivx wr)) old

end Verif.Sr
