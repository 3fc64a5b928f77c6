import Verif.Model.Quartic
import Mathlib.Algebra.BigOperators.Fin

/-!
Exchange of energy and momentum between gas and radiation:
nr_radiation/integrators/srcterms/absorption_scattering.cpp and
nr_radiation/integrators/rad_source.cpp. One cell; sums over angles are finite sums (the order of
the additions does not matter in exact arithmetic).
-/

namespace Verif.RadSrc

open scoped BigOperators

/-- What enters for one cell: `prat`, the ratio of reduced and true speed of light, `gamma - 1`,
density, and `dt c` times the opacities (Rosseland mean, scattering, Planck mean, energy mean),
absorption_scattering.cpp:53-86. -/
structure Opac where
  prat : ℝ
  red : ℝ
  gm1 : ℝ
  rho : ℝ
  dr : ℝ
  ds : ℝ
  dp : ℝ
  de : ℝ

variable {N : ℕ}

/-- `vn`, absorption_scattering.cpp:95: `im` is `implicit_coef`, `tc` is `tran_coef`. -/
noncomputable def vn (o : Opac) (im tc : Fin N → ℝ) (n : Fin N) : ℝ :=
  1 / (im n + (o.red * o.dr + o.red * o.ds) * tc n)

/-- `suma1` before it is multiplied, line 99. -/
noncomputable def sumw (o : Opac) (w im tc : Fin N → ℝ) : ℝ := ∑ n, w n * (tc n * vn o im tc n)

/-- `suma2`, line 100. -/
noncomputable def suma2 (o : Opac) (w im tc I : Fin N → ℝ) : ℝ := ∑ n, I n * w n * vn o im tc n

/-- `suma3`, line 102. -/
noncomputable def suma3 (o : Opac) (w im tc : Fin N → ℝ) : ℝ :=
  sumw o w im tc * (o.red * o.ds + o.red * o.dr - o.red * o.de)

/-- `suma1`, line 103. -/
noncomputable def suma1 (o : Opac) (w im tc : Fin N → ℝ) : ℝ := sumw o w im tc * (o.red * o.dp)

/-- `coef[1]`, lines 110-111. -/
noncomputable def coef1 (o : Opac) (w im tc : Fin N → ℝ) : ℝ :=
  o.prat * (o.dp - o.de * suma1 o w im tc / (1 - suma3 o w im tc)) * o.gm1 / o.rho

/-- `coef[0]`, line 112. -/
noncomputable def coef0 (o : Opac) (w im tc I : Fin N → ℝ) (T : ℝ) : ℝ :=
  -T - o.de * o.prat * suma2 o w im tc I * o.gm1 / (o.rho * (1 - suma3 o w im tc))

/-- `AbsorptionScattering` for one frequency group (the only case in which it is called,
rad_source.cpp:146-151), absorption_scattering.cpp:50-149: new temperature and intensities in the
frame of the gas. `w` is `wmu_cm`, `I` is `ir_cm`, `tiny` is `TINY_NUMBER`. -/
noncomputable def absorb (big tiny : ℝ) (o : Opac) (w im tc I : Fin N → ℝ) (T : ℝ) :
    ℝ × (Fin N → ℝ) :=
  open Classical in
  let c1 := coef1 o w im tc
  let c0 := coef0 o w im tc I T
  match (if |c1| > tiny then Quartic.polyRoot big c1 c0 else some (-c0)) with
  | none => (T, I)
  | some T' =>
    let emission := T' * T' * T' * T'
    let jr := (suma1 o w im tc * emission + suma2 o w im tc I) / (1 - suma3 o w im tc)
    (T', fun n => max (I n + ((o.red * o.ds + o.red * o.dr - o.red * o.de) * jr +
      o.red * o.dp * emission - ((im n - 1) / tc n + o.red * o.ds + o.red * o.dr) * I n) *
        (tc n * vn o im tc n)) tiny)

/-- `rad_source` without implicit transport, rad_source.cpp:422-516: energy and momenta given to the
gas. `mu a n` is component `a` of direction `n`, `wmu` its weight, `i0` and `i1` the intensities
of group `f` before and after; `crat`, `redc` the speeds of light. -/
noncomputable def radSource {F : ℕ} (prat crat redc : ℝ) (wmu : Fin N → ℝ) (mu : Fin 3 → Fin N → ℝ)
    (i0 i1 : Fin F → Fin N → ℝ) : ℝ × (Fin 3 → ℝ) :=
  let invcrat := 1 / crat
  let invredc := 1 / redc
  let invredfactor := invredc / invcrat
  (-prat * (∑ f, ((∑ n, i1 f n * wmu n) - ∑ n, i0 f n * wmu n)) * invredfactor,
   fun a => -prat * (∑ f, ((∑ n, i1 f n * wmu n * mu a n) - ∑ n, i0 f n * wmu n * mu a n)) *
     invredc)

/-- Density, momenta, total energy. -/
structure Gas where
  d : ℝ
  m : Fin 3 → ℝ
  e : ℝ

/-- `ekin` in `AddSourceTerms`. -/
noncomputable def ekin (m : Fin 3 → ℝ) (d : ℝ) : ℝ := 1 / 2 * (m 0 ^ 2 + m 1 ^ 2 + m 2 ^ 2) / d

/-- The momenta in `AddSourceTerms`, rad_source.cpp:532-551: limited by `vmax`. -/
noncomputable def newMom (crat vmax : ℝ) (src : ℝ × (Fin 3 → ℝ)) (u : Gas) : Fin 3 → ℝ :=
  open Classical in
  let m := fun a => u.m a + src.2 a
  let vel := Real.sqrt ((m 0 / u.d) * (m 0 / u.d) + (m 1 / u.d) * (m 1 / u.d) +
    (m 2 / u.d) * (m 2 / u.d))
  let ratio := vel * (1 / crat)
  if ratio > vmax then fun a => m a * (vmax / ratio) else m

/-- `AddSourceTerms`, rad_source.cpp:520-580; `flag2`: `set_source_flag == 2`; `pb` the magnetic
energy, `Tnew` is `tgas_new_`. -/
noncomputable def addSource (crat vmax gm1 pb Tnew Tceil : ℝ) (flag2 : Bool)
    (src : ℝ × (Fin 3 → ℝ)) (u : Gas) : Gas :=
  open Classical in
  let m := newMom crat vmax src u
  let ek := ekin m u.d
  if flag2 then ⟨u.d, m, Tnew * u.d / gm1 + pb + ek⟩
  else
    let eint := u.e + src.1 - ek - pb
    let tgas := eint * gm1 / u.d
    if eint < 0 then ⟨u.d, m, Tnew * u.d / gm1 + pb + ek⟩
    else if tgas > Tceil then ⟨u.d, m, ek + pb + Tceil * u.d / gm1⟩
    else ⟨u.d, m, u.e + src.1⟩

end Verif.RadSrc
