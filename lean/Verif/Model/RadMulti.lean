import Verif.Model.RadSource

/-!
Exchange between gas and radiation with several frequency groups,
nr_radiation/integrators/srcterms/multigroup_abs_sca.cpp, and Compton scattering with one group,
nr_radiation/integrators/srcterms/compton.cpp.
-/

namespace Verif.RadSrc

open scoped BigOperators

variable {N F : ℕ}

/-- `coef[1]` for a given spectrum, multigroup_abs_sca.cpp:118-135; `o f` holds the opacities of
group `f` and the constants. -/
noncomputable def mcoef1 (o : Fin F → Opac) (w tc : Fin N → ℝ) (im : Fin F → Fin N → ℝ)
    (spec : Fin F → ℝ) : ℝ :=
  ∑ f, (o f).prat * ((o f).dp - (o f).de * suma1 (o f) w (im f) tc / (1 - suma3 (o f) w (im f) tc)) *
    spec f * (o f).gm1 / (o f).rho

/-- `coef[0]`, multigroup_abs_sca.cpp:79-110. -/
noncomputable def mcoef0 (o : Fin F → Opac) (w tc : Fin N → ℝ) (im I : Fin F → Fin N → ℝ) (T : ℝ) :
    ℝ :=
  (∑ f, -(o f).de * (o f).prat * suma2 (o f) w (im f) tc (I f) * (o f).gm1 /
    ((o f).rho * (1 - suma3 (o f) w (im f) tc))) + -T

/-- One pass of the loop, lines 115-148: the new temperature for the spectrum at temperature `s`. -/
noncomputable def mstep (big tiny : ℝ) (o : Fin F → Opac) (w tc : Fin N → ℝ)
    (im I : Fin F → Fin N → ℝ) (spec : ℝ → Fin F → ℝ) (T s : ℝ) : Option ℝ :=
  open Classical in
  if |mcoef1 o w tc im (spec s)| > tiny then
    Quartic.polyRoot big (mcoef1 o w tc im (spec s)) (mcoef0 o w tc im I T)
  else some (-mcoef0 o w tc im I T)

/-- The loop, lines 114-154: `s` the temperature of the last spectrum, `x` the last temperature.
Simplified: a division by a temperature of zero gives zero here, infinity in the code. -/
noncomputable def mloop (step : ℝ → Option ℝ) (err : ℝ) : ℕ → ℝ → ℝ → ℝ → Option (ℝ × ℝ)
  | 0, _, s, x => some (s, x)
  | m + 1, diff, s, x =>
    open Classical in
    if diff > err then
      match step x with
      | none => none
      | some y => mloop step err m (|x - y| / x) x y
    else some (s, x)

/-- `MultiGroupAbsScat`, multigroup_abs_sca.cpp:51-189; `spec` is the emission spectrum of the user,
`s0` the temperature of the one left from before, `iter` is `iteration_tgas_`. -/
noncomputable def absorbMulti (big tiny err : ℝ) (iter : ℕ) (o : Fin F → Opac) (w tc : Fin N → ℝ)
    (im I : Fin F → Fin N → ℝ) (spec : ℝ → Fin F → ℝ) (s0 T : ℝ) : ℝ × (Fin F → Fin N → ℝ) :=
  match mloop (mstep big tiny o w tc im I spec T) err (iter + 1) 1 s0 T with
  | none => (T, I)
  | some (s, T') =>
    let emission := T' * T' * T' * T'
    (T', fun f n =>
      let emi := emission * spec s f
      let jr := (suma1 (o f) w (im f) tc * emi + suma2 (o f) w (im f) tc (I f)) /
        (1 - suma3 (o f) w (im f) tc)
      max (I f n + (((o f).red * (o f).ds + (o f).red * (o f).dr - (o f).red * (o f).de) * jr +
        (o f).red * (o f).dp * emi -
          ((im f n - 1) / tc n + (o f).red * (o f).ds + (o f).red * (o f).dr) * I f n) *
        (tc n * vn (o f) (im f) tc n)) tiny)

/-- `suma1` of Compton scattering, compton.cpp:75-78; the scattering opacity is `o.ds`, `te` is
`pmy_rad->telectron`. -/
noncomputable def csum1 (te : ℝ) (o : Opac) (w tc : Fin N → ℝ) : ℝ :=
  ∑ n, tc n * w n * 4 * (o.red * o.ds) * (1 / te)

/-- `suma2` of Compton scattering, compton.cpp:79. -/
noncomputable def csum2 (lorz te : ℝ) (o : Opac) : ℝ :=
  4 * lorz * o.prat * o.ds * o.gm1 * (1 / te) / o.rho

/-- `coef[1]`, compton.cpp:85; `jr` is the mean intensity. -/
noncomputable def ccoef1 (lorz te : ℝ) (o : Opac) (w tc : Fin N → ℝ) (jr : ℝ) : ℝ :=
  (1 + csum2 lorz te o * jr) / (csum1 te o w tc * jr)

/-- `coef[0]`, compton.cpp:86. -/
noncomputable def ccoef0 (lorz te : ℝ) (o : Opac) (w tc : Fin N → ℝ) (jr T : ℝ) : ℝ :=
  -(1 + csum2 lorz te o * jr) / csum1 te o w tc - T

/-- `Compton` for one group, compton.cpp:44-109: temperature and intensities. -/
noncomputable def compton (big tiny lorz te : ℝ) (o : Opac) (w tc I : Fin N → ℝ) (T : ℝ) :
    ℝ × (Fin N → ℝ) :=
  open Classical in
  let rd := o.red * o.ds
  if rd > tiny then
    let jr := ∑ n, I n * w n
    let tr := Real.sqrt (Real.sqrt jr)
    if |tr - T| > 1 / 10 ^ 12 then
      match Quartic.polyRoot big (ccoef1 lorz te o w tc jr) (ccoef0 lorz te o w tc jr T) with
      | none => (T, I)
      | some x =>
        let jrnew := x * x * x * x
        let T' := (jrnew - jr) / (csum1 te o w tc * jr) + x
        let source := rd * 4 * jr * (1 / te) * (T' - x)
        (T', fun n => I n + source * tc n)
    else (T, I)
  else (T, I)

end Verif.RadSrc
