import Verif.Spec.GrTensor

/-! # Specification vocabulary: currents of a relativistic fluid, the flux of HLLE in the coordinates -/
namespace Verif.Gr

/-- Fluxes in the coordinates: the slots `IDN`, `IEN`, `IM1`, `IM2`, `IM3` and the two electric fields. -/
@[ext] structure GlobalFlux where
  dn : ℝ
  en : ℝ
  mom : Fin 3 → ℝ
  ey : ℝ
  ez : ℝ

/-- Fluxes through a surface of constant `x^μ`; for `μ = 0` the conserved variables. -/
def current (d : Fin 3) (g T : M4) (rho : ℝ) (u b : V4) (μ : Fin 4) : GlobalFlux :=
  ⟨rho * u μ, lowerSecond g T μ 0, fun i => lowerSecond g T μ i.succ, -dual u b (d + 1).succ μ,
    dual u b (d + 2).succ μ⟩

/-- Flux of HLLE from the speeds of the two waves, the fluxes and the conserved variables of the two sides. -/
noncomputable def hlleScalar (sl sr fl fr ul ur : ℝ) : ℝ := (sr*fl - sl*fr + sl*sr*(ur - ul)) / (sr - sl)

open Classical in
/-- The same for all slots, with the fluxes of one side if no wave runs to the other. -/
noncomputable def hlleFlux (sl sr : ℝ) (fl fr ul ur : GlobalFlux) : GlobalFlux :=
  if 0 ≤ sl then fl else if sr ≤ 0 then fr else
    ⟨hlleScalar sl sr fl.dn fr.dn ul.dn ur.dn, hlleScalar sl sr fl.en fr.en ul.en ur.en,
      fun i => hlleScalar sl sr (fl.mom i) (fr.mom i) (ul.mom i) (ur.mom i),
      hlleScalar sl sr fl.ey fr.ey ul.ey ur.ey, hlleScalar sl sr fl.ez fr.ez ul.ez ur.ez⟩

end Verif.Gr
