import Verif.Lemmas.Integrator

set_option linter.unusedSimpArgs false

namespace Verif.Integrator

variable {V : Type} [AddCommGroup V] [Module ℚ V]

/-- Tableau of rk4 (products of the decimal weights). -/
def rk4Tab : Tableau :=
  ⟨[⟨false, 0, 1, [], []⟩,
    ⟨false, 596871952987369/500000000000000, 1, [596871952987369/500000000000000], [596871952987369/500000000000000]⟩,
    ⟨false, 143420374894917713991866054213334733112810837/500000000000000000000000000000000000000000000, 1000000000000000454233803084173/1000000000000000000000000000000, [166060713142510860339959392071334733112810837/500000000000000000000000000000000000000000000, 99279895495783/1000000000000000], [166060713142510860339959392071334733112810837/500000000000000000000000000000000000000000000, 99279895495783/1000000000000000]⟩,
    ⟨false, 333137596057212605707258425097725612397961988800965247147148672916779875973/250000000000000000000000000000000000000000000000000000000000000000000000000, 499999999999998901849088129871212354738641634919280979520317/500000000000000000000000000000000000000000000000000000000000, [6369550393777893401097756616720169453061214979925140937368172916779875973/250000000000000000000000000000000000000000000000000000000000000000000000000, -78578109814578532758808090751594821450041993/500000000000000000000000000000000000000000000, 565839009027021/500000000000000], [6369550393777893401097756616720169453061214979925140937368172916779875973/250000000000000000000000000000000000000000000000000000000000000000000000000, -78578109814578532758808090751594821450041993/500000000000000000000000000000000000000000000, 565839009027021/500000000000000]⟩],
    499999999999999332008441912041544041150952011827945349692979189899731390571/500000000000000000000000000000000000000000000000000000000000000000000000000, [33965774469438016339408665233975662479158045760206553864393196030576026624895047968697699/250000000000000000000000000000000000000000000000000000000000000000000000000000000000000000, -32422395787149585250128427415825192880980287929192230392959/500000000000000000000000000000000000000000000000000000000000, 309157963593605346002770860123/500000000000000000000000000000, 38833220813667/125000000000000],
    [33965774469438016339408665233975662479158045760206553864393196030576026624895047968697699/250000000000000000000000000000000000000000000000000000000000000000000000000000000000000000, -32422395787149585250128427415825192880980287929192230392959/500000000000000000000000000000000000000000000000000000000000, 309157963593605346002770860123/500000000000000000000000000000, 38833220813667/125000000000000]⟩

/-- Tableau of ssprk54 (products of the decimal weights). -/
def sspTab : Tableau :=
  ⟨[⟨false, 0, 1, [], []⟩,
    ⟨false, 39175222657189/100000000000000, 1, [39175222657189/100000000000000], [39175222657189/100000000000000]⟩,
    ⟨false, 368410593050371/1000000000000000, 1, [4353381925223375589733704317/20000000000000000000000000000, 368410593050371/1000000000000000], [4353381925223375589733704317/20000000000000000000000000000, 368410593050371/1000000000000000]⟩,
    ⟨false, 125945887135847/500000000000000, 1, [1653841733156212005646745364788898843464249/20000000000000000000000000000000000000000000, 139958502191895367785698652487/1000000000000000000000000000000, 125945887135847/500000000000000], [1653841733156212005646745364788898843464249/20000000000000000000000000000000000000000000, 139958502191895367785698652487/1000000000000000000000000000000, 125945887135847/500000000000000]⟩,
    ⟨false, 35079729801767052227967329891146727954537819/50000000000000000000000000000000000000000000, 1, [339831418185573847156939317943415554739823239326666715533/5000000000000000000000000000000000000000000000000000000000, 28758674626157893908476036216481442938120179/250000000000000000000000000000000000000000000, 25879362324673203996868049299/125000000000000000000000000000, 544974750228521/1000000000000000], [339831418185573847156939317943415554739823239326666715533/5000000000000000000000000000000000000000000000000000000000, 28758674626157893908476036216481442938120179/250000000000000000000000000000000000000000000, 25879362324673203996868049299/125000000000000000000000000000, 544974750228521/1000000000000000]⟩],
    1, [183514845105983158536173599000449704965964231908067553360975438113465461/1250000000000000000000000000000000000000000000000000000000000000000000000, 15530181840311005108954934862026716529845112768866077311243/62500000000000000000000000000000000000000000000000000000000, 3258088447874398909702493145562474729402283/31250000000000000000000000000000000000000000, 68609725225337535615866076657/250000000000000000000000000000, 113003741618453/500000000000000],
    [183514845105983158536173599000449704965964231908067553360975438113465461/1250000000000000000000000000000000000000000000000000000000000000000000000, 15530181840311005108954934862026716529845112768866077311243/62500000000000000000000000000000000000000000000000000000000, 3258088447874398909702493145562474729402283/31250000000000000000000000000000000000000000, 52686608058765035615866076657/250000000000000000000000000000, 113003741618453/500000000000000]⟩

/-- The stages of rk1. -/
def stages_rk1 : List Stage :=
  [⟨true, false, 0, 1, 1, 1, 0, 1, 0⟩]

theorem stages_rk1_eq (sm : Bool) : stages .rk1 0 sm = some stages_rk1 := by
  simp only [stages, mainStages, plainTimes, simpleTimes, timesLoop, betas, gammas, stages_rk1, List.replicate, List.zipWith, List.length, if_true]

theorem rk1_step (sm : Bool) (P : Phys V) (u : V) : step .rk1 0 sm P u = some ((euler).eval P u) := by
  have e0 : u = ((1 : ℚ) • u + (comb [] [] + comb [] []) : V) := by simp [comb]
  have z0 : (0 : V) = ((0 : ℚ) • u + (comb [] [] + comb [] []) : V) := by simp [comb]
  obtain ⟨F1, hF1⟩ : ∃ x, x = P.flux false ((1 : ℚ) • u + (comb [] [] + comb [] []) : V) := ⟨_, rfl⟩
  obtain ⟨S1, hS1⟩ : ∃ x, x = P.src (0) ((1 : ℚ) • u + (comb [] [] + comb [] []) : V) := ⟨_, rfl⟩
  unfold step
  rw [stages_rk1_eq sm]
  show ((runStages .rk1 P false 1 stages_rk1 ⟨u, 0, none⟩).map (·.u)) = _
  have hr : runStages .rk1 P false 1 stages_rk1 ⟨u, 0, none⟩ = some ⟨((1 : ℚ) • u + (comb [1] [F1] + comb [1] [S1]) : V), ((1 : ℚ) • u + (comb [0] [F1] + comb [0] [S1]) : V), none⟩ := by
    unfold stages_rk1
    rw [run_main false F1 S1 ((1 : ℚ) • u + (comb [1] [F1] + comb [1] [S1]) : V) ((1 : ℚ) • u + (comb [0] [F1] + comb [0] [S1]) : V) (by rw [← e0] at hF1; exact hF1) (by rw [← e0] at hS1; exact hS1) (by decide) rfl rfl (by simp) (by decide)
      (by simp only [comb, Option.getD]; module) (by norm_num [comb]; try module)]
    rfl
  rw [hr]
  simp only [Option.map_some, Tableau.eval, euler, slopes, List.nil_append, List.cons_append, ← hF1, ← hS1]

/-- The stages of rk2. -/
def stages_rk2 : List Stage :=
  [⟨true, false, 0, 1, 1, 1, 0, 1, 0⟩,
    ⟨true, false, 1, 1, 1/2, 0, 1/2, 1/2, 0⟩]

theorem stages_rk2_eq (sm : Bool) : stages .rk2 0 sm = some stages_rk2 := by
  simp only [stages, mainStages, plainTimes, simpleTimes, timesLoop, betas, gammas, stages_rk2, List.replicate, List.zipWith, List.length, if_true]

theorem rk2_step (sm : Bool) (P : Phys V) (u : V) : step .rk2 0 sm P u = some ((heun).eval P u) := by
  have e0 : u = ((1 : ℚ) • u + (comb [] [] + comb [] []) : V) := by simp [comb]
  have z0 : (0 : V) = ((0 : ℚ) • u + (comb [] [] + comb [] []) : V) := by simp [comb]
  obtain ⟨F1, hF1⟩ : ∃ x, x = P.flux false ((1 : ℚ) • u + (comb [] [] + comb [] []) : V) := ⟨_, rfl⟩
  obtain ⟨S1, hS1⟩ : ∃ x, x = P.src (0) ((1 : ℚ) • u + (comb [] [] + comb [] []) : V) := ⟨_, rfl⟩
  obtain ⟨F2, hF2⟩ : ∃ x, x = P.flux false ((1 : ℚ) • u + (comb [1] [F1] + comb [1] [S1]) : V) := ⟨_, rfl⟩
  obtain ⟨S2, hS2⟩ : ∃ x, x = P.src (1) ((1 : ℚ) • u + (comb [1] [F1] + comb [1] [S1]) : V) := ⟨_, rfl⟩
  unfold step
  rw [stages_rk2_eq sm]
  show ((runStages .rk2 P false 1 stages_rk2 ⟨u, 0, none⟩).map (·.u)) = _
  have hr : runStages .rk2 P false 1 stages_rk2 ⟨u, 0, none⟩ = some ⟨((1 : ℚ) • u + (comb [1/2, 1/2] [F1, F2] + comb [1/2, 1/2] [S1, S2]) : V), ((1 : ℚ) • u + (comb [0, 0] [F1, F2] + comb [0, 0] [S1, S2]) : V), none⟩ := by
    unfold stages_rk2
    rw [run_main false F1 S1 ((1 : ℚ) • u + (comb [1] [F1] + comb [1] [S1]) : V) ((1 : ℚ) • u + (comb [0] [F1] + comb [0] [S1]) : V) (by rw [← e0] at hF1; exact hF1) (by rw [← e0] at hS1; exact hS1) (by decide) rfl rfl (by simp) (by decide)
      (by simp only [comb, Option.getD]; module) (by norm_num [comb]; try module)]
    rw [run_main false F2 S2 ((1 : ℚ) • u + (comb [1/2, 1/2] [F1, F2] + comb [1/2, 1/2] [S1, S2]) : V) ((1 : ℚ) • u + (comb [0, 0] [F1, F2] + comb [0, 0] [S1, S2]) : V) hF2 hS2 (by decide) rfl rfl (by simp) (by decide)
      (by simp only [comb, Option.getD]; module) (by norm_num [comb]; try module)]
    rfl
  rw [hr]
  simp only [Option.map_some, Tableau.eval, heun, slopes, List.nil_append, List.cons_append, ← hF1, ← hS1, ← hF2, ← hS2]

/-- The stages of vl2. -/
def stages_vl2 : List Stage :=
  [⟨true, false, 0, 1/2, 1/2, 1, 0, 1, 0⟩,
    ⟨true, false, 1/2, 1, 1, 0, 0, 1, 0⟩]

theorem stages_vl2_eq (sm : Bool) : stages .vl2 0 sm = some stages_vl2 := by
  simp only [stages, mainStages, plainTimes, simpleTimes, timesLoop, betas, gammas, stages_vl2, List.replicate, List.zipWith, List.length, if_true]

theorem vl2_step (sm : Bool) (P : Phys V) (u : V) : step .vl2 0 sm P u = some ((midpoint).eval P u) := by
  have e0 : u = ((1 : ℚ) • u + (comb [] [] + comb [] []) : V) := by simp [comb]
  have z0 : (0 : V) = ((0 : ℚ) • u + (comb [] [] + comb [] []) : V) := by simp [comb]
  obtain ⟨F1, hF1⟩ : ∃ x, x = P.flux true ((1 : ℚ) • u + (comb [] [] + comb [] []) : V) := ⟨_, rfl⟩
  obtain ⟨S1, hS1⟩ : ∃ x, x = P.src (0) ((1 : ℚ) • u + (comb [] [] + comb [] []) : V) := ⟨_, rfl⟩
  obtain ⟨F2, hF2⟩ : ∃ x, x = P.flux false ((1 : ℚ) • u + (comb [1/2] [F1] + comb [1/2] [S1]) : V) := ⟨_, rfl⟩
  obtain ⟨S2, hS2⟩ : ∃ x, x = P.src (1/2) ((1 : ℚ) • u + (comb [1/2] [F1] + comb [1/2] [S1]) : V) := ⟨_, rfl⟩
  unfold step
  rw [stages_vl2_eq sm]
  show ((runStages .vl2 P false 1 stages_vl2 ⟨u, 0, none⟩).map (·.u)) = _
  have hr : runStages .vl2 P false 1 stages_vl2 ⟨u, 0, none⟩ = some ⟨((1 : ℚ) • u + (comb [0, 1] [F1, F2] + comb [0, 1] [S1, S2]) : V), ((1 : ℚ) • u + (comb [1/2, 0] [F1, F2] + comb [1/2, 0] [S1, S2]) : V), none⟩ := by
    unfold stages_vl2
    rw [run_main true F1 S1 ((1 : ℚ) • u + (comb [1/2] [F1] + comb [1/2] [S1]) : V) ((1 : ℚ) • u + (comb [0] [F1] + comb [0] [S1]) : V) (by rw [← e0] at hF1; exact hF1) (by rw [← e0] at hS1; exact hS1) (by decide) rfl rfl (by simp) (by decide)
      (by simp only [comb, Option.getD]; module) (by norm_num [comb]; try module)]
    rw [run_main false F2 S2 ((1 : ℚ) • u + (comb [0, 1] [F1, F2] + comb [0, 1] [S1, S2]) : V) ((1 : ℚ) • u + (comb [1/2, 0] [F1, F2] + comb [1/2, 0] [S1, S2]) : V) hF2 hS2 (by decide) rfl rfl (by simp) (by decide)
      (by simp only [comb, Option.getD]; module) (by norm_num [comb]; try module)]
    rfl
  rw [hr]
  simp only [Option.map_some, Tableau.eval, midpoint, slopes, List.nil_append, List.cons_append, ← hF1, ← hS1, ← hF2, ← hS2]

/-- The stages of rk3. -/
def stages_rk3 : List Stage :=
  [⟨true, false, 0, 1, 1, 1, 0, 1, 0⟩,
    ⟨true, false, 1, 1/2, 1/4, 0, 1/4, 3/4, 0⟩,
    ⟨true, false, 1/2, 1, 2/3, 0, 2/3, 1/3, 0⟩]

theorem stages_rk3_eq (sm : Bool) : stages .rk3 0 sm = some stages_rk3 := by
  simp only [stages, mainStages, plainTimes, simpleTimes, timesLoop, betas, gammas, stages_rk3, List.replicate, List.zipWith, List.length, if_true]

theorem rk3_step (sm : Bool) (P : Phys V) (u : V) : step .rk3 0 sm P u = some ((ssp3).eval P u) := by
  have e0 : u = ((1 : ℚ) • u + (comb [] [] + comb [] []) : V) := by simp [comb]
  have z0 : (0 : V) = ((0 : ℚ) • u + (comb [] [] + comb [] []) : V) := by simp [comb]
  obtain ⟨F1, hF1⟩ : ∃ x, x = P.flux false ((1 : ℚ) • u + (comb [] [] + comb [] []) : V) := ⟨_, rfl⟩
  obtain ⟨S1, hS1⟩ : ∃ x, x = P.src (0) ((1 : ℚ) • u + (comb [] [] + comb [] []) : V) := ⟨_, rfl⟩
  obtain ⟨F2, hF2⟩ : ∃ x, x = P.flux false ((1 : ℚ) • u + (comb [1] [F1] + comb [1] [S1]) : V) := ⟨_, rfl⟩
  obtain ⟨S2, hS2⟩ : ∃ x, x = P.src (1) ((1 : ℚ) • u + (comb [1] [F1] + comb [1] [S1]) : V) := ⟨_, rfl⟩
  obtain ⟨F3, hF3⟩ : ∃ x, x = P.flux false ((1 : ℚ) • u + (comb [1/4, 1/4] [F1, F2] + comb [1/4, 1/4] [S1, S2]) : V) := ⟨_, rfl⟩
  obtain ⟨S3, hS3⟩ : ∃ x, x = P.src (1/2) ((1 : ℚ) • u + (comb [1/4, 1/4] [F1, F2] + comb [1/4, 1/4] [S1, S2]) : V) := ⟨_, rfl⟩
  unfold step
  rw [stages_rk3_eq sm]
  show ((runStages .rk3 P false 1 stages_rk3 ⟨u, 0, none⟩).map (·.u)) = _
  have hr : runStages .rk3 P false 1 stages_rk3 ⟨u, 0, none⟩ = some ⟨((1 : ℚ) • u + (comb [1/6, 1/6, 2/3] [F1, F2, F3] + comb [1/6, 1/6, 2/3] [S1, S2, S3]) : V), ((1 : ℚ) • u + (comb [0, 0, 0] [F1, F2, F3] + comb [0, 0, 0] [S1, S2, S3]) : V), none⟩ := by
    unfold stages_rk3
    rw [run_main false F1 S1 ((1 : ℚ) • u + (comb [1] [F1] + comb [1] [S1]) : V) ((1 : ℚ) • u + (comb [0] [F1] + comb [0] [S1]) : V) (by rw [← e0] at hF1; exact hF1) (by rw [← e0] at hS1; exact hS1) (by decide) rfl rfl (by simp) (by decide)
      (by simp only [comb, Option.getD]; module) (by norm_num [comb]; try module)]
    rw [run_main false F2 S2 ((1 : ℚ) • u + (comb [1/4, 1/4] [F1, F2] + comb [1/4, 1/4] [S1, S2]) : V) ((1 : ℚ) • u + (comb [0, 0] [F1, F2] + comb [0, 0] [S1, S2]) : V) hF2 hS2 (by decide) rfl rfl (by simp) (by decide)
      (by simp only [comb, Option.getD]; module) (by norm_num [comb]; try module)]
    rw [run_main false F3 S3 ((1 : ℚ) • u + (comb [1/6, 1/6, 2/3] [F1, F2, F3] + comb [1/6, 1/6, 2/3] [S1, S2, S3]) : V) ((1 : ℚ) • u + (comb [0, 0, 0] [F1, F2, F3] + comb [0, 0, 0] [S1, S2, S3]) : V) hF3 hS3 (by decide) rfl rfl (by simp) (by decide)
      (by simp only [comb, Option.getD]; module) (by norm_num [comb]; try module)]
    rfl
  rw [hr]
  simp only [Option.map_some, Tableau.eval, ssp3, slopes, List.nil_append, List.cons_append, ← hF1, ← hS1, ← hF2, ← hS2, ← hF3, ← hS3]

/-- The stages of rk4. -/
def stages_rk4 : List Stage :=
  [⟨true, false, 0, 596871952987369/500000000000000, 596871952987369/500000000000000, 1, 0, 1, 0⟩,
    ⟨true, false, 596871952987369/500000000000000, 143420374894917713991866054213334733112810837/500000000000000000000000000000000000000000000, 99279895495783/1000000000000000, 217683334308543/1000000000000000, 60549239777241/500000000000000, 721781678111411/1000000000000000, 0⟩,
    ⟨true, false, 143420374894917713991866054213334733112810837/500000000000000000000000000000000000000000000, 333137596057212605707258425097725612397961988800965247147148672916779875973/250000000000000000000000000000000000000000000000000000000000000000000000000, 565839009027021/500000000000000, 1065841341361089/1000000000000000, -153753347986401/40000000000000, 1060604632669361/500000000000000, 0⟩,
    ⟨true, false, 333137596057212605707258425097725612397961988800965247147148672916779875973/250000000000000000000000000000000000000000000000000000000000000000000000000, 1, 38833220813667/125000000000000, 0, 546370891121863/1000000000000000, 39730607136541/200000000000000, 0⟩]

theorem stages_rk4_eq (sm : Bool) : stages .rk4 0 sm = some stages_rk4 := by
  simp only [stages, mainStages, plainTimes, simpleTimes, timesLoop, betas, gammas, stages_rk4, List.replicate, List.zipWith, List.length, if_true]
  norm_num

theorem rk4_step (sm : Bool) (P : Phys V) (u : V) : step .rk4 0 sm P u = some ((rk4Tab).eval P u) := by
  have e0 : u = ((1 : ℚ) • u + (comb [] [] + comb [] []) : V) := by simp [comb]
  have z0 : (0 : V) = ((0 : ℚ) • u + (comb [] [] + comb [] []) : V) := by simp [comb]
  obtain ⟨F1, hF1⟩ : ∃ x, x = P.flux false ((1 : ℚ) • u + (comb [] [] + comb [] []) : V) := ⟨_, rfl⟩
  obtain ⟨S1, hS1⟩ : ∃ x, x = P.src (0) ((1 : ℚ) • u + (comb [] [] + comb [] []) : V) := ⟨_, rfl⟩
  obtain ⟨F2, hF2⟩ : ∃ x, x = P.flux false ((1 : ℚ) • u + (comb [596871952987369/500000000000000] [F1] + comb [596871952987369/500000000000000] [S1]) : V) := ⟨_, rfl⟩
  obtain ⟨S2, hS2⟩ : ∃ x, x = P.src (596871952987369/500000000000000) ((1 : ℚ) • u + (comb [596871952987369/500000000000000] [F1] + comb [596871952987369/500000000000000] [S1]) : V) := ⟨_, rfl⟩
  obtain ⟨F3, hF3⟩ : ∃ x, x = P.flux false ((1000000000000000454233803084173/1000000000000000000000000000000 : ℚ) • u + (comb [166060713142510860339959392071334733112810837/500000000000000000000000000000000000000000000, 99279895495783/1000000000000000] [F1, F2] + comb [166060713142510860339959392071334733112810837/500000000000000000000000000000000000000000000, 99279895495783/1000000000000000] [S1, S2]) : V) := ⟨_, rfl⟩
  obtain ⟨S3, hS3⟩ : ∃ x, x = P.src (143420374894917713991866054213334733112810837/500000000000000000000000000000000000000000000) ((1000000000000000454233803084173/1000000000000000000000000000000 : ℚ) • u + (comb [166060713142510860339959392071334733112810837/500000000000000000000000000000000000000000000, 99279895495783/1000000000000000] [F1, F2] + comb [166060713142510860339959392071334733112810837/500000000000000000000000000000000000000000000, 99279895495783/1000000000000000] [S1, S2]) : V) := ⟨_, rfl⟩
  obtain ⟨F4, hF4⟩ : ∃ x, x = P.flux false ((499999999999998901849088129871212354738641634919280979520317/500000000000000000000000000000000000000000000000000000000000 : ℚ) • u + (comb [6369550393777893401097756616720169453061214979925140937368172916779875973/250000000000000000000000000000000000000000000000000000000000000000000000000, -78578109814578532758808090751594821450041993/500000000000000000000000000000000000000000000, 565839009027021/500000000000000] [F1, F2, F3] + comb [6369550393777893401097756616720169453061214979925140937368172916779875973/250000000000000000000000000000000000000000000000000000000000000000000000000, -78578109814578532758808090751594821450041993/500000000000000000000000000000000000000000000, 565839009027021/500000000000000] [S1, S2, S3]) : V) := ⟨_, rfl⟩
  obtain ⟨S4, hS4⟩ : ∃ x, x = P.src (333137596057212605707258425097725612397961988800965247147148672916779875973/250000000000000000000000000000000000000000000000000000000000000000000000000) ((499999999999998901849088129871212354738641634919280979520317/500000000000000000000000000000000000000000000000000000000000 : ℚ) • u + (comb [6369550393777893401097756616720169453061214979925140937368172916779875973/250000000000000000000000000000000000000000000000000000000000000000000000000, -78578109814578532758808090751594821450041993/500000000000000000000000000000000000000000000, 565839009027021/500000000000000] [F1, F2, F3] + comb [6369550393777893401097756616720169453061214979925140937368172916779875973/250000000000000000000000000000000000000000000000000000000000000000000000000, -78578109814578532758808090751594821450041993/500000000000000000000000000000000000000000000, 565839009027021/500000000000000] [S1, S2, S3]) : V) := ⟨_, rfl⟩
  unfold step
  rw [stages_rk4_eq sm]
  show ((runStages .rk4 P false 1 stages_rk4 ⟨u, 0, none⟩).map (·.u)) = _
  have hr : runStages .rk4 P false 1 stages_rk4 ⟨u, 0, none⟩ = some ⟨((499999999999999332008441912041544041150952011827945349692979189899731390571/500000000000000000000000000000000000000000000000000000000000000000000000000 : ℚ) • u + (comb [33965774469438016339408665233975662479158045760206553864393196030576026624895047968697699/250000000000000000000000000000000000000000000000000000000000000000000000000000000000000000, -32422395787149585250128427415825192880980287929192230392959/500000000000000000000000000000000000000000000000000000000000, 309157963593605346002770860123/500000000000000000000000000000, 38833220813667/125000000000000] [F1, F2, F3, F4] + comb [33965774469438016339408665233975662479158045760206553864393196030576026624895047968697699/250000000000000000000000000000000000000000000000000000000000000000000000000000000000000000, -32422395787149585250128427415825192880980287929192230392959/500000000000000000000000000000000000000000000000000000000000, 309157963593605346002770860123/500000000000000000000000000000, 38833220813667/125000000000000] [S1, S2, S3, S4]) : V), ((2283524675669632484141165970783715917853944397/1000000000000000000000000000000000000000000000 : ℚ) • u + (comb [306923450124735203138549931747151776524481594232384169321493/500000000000000000000000000000000000000000000000000000000000, 105816616985414090749679787687/1000000000000000000000000000000, 0, 0] [F1, F2, F3, F4] + comb [306923450124735203138549931747151776524481594232384169321493/500000000000000000000000000000000000000000000000000000000000, 105816616985414090749679787687/1000000000000000000000000000000, 0, 0] [S1, S2, S3, S4]) : V), none⟩ := by
    unfold stages_rk4
    rw [run_main false F1 S1 ((1 : ℚ) • u + (comb [596871952987369/500000000000000] [F1] + comb [596871952987369/500000000000000] [S1]) : V) ((1 : ℚ) • u + (comb [0] [F1] + comb [0] [S1]) : V) (by rw [← e0] at hF1; exact hF1) (by rw [← e0] at hS1; exact hS1) (by decide) rfl rfl (by simp) (by decide)
      (by simp only [comb, Option.getD]; module) (by norm_num [comb]; try module)]
    rw [run_main false F2 S2 ((1000000000000000454233803084173/1000000000000000000000000000000 : ℚ) • u + (comb [166060713142510860339959392071334733112810837/500000000000000000000000000000000000000000000, 99279895495783/1000000000000000] [F1, F2] + comb [166060713142510860339959392071334733112810837/500000000000000000000000000000000000000000000, 99279895495783/1000000000000000] [S1, S2]) : V) ((1217683334308543/1000000000000000 : ℚ) • u + (comb [129929076881542406798827793367/500000000000000000000000000000, 0] [F1, F2] + comb [129929076881542406798827793367/500000000000000000000000000000, 0] [S1, S2]) : V) hF2 hS2 (by decide) rfl rfl (by simp) (by decide)
      (by simp only [comb, Option.getD]; module) (by norm_num [comb]; try module)]
    rw [run_main false F3 S3 ((499999999999998901849088129871212354738641634919280979520317/500000000000000000000000000000000000000000000000000000000000 : ℚ) • u + (comb [6369550393777893401097756616720169453061214979925140937368172916779875973/250000000000000000000000000000000000000000000000000000000000000000000000000, -78578109814578532758808090751594821450041993/500000000000000000000000000000000000000000000, 565839009027021/500000000000000] [F1, F2, F3] + comb [6369550393777893401097756616720169453061214979925140937368172916779875973/250000000000000000000000000000000000000000000000000000000000000000000000000, -78578109814578532758808090751594821450041993/500000000000000000000000000000000000000000000, 565839009027021/500000000000000] [S1, S2, S3]) : V) ((2283524675669632484141165970783715917853944397/1000000000000000000000000000000000000000000000 : ℚ) • u + (comb [306923450124735203138549931747151776524481594232384169321493/500000000000000000000000000000000000000000000000000000000000, 105816616985414090749679787687/1000000000000000000000000000000, 0] [F1, F2, F3] + comb [306923450124735203138549931747151776524481594232384169321493/500000000000000000000000000000000000000000000000000000000000, 105816616985414090749679787687/1000000000000000000000000000000, 0] [S1, S2, S3]) : V) hF3 hS3 (by decide) rfl rfl (by simp) (by decide)
      (by simp only [comb, Option.getD]; module) (by norm_num [comb]; try module)]
    rw [run_main false F4 S4 ((499999999999999332008441912041544041150952011827945349692979189899731390571/500000000000000000000000000000000000000000000000000000000000000000000000000 : ℚ) • u + (comb [33965774469438016339408665233975662479158045760206553864393196030576026624895047968697699/250000000000000000000000000000000000000000000000000000000000000000000000000000000000000000, -32422395787149585250128427415825192880980287929192230392959/500000000000000000000000000000000000000000000000000000000000, 309157963593605346002770860123/500000000000000000000000000000, 38833220813667/125000000000000] [F1, F2, F3, F4] + comb [33965774469438016339408665233975662479158045760206553864393196030576026624895047968697699/250000000000000000000000000000000000000000000000000000000000000000000000000000000000000000, -32422395787149585250128427415825192880980287929192230392959/500000000000000000000000000000000000000000000000000000000000, 309157963593605346002770860123/500000000000000000000000000000, 38833220813667/125000000000000] [S1, S2, S3, S4]) : V) ((2283524675669632484141165970783715917853944397/1000000000000000000000000000000000000000000000 : ℚ) • u + (comb [306923450124735203138549931747151776524481594232384169321493/500000000000000000000000000000000000000000000000000000000000, 105816616985414090749679787687/1000000000000000000000000000000, 0, 0] [F1, F2, F3, F4] + comb [306923450124735203138549931747151776524481594232384169321493/500000000000000000000000000000000000000000000000000000000000, 105816616985414090749679787687/1000000000000000000000000000000, 0, 0] [S1, S2, S3, S4]) : V) hF4 hS4 (by decide) rfl rfl (by simp) (by decide)
      (by simp only [comb, Option.getD]; module) (by norm_num [comb]; try module)]
    rfl
  rw [hr]
  simp only [Option.map_some, Tableau.eval, rk4Tab, slopes, List.nil_append, List.cons_append, ← hF1, ← hS1, ← hF2, ← hS2, ← hF3, ← hS3, ← hF4, ← hS4]

/-- The stages of ssprk54. -/
def stages_ssprk54 : List Stage :=
  [⟨true, false, 0, 39175222657189/100000000000000, 39175222657189/100000000000000, 1, 0, 1, 0⟩,
    ⟨true, false, 39175222657189/100000000000000, 368410593050371/1000000000000000, 368410593050371/1000000000000000, 0, 111125901269753/200000000000000, 88874098730247/200000000000000, 0⟩,
    ⟨true, false, 368410593050371/1000000000000000, 125945887135847/500000000000000, 125945887135847/500000000000000, 103446334394117/200000000000000, 379898148511597/1000000000000000, 0, 620101851488403/1000000000000000⟩,
    ⟨true, false, 125945887135847/500000000000000, 35079729801767052227967329891146727954537819/50000000000000000000000000000000000000000000, 544974750228521/1000000000000000, 96059710526147/1000000000000000, 205480011401717/250000000000000, 0, 44519988598283/250000000000000⟩,
    ⟨true, false, 35079729801767052227967329891146727954537819/50000000000000000000000000000000000000000000, 1, 113003741618453/500000000000000, 0, 96677154375817/250000000000000, 1, 1⟩]

theorem stages_ssprk54_eq (sm : Bool) : stages .ssprk54 0 sm = some stages_ssprk54 := by
  simp only [stages, mainStages, plainTimes, simpleTimes, timesLoop, betas, gammas, stages_ssprk54, List.replicate, List.zipWith, List.length, if_true]
  norm_num

theorem ssprk54_step (sm : Bool) (P : Phys V) (u : V) : step .ssprk54 0 sm P u = some ((sspTab).eval P u) := by
  have e0 : u = ((1 : ℚ) • u + (comb [] [] + comb [] []) : V) := by simp [comb]
  have z0 : (0 : V) = ((0 : ℚ) • u + (comb [] [] + comb [] []) : V) := by simp [comb]
  obtain ⟨F1, hF1⟩ : ∃ x, x = P.flux false ((1 : ℚ) • u + (comb [] [] + comb [] []) : V) := ⟨_, rfl⟩
  obtain ⟨S1, hS1⟩ : ∃ x, x = P.src (0) ((1 : ℚ) • u + (comb [] [] + comb [] []) : V) := ⟨_, rfl⟩
  obtain ⟨F2, hF2⟩ : ∃ x, x = P.flux false ((1 : ℚ) • u + (comb [39175222657189/100000000000000] [F1] + comb [39175222657189/100000000000000] [S1]) : V) := ⟨_, rfl⟩
  obtain ⟨S2, hS2⟩ : ∃ x, x = P.src (39175222657189/100000000000000) ((1 : ℚ) • u + (comb [39175222657189/100000000000000] [F1] + comb [39175222657189/100000000000000] [S1]) : V) := ⟨_, rfl⟩
  obtain ⟨F3, hF3⟩ : ∃ x, x = P.flux false ((1 : ℚ) • u + (comb [4353381925223375589733704317/20000000000000000000000000000, 368410593050371/1000000000000000] [F1, F2] + comb [4353381925223375589733704317/20000000000000000000000000000, 368410593050371/1000000000000000] [S1, S2]) : V) := ⟨_, rfl⟩
  obtain ⟨S3, hS3⟩ : ∃ x, x = P.src (368410593050371/1000000000000000) ((1 : ℚ) • u + (comb [4353381925223375589733704317/20000000000000000000000000000, 368410593050371/1000000000000000] [F1, F2] + comb [4353381925223375589733704317/20000000000000000000000000000, 368410593050371/1000000000000000] [S1, S2]) : V) := ⟨_, rfl⟩
  obtain ⟨F4, hF4⟩ : ∃ x, x = P.flux false ((1 : ℚ) • u + (comb [1653841733156212005646745364788898843464249/20000000000000000000000000000000000000000000, 139958502191895367785698652487/1000000000000000000000000000000, 125945887135847/500000000000000] [F1, F2, F3] + comb [1653841733156212005646745364788898843464249/20000000000000000000000000000000000000000000, 139958502191895367785698652487/1000000000000000000000000000000, 125945887135847/500000000000000] [S1, S2, S3]) : V) := ⟨_, rfl⟩
  obtain ⟨S4, hS4⟩ : ∃ x, x = P.src (125945887135847/500000000000000) ((1 : ℚ) • u + (comb [1653841733156212005646745364788898843464249/20000000000000000000000000000000000000000000, 139958502191895367785698652487/1000000000000000000000000000000, 125945887135847/500000000000000] [F1, F2, F3] + comb [1653841733156212005646745364788898843464249/20000000000000000000000000000000000000000000, 139958502191895367785698652487/1000000000000000000000000000000, 125945887135847/500000000000000] [S1, S2, S3]) : V) := ⟨_, rfl⟩
  obtain ⟨F5, hF5⟩ : ∃ x, x = P.flux false ((1 : ℚ) • u + (comb [339831418185573847156939317943415554739823239326666715533/5000000000000000000000000000000000000000000000000000000000, 28758674626157893908476036216481442938120179/250000000000000000000000000000000000000000000, 25879362324673203996868049299/125000000000000000000000000000, 544974750228521/1000000000000000] [F1, F2, F3, F4] + comb [339831418185573847156939317943415554739823239326666715533/5000000000000000000000000000000000000000000000000000000000, 28758674626157893908476036216481442938120179/250000000000000000000000000000000000000000000, 25879362324673203996868049299/125000000000000000000000000000, 544974750228521/1000000000000000] [S1, S2, S3, S4]) : V) := ⟨_, rfl⟩
  obtain ⟨S5, hS5⟩ : ∃ x, x = P.src (35079729801767052227967329891146727954537819/50000000000000000000000000000000000000000000) ((1 : ℚ) • u + (comb [339831418185573847156939317943415554739823239326666715533/5000000000000000000000000000000000000000000000000000000000, 28758674626157893908476036216481442938120179/250000000000000000000000000000000000000000000, 25879362324673203996868049299/125000000000000000000000000000, 544974750228521/1000000000000000] [F1, F2, F3, F4] + comb [339831418185573847156939317943415554739823239326666715533/5000000000000000000000000000000000000000000000000000000000, 28758674626157893908476036216481442938120179/250000000000000000000000000000000000000000000, 25879362324673203996868049299/125000000000000000000000000000, 544974750228521/1000000000000000] [S1, S2, S3, S4]) : V) := ⟨_, rfl⟩
  unfold step
  rw [stages_ssprk54_eq sm]
  show ((runStages .ssprk54 P false 1 stages_ssprk54 ⟨u, 0, (some u)⟩).map (·.u)) = _
  have hr : runStages .ssprk54 P false 1 stages_ssprk54 ⟨u, 0, (some u)⟩ = some ⟨((1 : ℚ) • u + (comb [183514845105983158536173599000449704965964231908067553360975438113465461/1250000000000000000000000000000000000000000000000000000000000000000000000, 15530181840311005108954934862026716529845112768866077311243/62500000000000000000000000000000000000000000000000000000000, 3258088447874398909702493145562474729402283/31250000000000000000000000000000000000000000, 68609725225337535615866076657/250000000000000000000000000000, 113003741618453/500000000000000] [F1, F2, F3, F4, F5] + comb [183514845105983158536173599000449704965964231908067553360975438113465461/1250000000000000000000000000000000000000000000000000000000000000000000000, 15530181840311005108954934862026716529845112768866077311243/62500000000000000000000000000000000000000000000000000000000, 3258088447874398909702493145562474729402283/31250000000000000000000000000000000000000000, 52686608058765035615866076657/250000000000000000000000000000, 113003741618453/500000000000000] [S1, S2, S3, S4, S5]) : V), ((403322845624183/250000000000000 : ℚ) • u + (comb [2410574570052857776767390525983995079085540914099974218603/20000000000000000000000000000000000000000000000000000000000, 203998000221344754388332063814633987680077589/1000000000000000000000000000000000000000000000, 12098325460228244103234491509/500000000000000000000000000000, 0, 0] [F1, F2, F3, F4, F5] + comb [2410574570052857776767390525983995079085540914099974218603/20000000000000000000000000000000000000000000000000000000000, 203998000221344754388332063814633987680077589/1000000000000000000000000000000000000000000000, 12098325460228244103234491509/500000000000000000000000000000, 0, 0] [S1, S2, S3, S4, S5]) : V), (some ((-1 : ℚ) • u + (comb [0, 0, 0, 6369246866629/100000000000000] [F1, F2, F3, F4] + comb [0, 0, 0, 0] [S1, S2, S3, S4]) : V))⟩ := by
    unfold stages_ssprk54
    rw [run_main false F1 S1 ((1 : ℚ) • u + (comb [39175222657189/100000000000000] [F1] + comb [39175222657189/100000000000000] [S1]) : V) ((1 : ℚ) • u + (comb [0] [F1] + comb [0] [S1]) : V) (by rw [← e0] at hF1; exact hF1) (by rw [← e0] at hS1; exact hS1) (by decide) rfl rfl (by simp) (by decide)
      (by simp only [comb, Option.getD]; module) (by norm_num [comb]; try module)]
    rw [run_main false F2 S2 ((1 : ℚ) • u + (comb [4353381925223375589733704317/20000000000000000000000000000, 368410593050371/1000000000000000] [F1, F2] + comb [4353381925223375589733704317/20000000000000000000000000000, 368410593050371/1000000000000000] [S1, S2]) : V) ((1 : ℚ) • u + (comb [0, 0] [F1, F2] + comb [0, 0] [S1, S2]) : V) hF2 hS2 (by decide) rfl rfl (by simp) (by decide)
      (by simp only [comb, Option.getD]; module) (by norm_num [comb]; try module)]
    rw [run_main false F3 S3 ((1 : ℚ) • u + (comb [1653841733156212005646745364788898843464249/20000000000000000000000000000000000000000000, 139958502191895367785698652487/1000000000000000000000000000000, 125945887135847/500000000000000] [F1, F2, F3] + comb [1653841733156212005646745364788898843464249/20000000000000000000000000000000000000000000, 139958502191895367785698652487/1000000000000000000000000000000, 125945887135847/500000000000000] [S1, S2, S3]) : V) ((303446334394117/200000000000000 : ℚ) • u + (comb [450341402381962160086300865132702222303089/4000000000000000000000000000000000000000000, 38110725403023634991147067407/200000000000000000000000000000, 0] [F1, F2, F3] + comb [450341402381962160086300865132702222303089/4000000000000000000000000000000000000000000, 38110725403023634991147067407/200000000000000000000000000000, 0] [S1, S2, S3]) : V) hF3 hS3 (by decide) rfl rfl (by simp) (by decide)
      (by simp only [comb, Option.getD]; module) (by norm_num [comb]; try module)]
    rw [run_main4 F4 S4 ((1 : ℚ) • u + (comb [339831418185573847156939317943415554739823239326666715533/5000000000000000000000000000000000000000000000000000000000, 28758674626157893908476036216481442938120179/250000000000000000000000000000000000000000000, 25879362324673203996868049299/125000000000000000000000000000, 544974750228521/1000000000000000] [F1, F2, F3, F4] + comb [339831418185573847156939317943415554739823239326666715533/5000000000000000000000000000000000000000000000000000000000, 28758674626157893908476036216481442938120179/250000000000000000000000000000000000000000000, 25879362324673203996868049299/125000000000000000000000000000, 544974750228521/1000000000000000] [S1, S2, S3, S4]) : V) ((403322845624183/250000000000000 : ℚ) • u + (comb [2410574570052857776767390525983995079085540914099974218603/20000000000000000000000000000000000000000000000000000000000, 203998000221344754388332063814633987680077589/1000000000000000000000000000000000000000000000, 12098325460228244103234491509/500000000000000000000000000000, 0] [F1, F2, F3, F4] + comb [2410574570052857776767390525983995079085540914099974218603/20000000000000000000000000000000000000000000000000000000000, 203998000221344754388332063814633987680077589/1000000000000000000000000000000000000000000000, 12098325460228244103234491509/500000000000000000000000000000, 0] [S1, S2, S3, S4]) : V) ((-1 : ℚ) • u + (comb [0, 0, 0, 6369246866629/100000000000000] [F1, F2, F3, F4] + comb [0, 0, 0, 0] [S1, S2, S3, S4]) : V) hF4 hS4 rfl rfl
      (by simp only [comb]; module) (by norm_num [comb]; try module) (by simp only [comb]; module)]
    rw [run_main false F5 S5 ((1 : ℚ) • u + (comb [183514845105983158536173599000449704965964231908067553360975438113465461/1250000000000000000000000000000000000000000000000000000000000000000000000, 15530181840311005108954934862026716529845112768866077311243/62500000000000000000000000000000000000000000000000000000000, 3258088447874398909702493145562474729402283/31250000000000000000000000000000000000000000, 68609725225337535615866076657/250000000000000000000000000000, 113003741618453/500000000000000] [F1, F2, F3, F4, F5] + comb [183514845105983158536173599000449704965964231908067553360975438113465461/1250000000000000000000000000000000000000000000000000000000000000000000000, 15530181840311005108954934862026716529845112768866077311243/62500000000000000000000000000000000000000000000000000000000, 3258088447874398909702493145562474729402283/31250000000000000000000000000000000000000000, 52686608058765035615866076657/250000000000000000000000000000, 113003741618453/500000000000000] [S1, S2, S3, S4, S5]) : V) ((403322845624183/250000000000000 : ℚ) • u + (comb [2410574570052857776767390525983995079085540914099974218603/20000000000000000000000000000000000000000000000000000000000, 203998000221344754388332063814633987680077589/1000000000000000000000000000000000000000000000, 12098325460228244103234491509/500000000000000000000000000000, 0, 0] [F1, F2, F3, F4, F5] + comb [2410574570052857776767390525983995079085540914099974218603/20000000000000000000000000000000000000000000000000000000000, 203998000221344754388332063814633987680077589/1000000000000000000000000000000000000000000000, 12098325460228244103234491509/500000000000000000000000000000, 0, 0] [S1, S2, S3, S4, S5]) : V) hF5 hS5 (by decide) rfl rfl (by simp) (by decide)
      (by simp only [comb, Option.getD]; module) (by norm_num [comb]; try module)]
    rfl
  rw [hr]
  simp only [Option.map_some, Tableau.eval, sspTab, slopes, List.nil_append, List.cons_append, ← hF1, ← hS1, ← hF2, ← hS2, ← hF3, ← hS3, ← hF4, ← hS4, ← hF5, ← hS5]

end Verif.Integrator
