import Mathlib.Data.Real.Basic
import Mathlib.Data.Fin.VecNotation

/-!
# Right hand sides of the chemical networks

Model of `ChemNetwork::RHS` and `GetGhostSpecies` of `src/chemistry/network/gow17.cpp` and
`G14Sod.cpp`.  The rate coefficients (`UpdateRates`) are parameters.  Arithmetic is real; the
checks for NaN and infinity are left out.
-/

namespace Verif.ChemNet

/-- `ydotg[i] += x`. -/
def add {n : ℕ} (d : Fin n → ℝ) (i : Fin n) (x : ℝ) : Fin n → ℝ := Function.update d i (d i + x)

/-- Loop body of the reactions with one reactant (cosmic rays, photons, grains),
gow17.cpp:490-494, 509-513, 516-520. -/
def one {n : ℕ} (yp : Fin n → ℝ) (k : ℝ) (a b : Fin n) (d : Fin n → ℝ) : Fin n → ℝ :=
  let rate := k * yp a
  add (add d a (-rate)) b rate

open Classical in
/-- Rate of a reaction of two reactants, gow17.cpp:498-501, G14Sod.cpp:216-219. -/
noncomputable def rate2 {n : ℕ} (yp : Fin n → ℝ) (k : ℝ) (a b : Fin n) : ℝ :=
  if yp a < 0 ∧ yp b < 0 then k * yp a * yp b * -1 else k * yp a * yp b

/-- Loop body of the reactions of two reactants with stoichiometric coefficients,
G14Sod.cpp:236-239; gow17.cpp:502-505 with all coefficients 1. -/
noncomputable def two {n : ℕ} (yp : Fin n → ℝ) (k : ℝ) (a b p q : Fin n) (sa sb sp sq : ℤ)
    (d : Fin n → ℝ) : Fin n → ℝ :=
  let rate := rate2 yp k a b
  add (add (add (add d a (-(sa * rate))) b (-(sb * rate))) p (sp * rate)) q (sq * rate)

/-! ### gow17 -/

namespace Gow

/-! Indices, gow17.cpp:46-91. -/
abbrev iHeplus : Fin 18 := 0
abbrev iOHx : Fin 18 := 1
abbrev iCHx : Fin 18 := 2
abbrev iCO : Fin 18 := 3
abbrev iCplus : Fin 18 := 4
abbrev iHCOplus : Fin 18 := 5
abbrev iH2 : Fin 18 := 6
abbrev iHplus : Fin 18 := 7
abbrev iH3plus : Fin 18 := 8
abbrev iH2plus : Fin 18 := 9
abbrev iOplus : Fin 18 := 10
abbrev iSiplus : Fin 18 := 11
abbrev igSi : Fin 18 := 12
abbrev igC : Fin 18 := 13
abbrev igO : Fin 18 := 14
abbrev igHe : Fin 18 := 15
abbrev ige : Fin 18 := 16
abbrev igH : Fin 18 := 17

/-- gow17.cpp:108-111 -/
def incr : Fin 7 → Fin 18 := ![iH2, igHe, igH, igC, iCO, iCO, igSi]
/-- gow17.cpp:112-115 -/
def outcr : Fin 7 → Fin 18 := ![iH2plus, iHeplus, iHplus, iCplus, igO, iHCOplus, iSiplus]

/-- gow17.cpp:173-180 -/
def in1 : Fin 31 → Fin 18 :=
  ![iH3plus, iH3plus, iH3plus, iHeplus, iHeplus,
    iCplus, iCplus, iCHx, iOHx, iHeplus,
    iH3plus, iCplus, iHCOplus, iH2plus, iHplus,
    iH2, iH2, igH, iH3plus, iHeplus,
    iCHx, iOHx, iCplus, iSiplus, iH3plus,
    iHeplus, iH2plus, iHplus, iOplus, iOplus,
    iOplus]
/-- gow17.cpp:181-188 -/
def in2 : Fin 31 → Fin 18 :=
  ![igC, igO, iCO, iH2, iCO,
    iH2, iOHx, igO, igC, ige,
    ige, ige, ige, iH2, ige,
    igH, iH2, ige, ige, iH2,
    igH, igO, iH2, ige, igO,
    iOHx, igH, igO, igH, iH2,
    iH2]
/-- gow17.cpp:191-198 -/
def out1 : Fin 31 → Fin 18 :=
  ![iCHx, iOHx, iHCOplus, iHplus, iCplus,
    iCHx, iHCOplus, iCO, iCO, igHe,
    iH2, igC, iCO, iH3plus, igH,
    igH, iH2, iHplus, igH, iH2plus,
    iH2, igO, igC, igSi, iH2,
    iOplus, iHplus, iOplus, iHplus, iOHx,
    igO]
/-- gow17.cpp:199-206 -/
def out2 : Fin 31 → Fin 18 :=
  ![iH2, iH2, iH2, igHe, igO,
    igH, igH, igH, igH, igH,
    igH, igH, igH, igH, igH,
    igH, igH, ige, igH, igHe,
    igC, igH, igH, igH, igO,
    igHe, iH2, igH, igO, igH,
    igH]

/-- gow17.cpp:246-248 -/
def inph : Fin 6 → Fin 18 := ![igC, iCHx, iCO, iOHx, iH2, igSi]
/-- gow17.cpp:249-251 -/
def outph : Fin 6 → Fin 18 := ![iCplus, igC, igC, igO, igH, iSiplus]
/-- gow17.cpp:265-266 -/
def ingr : Fin 5 → Fin 18 := ![igH, iHplus, iCplus, iHeplus, iSiplus]
/-- gow17.cpp:267-268 -/
def outgr : Fin 5 → Fin 18 := ![iH2, igH, igC, igHe, igSi]

/-- Total abundances of the elements per hydrogen nucleus. -/
structure Elem where
  xC : ℝ
  xO : ℝ
  xHe : ℝ
  xSi : ℝ

/-- The place of a kept species in the full list. -/
def kept (i : Fin 12) : Fin 18 := i.castLE (by decide)

/-- `GetGhostSpecies`, gow17.cpp:745-764. -/
noncomputable def ghost (X : Elem) (y : Fin 12 → ℝ) : Fin 18 → ℝ :=
  ![y 0, y 1, y 2, y 3, y 4, y 5, y 6, y 7, y 8, y 9, y 10, y 11,
    X.xSi - y 11,
    X.xC - y 5 - y 2 - y 3 - y 4,
    X.xO - y 5 - y 1 - y 3 - y 10,
    X.xHe - y 0,
    y 0 + y 4 + y 5 + y 8 + y 9 + y 7 + y 10 + y 11,
    1 - (y 1 + y 2 + y 5 + 3 * y 8 + 2 * y 9 + y 7 + 2 * y 6)]

/-- Rate coefficients set by `UpdateRates`. -/
structure Coef where
  cr : Fin 7 → ℝ
  b2 : Fin 31 → ℝ
  ph : Fin 6 → ℝ
  gr : Fin 5 → ℝ

/-- `ChemNetwork::RHS`, gow17.cpp:434-526; `tu` is `code_time_cgs`. -/
noncomputable def rhs (X : Elem) (K : Coef) (tu : ℝ) (y : Fin 12 → ℝ) : Fin 12 → ℝ :=
  let yp := ghost X y
  let d0 : Fin 18 → ℝ := fun _ => 0
  let d1 := (List.finRange 7).foldl (fun d i => one yp (K.cr i) (incr i) (outcr i) d) d0
  let d2 := (List.finRange 31).foldl
    (fun d i => two yp (K.b2 i) (in1 i) (in2 i) (out1 i) (out2 i) 1 1 1 1 d) d1
  let d3 := (List.finRange 6).foldl (fun d i => one yp (K.ph i) (inph i) (outph i) d) d2
  let d4 := (List.finRange 5).foldl (fun d i => one yp (K.gr i) (ingr i) (outgr i) d) d3
  fun i => d4 (kept i) * tu

end Gow

/-! ### G14Sod -/

namespace G14

/-! Indices, G14Sod.cpp:45-71. -/
abbrev iH : Fin 9 := 0
abbrev iHplus : Fin 9 := 1
abbrev iHe : Fin 9 := 2
abbrev iHeplus : Fin 9 := 3
abbrev iHe2plus : Fin 9 := 4
abbrev iHmin : Fin 9 := 5
abbrev iH2 : Fin 9 := 6
abbrev iH2plus : Fin 9 := 7
abbrev ige : Fin 9 := 8
abbrev igr : Fin 9 := ige

/-- G14Sod.cpp:95-99 -/
def out1 : Fin 20 → Fin 9 :=
  ![iHplus, iH, iHeplus, iHe, iHe2plus,
    iHeplus, iHmin, iH2, iH2plus, iH2,
    iH2plus, iH2, iH2plus, iH, iH,
    iH2plus, iH, iH, iH2, iH]
/-- G14Sod.cpp:101-105 -/
def in1 : Fin 20 → Fin 9 :=
  ![iH, iHplus, iHe, iHeplus, iHeplus,
    iHe2plus, iH, iHmin, iH, iH,
    iHplus, iH2, iHmin, iHmin, iHmin,
    iHmin, iH2plus, iH2plus, iH2, iH2]
/-- G14Sod.cpp:109-113 -/
def in2 : Fin 20 → Fin 9 :=
  ![ige, ige, ige, ige, ige,
    ige, ige, iH, iHplus, iH2plus,
    iH2, ige, ige, iH, iHplus,
    iHplus, ige, iHmin, iH, iH]
/-- G14Sod.cpp:115-119 -/
def out2 : Fin 20 → Fin 9 :=
  ![ige, igr, ige, igr, ige,
    igr, igr, ige, igr, iHplus,
    iH, ige, ige, ige, igr,
    ige, igr, iH2, iH, iH]

/-- G14Sod.cpp:122-126 -/
def si1 : List ℤ := [1, 1, 1, 1, 1, 1, 1, 1, 1, 1, 1, 1, 1, 1, 1, 1, 1, 1, 2, 1]
/-- G14Sod.cpp:128-132: 19 initializers for an array of 20. -/
def si2 : List ℤ := [1, 1, 1, 1, 1, 1, 1, 1, 1, 1, 1, 1, 1, 1, 1, 1, 1, 1, 1]
/-- G14Sod.cpp:134-138 -/
def so1 : List ℤ := [1, 1, 1, 1, 1, 1, 1, 1, 1, 1, 1, 2, 1, 2, 2, 1, 2, 1, 1, 2]
/-- G14Sod.cpp:140-144 -/
def so2 : List ℤ := [2, 0, 2, 0, 2, 0, 0, 1, 0, 1, 1, 1, 2, 1, 0, 1, 0, 1, 1, 1]

/-- An array of 20 numbers: elements without initializer are zero. -/
def arr (l : List ℤ) (i : Fin 20) : ℤ := l.getD i 0

/-- The place of a kept species in the full list. -/
def kept (i : Fin 8) : Fin 9 := i.castLE (by decide)

/-- `GetGhostSpecies`, G14Sod.cpp:262-270. -/
noncomputable def ghost (y : Fin 8 → ℝ) : Fin 9 → ℝ :=
  ![y 0, y 1, y 2, y 3, y 4, y 5, y 6, y 7, y 1 + y 3 + 2 * y 4 + y 7 - y 5]

open Classical in
/-- `yprev0`, G14Sod.cpp:188-194. -/
noncomputable def clip (y : Fin 9 → ℝ) (i : Fin 9) : ℝ := if y i < 0 then 0 else y i

/-- `ChemNetwork::RHS`, G14Sod.cpp:172-260; `k` is `k2body_`. -/
noncomputable def rhs (k : Fin 20 → ℝ) (nH tu : ℝ) (y : Fin 8 → ℝ) : Fin 8 → ℝ :=
  let yp := clip (ghost y)
  let d := (List.finRange 20).foldl (fun d i => two yp (k i) (in1 i) (in2 i) (out1 i) (out2 i)
    (arr si1 i) (arr si2 i) (arr so1 i) (arr so2 i) d) fun _ => 0
  fun i => d (kept i) * tu * nH

end G14

end Verif.ChemNet
