import Mathlib.Data.Real.Basic
import Mathlib.Data.Fin.VecNotation

/-!
# Chemistry

Composition of the species, and the reactions as they are listed in the comments of the code.
Nothing here refers to the tables of the code, except for the numbering of the species.
-/

namespace Verif.ChemNet.Spec

/-- A reaction: reactants and products. -/
abbrev Reaction (n : ℕ) := List (Fin n) × List (Fin n)

/-- What the reaction adds of a species. -/
def gain {n : ℕ} (r : Reaction n) (i : Fin n) : ℤ := r.2.count i - r.1.count i

/-- The first two reactants; they set the speed of the reaction. -/
def r1 {n : ℕ} [NeZero n] (r : Reaction n) : Fin n := r.1.getD 0 0
def r2 {n : ℕ} [NeZero n] (r : Reaction n) : Fin n := r.1.getD 1 0

/-- Content of a list of molecules in an element (or charge), given the content of each. -/
def content {n : ℕ} (c : Fin n → ℤ) (l : List (Fin n)) : ℤ := (l.map c).sum

/-- The reaction keeps the element. -/
def Balanced {n : ℕ} (c : Fin n → ℤ) (r : Reaction n) : Prop := content c r.1 = content c r.2

instance {n : ℕ} (c : Fin n → ℤ) (r : Reaction n) : Decidable (Balanced c r) :=
  inferInstanceAs (Decidable (_ = _))

/-! ### gow17

He+ 0, OHx 1, CHx 2, CO 3, C+ 4, HCO+ 5, H2 6, H+ 7, H3+ 8, H2+ 9, O+ 10, Si+ 11, Si 12, C 13,
O 14, He 15, e 16, H 17. -/

namespace Gow

def hydrogen : Fin 18 → ℤ := ![0, 1, 1, 0, 0, 1, 2, 1, 3, 2, 0, 0, 0, 0, 0, 0, 0, 1]
def helium : Fin 18 → ℤ := ![1, 0, 0, 0, 0, 0, 0, 0, 0, 0, 0, 0, 0, 0, 0, 1, 0, 0]
def carbon : Fin 18 → ℤ := ![0, 0, 1, 1, 1, 1, 0, 0, 0, 0, 0, 0, 0, 1, 0, 0, 0, 0]
def oxygen : Fin 18 → ℤ := ![0, 1, 0, 1, 0, 1, 0, 0, 0, 0, 1, 0, 0, 0, 1, 0, 0, 0]
def silicon : Fin 18 → ℤ := ![0, 0, 0, 0, 0, 0, 0, 0, 0, 0, 0, 1, 1, 0, 0, 0, 0, 0]
def charge : Fin 18 → ℤ := ![1, 0, 0, 0, 1, 1, 0, 1, 1, 1, 1, 1, 0, 0, 0, 0, -1, 0]

/-- Cosmic rays. -/
def cr : Fin 7 → Reaction 18 :=
  ![([6], [9, 16]), ([15], [0, 16]), ([17], [7, 16]), ([13], [4, 16]), ([3], [14, 13]),
    ([3], [5, 16]), ([12], [11, 16])]

/-- Two reactants. -/
def body2 : Fin 31 → Reaction 18 :=
  ![([8, 13], [2, 6]), ([8, 14], [1, 6]), ([8, 3], [5, 6]), ([0, 6], [7, 15, 17]),
    ([0, 3], [4, 14, 15]), ([4, 6], [2, 17]), ([4, 1], [5]), ([2, 14], [3, 17]),
    ([1, 13], [3, 17]), ([0, 16], [15]), ([8, 16], [6, 17]), ([4, 16], [13]),
    ([5, 16], [3, 17]), ([9, 6], [8, 17]), ([7, 16], [17]), ([6, 17], [17, 17, 17]),
    ([6, 6], [6, 17, 17]), ([17, 16], [7, 16, 16]), ([8, 16], [17, 17, 17]), ([0, 6], [9, 15]),
    ([2, 17], [6, 13]), ([1, 14], [14, 14, 17]), ([4, 6, 16], [13, 17, 17]), ([11, 16], [12]),
    ([8, 14, 16], [6, 14, 17]), ([0, 1], [10, 15, 17]), ([9, 17], [7, 6]), ([7, 14], [10, 17]),
    ([10, 17], [7, 14]), ([10, 6], [1, 17]), ([10, 6], [14, 17, 17])]

/-- Photons. -/
def ph : Fin 6 → Reaction 18 :=
  ![([13], [4, 16]), ([2], [13, 17]), ([3], [13, 14]), ([1], [14, 17]), ([6], [17, 17]),
    ([12], [11])]

/-- Grains. -/
def gr : Fin 5 → Reaction 18 :=
  ![([17, 17], [6]), ([7, 16], [17]), ([4, 16], [13]), ([0, 16], [15]), ([11, 16], [12])]

end Gow

/-! ### G14Sod

H 0, H+ 1, He 2, He+ 3, He2+ 4, H- 5, H2 6, H2+ 7, e 8. -/

namespace G14

def hydrogen : Fin 9 → ℤ := ![1, 1, 0, 0, 0, 1, 2, 2, 0]
def helium : Fin 9 → ℤ := ![0, 0, 1, 1, 1, 0, 0, 0, 0]
def charge : Fin 9 → ℤ := ![0, 1, 0, 1, 2, -1, 0, 1, -1]

/-- The reactions listed in G14Sod.cpp:74-93. -/
def listed : Fin 20 → Reaction 9 :=
  ![([0, 8], [1, 8, 8]), ([1, 8], [0]), ([2, 8], [3, 8, 8]), ([3, 8], [2]), ([3, 8], [4, 8, 8]),
    ([4, 8], [3]), ([0, 8], [5]), ([5, 0], [6, 8]), ([0, 1], [7]), ([0, 7], [6, 1]),
    ([1, 6], [7, 0]), ([6, 8], [0, 0, 8]), ([5, 8], [0, 8, 8]), ([5, 0], [0, 0, 8]),
    ([5, 1], [0, 0]), ([5, 1], [7, 8]), ([7, 8], [0, 0]), ([7, 5], [0, 6]),
    ([0, 0, 0], [6, 0]), ([6, 0], [0, 0, 0])]

end G14

end Verif.ChemNet.Spec
