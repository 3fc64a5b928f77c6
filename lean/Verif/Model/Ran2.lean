import Mathlib.Data.Rat.Defs
import Mathlib.Algebra.Order.Ring.Unbundled.Rat

/-!
# The random generator `ran2` (src/utils/ran2.cpp)

64-bit arithmetic is modelled on `Int` with an explicit check of every intermediate result;
overflow and an out-of-range table index give `none` (undefined behaviour in C++).
-/
namespace Verif.Ran2

/-- The constants (ran2.cpp:28-39). -/
def IMR1 : Int := 2147483563
@[inherit_doc IMR1] def IMR2 : Int := 2147483399
@[inherit_doc IMR1] def IMM1 : Int := IMR1 - 1
@[inherit_doc IMR1] def IA1 : Int := 40014
@[inherit_doc IMR1] def IA2 : Int := 40692
@[inherit_doc IMR1] def IQ1 : Int := 53668
@[inherit_doc IMR1] def IQ2 : Int := 52774
@[inherit_doc IMR1] def IR1 : Int := 12211
@[inherit_doc IMR1] def IR2 : Int := 3791
@[inherit_doc IMR1] def NTAB : Nat := 32
@[inherit_doc IMR1] def NDIV : Int := 1 + IMM1.tdiv NTAB

/-- Result of a 64-bit operation; `none` on overflow. -/
def ck (x : Int) : Option Int := if -2 ^ 63 ≤ x ∧ x < 2 ^ 63 then some x else none

/-- The function-local static variables (ran2.cpp:46-48). -/
structure Statics where
  idum2 : Int
  iy : Int
  iv : List Int
  deriving DecidableEq, Repr

/-- Their initial values (ran2.cpp:46-48). -/
def statics0 : Statics := ⟨123456789, 0, List.replicate NTAB 0⟩

/-- The three statements `k=x/q; x=a*(x-k*q)-k*r; if (x < 0) x += m;`
(ran2.cpp:59-61, 66-68 and 69-71). C++ division truncates. -/
def schrage (a q r m x : Int) : Option Int := do
  let k ← ck (x.tdiv q)
  let kq ← ck (k * q)
  let d ← ck (x - kq)
  let p ← ck (a * d)
  let kr ← ck (k * r)
  let y ← ck (p - kr)
  if y < 0 then ck (y + m) else some y

/-- The loop `for (j=NTAB+7; j>=0; j--)` (ran2.cpp:58-63), called with `n = j + 1` iterations left. -/
def load : Nat → Int → List Int → Option (Int × List Int)
  | 0, x, iv => some (x, iv)
  | j + 1, x, iv => do
    let x' ← schrage IA1 IQ1 IR1 IMR1 x
    load j x' (if j < NTAB then iv.set j x' else iv)

/-- The initialisation (ran2.cpp:51-65): new `*idum` and static variables. -/
def init (idum : Int) (s : Statics) : Option (Int × Statics) := do
  let neg ← ck (-idum)
  let x := if neg < 1 then 1 else neg
  let (x', iv) ← load (NTAB + 8) x s.iv
  match iv[0]? with
  | none => none
  | some y => some (x', ⟨x, y, iv⟩)

/-- From "Start here when not initializing" (ran2.cpp:66-76): new `*idum` and static variables;
the new `iy` determines the value returned. -/
def next (idum : Int) (s : Statics) : Option (Int × Statics) := do
  let x ← schrage IA1 IQ1 IR1 IMR1 idum
  let x2 ← schrage IA2 IQ2 IR2 IMR2 s.idum2
  let j := s.iy.tdiv NDIV
  if j < 0 then none else
    match s.iv[j.toNat]? with
    | none => none
    | some v => do
      let d ← ck (v - x2)
      let iy ← if d < 1 then ck (d + IMM1) else some d
      some (x, ⟨x2, iy, s.iv.set j.toNat x⟩)

/-- The returned value as a function of `iy` (ran2.cpp:78-81), in exact arithmetic: `AM*iy`, at most
`RNMX = 1 - 2^-52`. Rounding of `AM` and of the product is not modelled. -/
def value (iy : Int) : Rat := if (iy : Rat) / IMR1 > 1 - 1 / 2 ^ 52 then 1 - 1 / 2 ^ 52 else iy / IMR1

/-- `ran2(&idum)` (ran2.cpp:43-82): value returned, new `*idum`, new static variables. -/
def ran2 (idum : Int) (s : Statics) : Option (Rat × Int × Statics) := do
  let (x, s) ← if idum ≤ 0 then init idum s else some (idum, s)
  let (x, s) ← next x s
  some (value s.iy, x, s)

end Verif.Ran2
