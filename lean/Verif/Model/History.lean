import Verif.Model.Grid
import Mathlib.Algebra.Field.Defs
import Mathlib.Algebra.BigOperators.Group.List.Basic
import Mathlib.Order.Defs.LinearOrder

/-!
# History output (src/outputs/history.cpp)

Exact arithmetic.  Not modelled: formatting of the numbers, files, the counters at the end.
-/

namespace Verif.Hst

open Verif.Arr (rng)
open Verif.Grid (Dims)

/-- What a column is meant to hold: the labels of the header, history.cpp:373-446. -/
inductive Q
  | time
  | dt
  | mass
  | mom (a : Fin 3)
  | ke (a : Fin 3)
  | totE
  | gravE
  | me (a : Fin 3)
  | scalar (n : ℕ)
  | chemRad (n : ℕ)
  | rad (a : Fin 14)
  | radNu (f : ℕ) (a : Fin 4)
  | cr (a : Fin 4)
  | user (n : ℕ)
deriving DecidableEq

/-- Operation of a user-defined output. -/
inductive Op
  | sum
  | max
  | min
deriving DecidableEq

/-- What the code is configured with: `NON_BAROTROPIC_EOS` (then `NHYDRO` is 5, else 4,
configure.py:463-471), `SELF_GRAVITY_ENABLED`, `MAGNETIC_FIELDS_ENABLED` (then `NFIELD` is 3),
`NSCALARS`, chemistry radiation and its `nfreq`, radiation and its `nfreq` (then `NRAD` is 14,
configure.py:542-552), cosmic rays (then `NCR` is 4), operations of the user-defined outputs. -/
structure Cfg where
  nonbaro : Bool
  grav : Bool
  mag : Bool
  nscal : ℕ
  chem : Option ℕ
  rad : Option ℕ
  cr : Bool
  user : List Op

namespace Cfg
variable (c : Cfg)
/-- `NHYDRO`. -/
def nhydro : ℕ := if c.nonbaro then 5 else 4
/-- `(SELF_GRAVITY_ENABLED > 0)`. -/
def ngrav : ℕ := if c.grav then 1 else 0
/-- `NFIELD`. -/
def nfield : ℕ := if c.mag then 3 else 0
/-- `NRAD`. -/
def nrad : ℕ := if c.rad.isSome then 14 else 0
/-- `NCR`. -/
def ncr : ℕ := if c.cr then 4 else 0
/-- `nhistory_vars`, history.cpp:43-44 and 54-57. -/
def nvars : ℕ := c.nhydro + c.ngrav + c.nfield + 3 + c.nscal + c.nrad + c.ncr + c.chem.getD 0
end Cfg

/-- The variables of a cell: conserved variables (in the orbital system or not, history.cpp:91-104
and 195-206), potential, magnetic field, scalars, chemistry radiation, moments of the radiation in
the order of the output, cosmic rays. -/
structure Cell (K : Type) where
  d : K
  m : Fin 3 → K
  e : K
  phi : K
  b : Fin 3 → K
  s : ℕ → K
  ir : ℕ → K
  rad : Fin 14 → K
  radNu : ℕ → Fin 4 → K
  cr : Fin 4 → K

/-- A block: its arrays, ghost cells included. -/
structure Block (K : Type) where
  d : Dims
  vol : Int → Int → Int → K
  cell : Int → Int → Int → Cell K

variable {K : Type} [Field K]

/-- What is added, after `vol(i)*`, history.cpp:100-190, 203-293. -/
def amount (u : Cell K) (vol : K) : Q → K
  | .mass => vol * u.d
  | .mom a => vol * u.m a
  | .ke a => vol * (1 / 2) * (u.m a * u.m a) / u.d
  | .totE => vol * u.e
  | .gravE => vol * (1 / 2) * u.d * u.phi
  | .me a => vol * (1 / 2) * u.b a * u.b a
  | .scalar n => vol * u.s n
  | .chemRad n => vol * u.ir n
  | .rad a => vol * u.rad a
  | .radNu f a => vol * u.radNu f a
  | .cr a => vol * u.cr a
  | _ => 0

/-- The statements `hst_data[..] += ..` for a cell, history.cpp:100-190, 203-293: index and quantity. -/
def adds (c : Cfg) : List (ℕ × Q) :=
  [(0, .mass), (1, .mom 0), (2, .mom 1), (3, .mom 2), (4, .ke 0), (5, .ke 1), (6, .ke 2)] ++
  (if c.nonbaro then [(7, .totE)] else []) ++
  (if c.grav then [(c.nhydro + 3, .gravE)] else []) ++
  (if c.mag then
    let p := c.nhydro + 3 + c.ngrav
    [(p, .me 0), (p + 1, .me 1), (p + 2, .me 2)] else []) ++
  (List.range c.nscal).map (fun n => (c.nhydro + 3 + c.ngrav + c.nfield + n, .scalar n)) ++
  (match c.chem with
    | some f => (List.range f).map
        (fun n => (c.nhydro + 3 + c.ngrav + c.nfield + c.nscal + n, .chemRad n))
    | none => []) ++
  (match c.rad with
    | some f =>
      let p := c.nhydro + 3 + c.ngrav + c.nfield + c.nscal
      if f = 1 then (List.finRange 14).map (fun a => (p + a.val, .rad a))
      else (List.range f).flatMap
        (fun n => (List.finRange 4).map (fun a => (p + 4 * n + a.val, .radNu n a)))
    | none => []) ++
  (if c.cr then
    let p := c.nhydro + 3 + c.ngrav + c.nfield + c.nscal + c.nrad
    (List.finRange 4).map (fun a => (p + a.val, .cr a)) else [])

/-- The active cells in the order of the loops. -/
def cells (b : Block K) : List (K × Cell K) :=
  (rng b.d.ks b.d.ke).flatMap fun k => (rng b.d.js b.d.je).flatMap fun j =>
    (rng b.d.is b.d.ie).map fun i => (b.vol k j i, b.cell k j i)

/-- The sums of a process over its blocks, history.cpp:62, 80-299. -/
def sums (c : Cfg) (bs : List (Block K)) : ℕ → K :=
  bs.foldl (fun h b => (cells b).foldl (fun h u => (adds c).foldl
    (fun h a => Function.update h a.1 (h a.1 + amount u.2 u.1 a.2)) h) h) (fun _ => 0)

variable [LinearOrder K]

/-- The operation as function. -/
def Op.ap : Op → K → K → K
  | .sum => (· + ·)
  | .max => fun x y => Max.max x y
  | .min => fun x y => Min.min x y

/-- A user-defined output of a process, history.cpp:64-77 and 300-318; `lowest`, `largest` the limits
of `Real`, `f` the function, `none` for a null pointer. -/
def userOne (lowest largest : K) (op : Op) (f : Option (Block K → K)) (bs : List (Block K)) : K :=
  let start := match op with | .sum => 0 | .max => lowest | .min => largest
  bs.foldl (fun h b => match f with | some f => op.ap (f b) h | none => h) start

/-- `MPI_Reduce`; only one process without MPI. -/
def reduce (op : Op) : List K → K
  | [] => 0
  | x :: xs => xs.foldl op.ap x

/-- The labels of the header, history.cpp:373-446. -/
def header (c : Cfg) : List Q :=
  [.time, .dt, .mass, .mom 0, .mom 1, .mom 2, .ke 0, .ke 1, .ke 2] ++
  (if c.nonbaro then [.totE] else []) ++
  (if c.grav then [.gravE] else []) ++
  (if c.mag then [.me 0, .me 1, .me 2] else []) ++
  (List.range c.nscal).map .scalar ++
  (match c.chem with | some f => (List.range f).map .chemRad | none => []) ++
  (match c.rad with
    | some f => if f = 1 then (List.finRange 14).map .rad
      else (List.range f).flatMap (fun n => (List.finRange 4).map (.radNu n))
    | none => []) ++
  (if c.cr then (List.finRange 4).map .cr else []) ++
  (List.range c.user.length).map .user

/-- The condition of the fatal error of history.cpp:168-174 and 271-277. -/
def tooMany (c : Cfg) : Bool :=
  match c.rad with
  | some f => f != 1 && decide (4 * f > c.nrad)
  | none => false

/-- The line of numbers, history.cpp:449-455; `none` for the fatal error.
`ranks`: the blocks of each process; `fs` the user-defined functions. -/
def row (c : Cfg) (lowest largest time dt : K) (fs : ℕ → Option (Block K → K))
    (ranks : List (List (Block K))) : Option (List K) :=
  if tooMany c then none
  else some ([time, dt] ++
    (List.range c.nvars).map (fun n => reduce .sum (ranks.map (fun bs => sums c bs n))) ++
    (c.user.zipIdx).map (fun o => reduce o.1 (ranks.map (userOne lowest largest o.1 (fs o.2)))))

end Verif.Hst
