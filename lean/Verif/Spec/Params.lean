import Verif.Model.Params

/-! Specification vocabulary for runtime parameters: which texts are plain, which entries are clean. -/
namespace Verif.Params

/-- No blank at either end. -/
def Trimmed (s : Str) : Prop := s.head? ≠ some ' ' ∧ s.getLast? ≠ some ' '

/-- A parameter name that can be written on a line of its own. -/
structure CleanName (n : Str) : Prop where
  chars : ∀ c ∈ n, c ≠ '=' ∧ c ≠ '#' ∧ c ≠ '\t' ∧ c ≠ '\n'
  trimmed : Trimmed n
  head : n.head? ≠ some '<'

/-- A value that can be written on a line. -/
structure CleanValue (v : Str) : Prop where
  chars : ∀ c ∈ v, c ≠ '#' ∧ c ≠ '\t' ∧ c ≠ '\n'
  trimmed : Trimmed v

/-- Empty or starting with `#`. -/
structure CleanComment (c : Str) : Prop where
  chars : ∀ x ∈ c, x ≠ '\t' ∧ x ≠ '\n'
  head : c = [] ∨ c.head? = some '#'

/-- A block name that can be written between angle brackets. -/
structure CleanBlockName (b : Str) : Prop where
  chars : ∀ c ∈ b, c ≠ '>' ∧ c ≠ '\t' ∧ c ≠ '\n'
  notEnd : b ≠ "par_end".toList

/-- All entries are clean. -/
structure CleanStore (s : Store) : Prop where
  blocks : ∀ b ∈ s, CleanBlockName b.name
  names : ∀ b ∈ s, ∀ l ∈ b.lines, CleanName l.name
  values : ∀ b ∈ s, ∀ l ∈ b.lines, CleanValue l.value
  comments : ∀ b ∈ s, ∀ l ∈ b.lines, CleanComment l.comment

/-- A line of an input file in the documented form: blank, comment, `<block>` from the first column,
or `name = value # comment` with the equals sign before the comment. Tabs are ignored. -/
def PlainLine (raw : Str) : Prop :=
  let t := raw.filter (· != '\t')
  let first := (t.dropWhile (· == ' ')).head?
  first = none ∨ first = some '#' ∨ t.head? = some '<' ∨
    (first ≠ some '<' ∧ ∃ a b, t = a ++ '=' :: b ∧ '#' ∉ a)

/-- What a reader of the parameters sees: block names, and the entries of each in order. -/
def content (s : Store) : List (Str × List Line) := s.map (fun b => (b.name, b.lines))

end Verif.Params
