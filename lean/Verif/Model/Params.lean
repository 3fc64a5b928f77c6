import Mathlib.Algebra.Order.Floor.Defs
import Mathlib.Algebra.Order.Field.Basic

/-!
# Runtime parameters (src/parameter_input.cpp)

Strings are lists of characters.  The nested linked lists of blocks and lines are lists; a block or
line pointer is the position of the first element with the name.  `ATHENA_ERROR` is `none`.
-/
namespace Verif.Params

abbrev Str := List Char

/-- `InputLine` (parameter_input.hpp:37-42). -/
structure Line where
  name : Str
  value : Str
  comment : Str
deriving DecidableEq, Repr

/-- `InputBlock` (parameter_input.hpp:48-64). The two lengths are not initialised by the code before
the first line is added; they are 0 here until then. -/
structure Block where
  name : Str
  lines : List Line
  maxName : Nat
  maxValue : Nat
deriving DecidableEq, Repr

abbrev Store := List Block

/-- `FindOrAddBlock` (parameter_input.cpp:232-257): the store with the block present. -/
def findOrAddBlock (s : Store) (b : Str) : Store :=
  if s.any (fun x => x.name == b) then s else s ++ [⟨b, [], 0, 0⟩]

/-- The walk of `AddParameter` over the lines (parameter_input.cpp:309-340): replace value and comment
of the first line with the name, or append. -/
def setLine (n v c : Str) : List Line → List Line
  | [] => [⟨n, v, c⟩]
  | l :: ls => if l.name == n then { l with value := v, comment := c } :: ls else l :: setLine n v c ls

/-- `AddParameter` on one block (parameter_input.cpp:305-345). -/
def Block.add (b : Block) (n v c : Str) : Block :=
  { b with
    lines := setLine n v c b.lines
    maxName := if b.lines = [] then n.length
      else if b.lines.any (fun l => l.name == n) then b.maxName
      else if n.length > b.maxName then n.length else b.maxName
    maxValue := if b.lines = [] then v.length
      else if v.length > b.maxValue then v.length else b.maxValue }

/-- Apply to the first block with the name (the pointer returned by `FindOrAddBlock` or
`GetPtrToBlock`). -/
def onBlock (b : Str) (f : Block → Block) : Store → Store
  | [] => []
  | x :: xs => if x.name == b then f x :: xs else x :: onBlock b f xs

/-- `FindOrAddBlock` followed by `AddParameter`, the body of `SetString` (parameter_input.cpp:740-748) and,
after printing the value, of `SetInteger`, `SetReal`, `SetBoolean` (682-731). -/
def addParam (s : Store) (b n v c : Str) : Store :=
  onBlock b (fun x => x.add n v c) (findOrAddBlock s b)

/-- `"# Updated during run time"`. -/
def updated : Str := "# Updated during run time".toList
/-- `"# Default value added at run time"`. -/
def defaulted : Str := "# Default value added at run time".toList

/-- `SetString` (parameter_input.cpp:740-748). -/
def setString (s : Store) (b n v : Str) : Store := addParam s b n v updated

/-- `GetPtrToBlock` (parameter_input.cpp:394-400). -/
def getBlock (s : Store) (b : Str) : Option Block := s.find? (fun x => x.name == b)

/-- `GetPtrToLine` (parameter_input.cpp:868-873). -/
def Block.getLine (b : Block) (n : Str) : Option Line := b.lines.find? (fun l => l.name == n)

/-- `GetString` (parameter_input.cpp:525-554); `none` is the fatal error. -/
def getString (s : Store) (b n : Str) : Option Str :=
  match getBlock s b with
  | none => none
  | some x => match x.getLine n with
    | none => none
    | some l => some l.value

/-- `DoesParameterExist` (parameter_input.cpp:406-413). -/
def exists? (s : Store) (b n : Str) : Bool :=
  match getBlock s b with
  | none => false
  | some x => match x.getLine n with
    | none => false
    | some _ => true

/-- `GetOrAddString` (parameter_input.cpp:655-675): new store and result. -/
def getOrAddString (s : Store) (b n d : Str) : Store × Option Str :=
  if exists? s b n then (s, getString s b n) else (addParam s b n d defaulted, some d)

/-! ## Numbers and booleans as text -/

/-- Decimal digits, most significant first (`ss_value << def_value` of a nonnegative `int`). -/
def natStr (n : Nat) : Str :=
  if n < 10 then [Char.ofNat (48 + n)] else natStr (n / 10) ++ [Char.ofNat (48 + n % 10)]

/-- `ss_value << value` for an `int`. -/
def intStr (i : Int) : Str := if i < 0 then '-' :: natStr i.natAbs else natStr i.natAbs

/-- Value of the leading digits. -/
def digitsVal : Nat → Str → Nat
  | acc, [] => acc
  | acc, ch :: s => if ch.toNat < 48 || 57 < ch.toNat then acc else digitsVal (10 * acc + (ch.toNat - 48)) s

/-- `atoi`: optional white space (here blanks only) and sign, digits up to the first other
character; overflow is not modelled. -/
def atoi (s : Str) : Int :=
  match s.dropWhile (· == ' ') with
  | '-' :: t => -(digitsVal 0 t : Int)
  | '+' :: t => digitsVal 0 t
  | t => digitsVal 0 t

/-- `GetOrAddInteger` (parameter_input.cpp:562-583). -/
def getOrAddInteger (s : Store) (b n : Str) (d : Int) : Store × Option Int :=
  if exists? s b n then (s, (getString s b n).map atoi)
  else (addParam s b n (intStr d) defaulted, some d)

/-- `GetInteger` (parameter_input.cpp:422-451). -/
def getInteger (s : Store) (b n : Str) : Option Int := (getString s b n).map atoi

/-- `SetInteger` (parameter_input.cpp:682-693). -/
def setInteger (s : Store) (b n : Str) (v : Int) : Store := addParam s b n (intStr v) updated

/-- `::tolower` of ASCII letters. -/
def lower (ch : Char) : Char := if 'A' ≤ ch ∧ ch ≤ 'Z' then Char.ofNat (ch.toNat + 32) else ch

/-- Reading a boolean (parameter_input.cpp:505-517): a leading 0 or 1 is read as a number, otherwise
lower-case `true`/`false`. Extraction from an empty (or blank) string leaves the variable
uninitialised (`none`); any other text gives false. Extraction with `boolalpha` matches the longest
of the two names; text after `true` (such as `truex`) is not consumed. -/
def readBool (s : Str) : Option Bool :=
  if s.take 1 = ['0'] ∨ s.take 1 = ['1'] then some (atoi s ≠ 0)
  else
    let t := (s.map lower).dropWhile (· == ' ')
    if t = [] then none
    else some (t.take 4 = "true".toList)

/-- `ss_value << def_value` of a `bool`. -/
def boolStr (b : Bool) : Str := if b then ['1'] else ['0']

/-- `GetBoolean` (parameter_input.cpp:491-518): outer `none` fatal error, inner `none`
uninitialised. -/
def getBoolean (s : Store) (b n : Str) : Option (Option Bool) := (getString s b n).map readBool

/-- `GetOrAddBoolean` (parameter_input.cpp:623-648). -/
def getOrAddBoolean (s : Store) (b n : Str) (d : Bool) : Store × Option (Option Bool) :=
  if exists? s b n then (s, getBoolean s b n)
  else (addParam s b n (boolStr d) defaulted, some (some d))

/-- `GetReal`, `GetOrAddReal`, `SetReal` (parameter_input.cpp:457-486, 592-613, 700-711) for a given way
`rd` of reading (`atof`) and `shw` of printing (`operator<<`) numbers. -/
def getReal {K : Type} (rd : Str → K) (s : Store) (b n : Str) : Option K := (getString s b n).map rd
@[inherit_doc getReal]
def getOrAddReal {K : Type} (shw : K → Str) (rd : Str → K) (s : Store) (b n : Str) (d : K) :
    Store × Option K :=
  if exists? s b n then (s, getReal rd s b n) else (addParam s b n (shw d) defaulted, some d)
@[inherit_doc getReal]
def setReal {K : Type} (shw : K → Str) (s : Store) (b n : Str) (v : K) : Store :=
  addParam s b n (shw v) updated

/-! ## Command line -/

/-- `pl->param_value.assign(value)` and the length update (parameter_input.cpp:386-388). -/
def Block.setValue (b : Block) (n v : Str) : Block :=
  { b with
    lines := go b.lines
    maxValue := if v.length > b.maxValue then v.length else b.maxValue }
where
  go : List Line → List Line
    | [] => []
    | l :: ls => if l.name == n then { l with value := v } :: ls else l :: go ls

/-- One pass of the loop of `ModifyFromCmdline` (parameter_input.cpp:358-389). If `=` comes before `/`
the length of `name` wraps around and the rest of the string is taken. -/
def modifyOne (s : Store) (arg : Str) : Option Store :=
  match arg.findIdx? (· == '/'), arg.findIdx? (· == '=') with
  | some sl, some eq =>
    let block := arg.take sl
    let name := if sl < eq then (arg.drop (sl + 1)).take (eq - sl - 1) else arg.drop (sl + 1)
    let value := arg.drop (eq + 1)
    match getBlock s block with
    | none => none
    | some b =>
      match b.getLine name with
      | none => none
      | some _ => some (onBlock block (fun x => x.setValue name value) s)
  | _, _ => some s

/-- `ModifyFromCmdline` (parameter_input.cpp:352-390); `argv[0]` is skipped by the caller of this
definition. -/
def modifyFromCmdline (s : Store) (args : List Str) : Option Store :=
  args.foldlM modifyOne s

/-! ## Parsing -/

/-- `erase` of the blanks at the end: `s.erase(s.find_last_not_of(" ")+1)`. -/
def trimR (s : Str) : Str := (s.reverse.dropWhile (· == ' ')).reverse
/-- `erase` of the blanks at the start. -/
def trimL (s : Str) : Str := s.dropWhile (· == ' ')

/-- `ParseLine` (parameter_input.cpp:264-297) with the wrap-around of `std::size_t` differences: without
`=` the name is the rest of the line and the value starts at position 0; with `#` before `=` the
value extends to the end of the line. -/
def parseLine (line : Str) : Line :=
  let first := (line.findIdx? (· != ' ')).getD line.length
  let eq := line.findIdx? (· == '=')
  let hash := line.findIdx? (· == '#')
  { name := trimR (match eq with
      | some e => (line.drop first).take (e - first)
      | none => line.drop first)
    value := trimR (trimL (match eq, hash with
      | some e, some h => if e < h then (line.drop (e + 1)).take (h - e - 1) else line.drop (e + 1)
      | some e, none => line.drop (e + 1)
      | none, some h => line.take h
      | none, none => line))
    comment := match hash with
      | some h => line.drop h
      | none => [] }

/-- `<par_end>`. -/
def parEnd : Str := "<par_end>".toList

/-- What one line of the input does. -/
inductive LineKind where
  | skip | stop | block (n : Str) | bad | par (l : Line)
deriving DecidableEq, Repr

/-- The tests on one line (parameter_input.cpp:131-154), tabs removed first. The length given to
`assign` for the block name is `last_char - 1`, which is right only for `<` in the first column. -/
def classify (raw : Str) : LineKind :=
  let line := raw.filter (· != '\t')
  match line.findIdx? (· != ' ') with
  | none => .skip
  | some first =>
    if (line.drop first).take 1 = ['#'] then .skip
    else if (line.drop first).take 9 = parEnd then .stop
    else if (line.drop first).take 1 = ['<'] then
      match (line.drop (first + 1)).findIdx? (· == '>') with
      | none => .bad
      | some k => .block ((line.drop (first + 1)).take (first + 1 + k - 1))
    else .par (parseLine line)

/-- The loop of `LoadFromStream` over the lines (parameter_input.cpp:128-180). `cur` is the current
block. -/
def loadLines (s : Store) (cur : Option Str) : List Str → Option Store
  | [] => some s
  | line :: rest =>
    match classify line with
    | .skip => loadLines s cur rest
    | .stop => some s
    | .bad => none
    | .block n => loadLines (findOrAddBlock s n) (some n) rest
    | .par l =>
      match cur with
      | none => none
      | some b => loadLines (onBlock b (fun x => x.add l.name l.value l.comment) s) cur rest

/-- `std::getline` repeatedly: the text between newlines. -/
def splitLines : Str → List Str
  | [] => [[]]
  | ch :: s =>
    if ch = '\n' then [] :: splitLines s
    else match splitLines s with
      | [] => [[ch]]
      | l :: ls => (ch :: l) :: ls

/-- `LoadFromStream` (parameter_input.cpp:120-182). -/
def loadFromStream (s : Store) (text : Str) : Option Store := loadLines s none (splitLines text)

/-! ## Dump -/

/-- `s.append(len, ' ')` with `len = max - s.length() + 1`; if the length exceeded the maximum the
unsigned difference would wrap around and the append fail (`none`). -/
def pad (max : Nat) (s : Str) : Option Str :=
  if s.length ≤ max then some (s ++ List.replicate (max - s.length + 1) ' ') else none

/-- One line of the dump (parameter_input.cpp:849-857). -/
def dumpLine (b : Block) (l : Line) : Option Str :=
  match pad b.maxName l.name, pad b.maxValue l.value with
  | some n, some v => some (n ++ "= ".toList ++ v ++ l.comment)
  | _, _ => none

def dumpBlock (b : Block) : Option (List Str) :=
  (b.lines.mapM (dumpLine b)).map (fun ls => ('<' :: b.name ++ ['>']) :: ls)

/-- `#------------------------- PAR_DUMP -------------------------`. -/
def banner : Str := "#------------------------- PAR_DUMP -------------------------".toList

/-- The lines of `ParameterDump` (parameter_input.cpp:835-863) before `<par_end>`. -/
def dumpLines (s : Store) : Option (List Str) :=
  (s.mapM dumpBlock).map (fun bs => banner :: bs.flatten ++ [banner])

/-- Text of lines, each ended by a newline. -/
def unlines (ls : List Str) : Str := ls.flatMap (· ++ ['\n'])

/-- The text written by `ParameterDump`. -/
def parameterDump (s : Store) : Option Str :=
  (dumpLines s).map (fun ls => unlines (ls ++ [parEnd]))

/-! ## Reading the header of a file -/

/-- Position of the first occurrence (`std::string::find`). -/
def find (pat : Str) : Str → Option Nat
  | [] => if pat = [] then some 0 else none
  | ch :: s => if pat.isPrefixOf (ch :: s) then some 0 else (find pat s).map (· + 1)

/-- The chunked search of `LoadFromFile` (parameter_input.cpp:195-219): `k` chunks of `B` bytes have been
read so far; returns the text to parse and the position to seek to. `fuel` bounds the number of
further passages. -/
def readHeader (B : Nat) (file : Str) : (fuel k : Nat) → Option (Str × Nat)
  | 0, _ => none
  | fuel + 1, k =>
    let ret := min B (file.length - k * B)
    let par := file.take (k * B + ret)
    match find parEnd par with
    | some loc => some (par, loc + 10)
    | none =>
      if k * B + ret > B * 10 then none
      else if ret = B then readHeader B file fuel (k + 1)
      else some (par, k * B + ret)

/-- `LoadFromFile` (parameter_input.cpp:188-227): new store and position in the file. At most eleven
passages are possible. -/
def loadFromFile (B : Nat) (s : Store) (file : Str) : Option (Store × Nat) :=
  match readHeader B file 12 0 with
  | none => none
  | some (par, pos) => (loadFromStream s par).map (·, pos)

/-! ## Output times -/

/-- `pb->block_name.compare(0, 6, "output") == 0`. -/
def isOutput (b : Block) : Bool := b.name.take 6 == "output".toList

/-- `"next_time"`, `"dt"`. -/
def nextTime : Str := "next_time".toList
@[inherit_doc nextTime] def dtName : Str := "dt".toList

section
variable {K : Type} [Field K] [LinearOrder K] [FloorRing K] (shw : K → Str) (rd : Str → K)

/-- `static_cast<int>` of a real: towards zero. -/
def truncInt (x : K) : Int := if 0 ≤ x then ⌊x⌋ else ⌈x⌉

/-- `std::fmod` for positive `y`. -/
def fmod (x y : K) : K := x - (truncInt (x / y) : K) * y

/-- `RollbackNextTime` (parameter_input.cpp:754-785) on one block. `SetReal` finds the block by its
name; block names are distinct. -/
def rollback1 (b : Block) : Option Block :=
  if isOutput b then
    match b.getLine nextTime, b.getLine dtName with
    | some nt, some d => some (b.add nextTime (shw (rd nt.value - rd d.value)) updated)
    | _, _ => none
  else some b

/-- `RollbackNextTime`. -/
def rollback (s : Store) : Option Store := s.mapM (rollback1 shw rd)

/-- The new time computed in `ForwardNextTime` (parameter_input.cpp:815-824). -/
def forwardTime (t nt dt0 : K) (fresh : Bool) : K :=
  let dt := dt0 * (truncInt ((t - nt) / dt0) : K) + dt0
  if 0 < dt then
    let nt' := nt + dt
    if fresh then nt' - (fmod nt' dt0 + dt0) else nt'
  else nt

/-- `ForwardNextTime` (parameter_input.cpp:790-829). The flag `fresh` is declared before the loop and
never reset. -/
def forward (t : K) : (fresh : Bool) → Store → Option Store
  | _, [] => some []
  | fresh, b :: bs =>
    if isOutput b then
      let nt := match b.getLine nextTime with
        | some l => rd l.value
        | none => t
      let fresh := fresh || (b.getLine nextTime).isNone
      match b.getLine dtName with
      | none => none
      | some d =>
        (forward t fresh bs).map
          (b.add nextTime (shw (forwardTime t nt (rd d.value) fresh)) updated :: ·)
    else (forward t fresh bs).map (b :: ·)

end

end Verif.Params
