import Verif.Model.Params

/-!
# Restart files (src/outputs/restart.cpp, restart constructors of Mesh and MeshBlock)

A file is a sequence of bytes (`Str`, as in Model/Params.lean). Native object representations are
abstract codecs of fixed size. MPI-IO calls are writes and reads at given offsets; the limit of 2^31
bytes per call is not modelled.
-/
namespace Verif.Restart
open Verif.Params (Str)

/-- Native representation of a type (`memcpy` from and to an object) on the values it can represent. -/
structure Codec (α : Type) where
  size : Nat
  valid : α → Prop
  enc : α → Str
  dec : Str → α
  len : ∀ a, (enc a).length = size
  dec_enc : ∀ a, valid a → dec (enc a) = a

/-- The representations used in the file: `int`, `Real`, `double`, `RegionSize`, `IOWrapperSizeT`,
`LogicalLocation`. -/
structure Native (R D Reg Loc : Type) where
  int : Codec Int
  real : Codec R
  dbl : Codec D
  reg : Codec Reg
  off : Codec Nat
  loc : Codec Loc

/-- Physics switches that decide which arrays are stored. -/
structure Cfg where
  gr : Bool
  mhd : Bool
  rad : Bool
  cr : Bool
  crdiff : Bool
  scal : Bool
  chem : Bool
  chemrad : Bool

/-- The arrays of a block as bytes (allocated or not; `GetSizeInBytes` is the length). -/
structure BlockData where
  u : Str
  w : Str
  w1 : Str
  b1 : Str
  b2 : Str
  b3 : Str
  ir : Str
  irGray : Str
  ucr : Str
  ecr : Str
  s : Str
  h : Str
  chir : Str
  iuser : List Str
  ruser : List Str

/-- Sum of sizes. -/
def sizes (l : List Str) : Nat := l.foldl (fun n x => n + x.length) 0

/-- `GetBlockSizeInBytes` (meshblock.cpp:655-690). -/
def blockSize (c : Cfg) (b : BlockData) : Nat :=
  b.u.length
  + (if c.gr then b.w.length + b.w1.length else 0)
  + (if c.mhd then b.b1.length + b.b2.length + b.b3.length else 0)
  + (if c.scal then b.s.length + (if c.chem then b.h.length else 0) else 0)
  + (if c.chemrad then b.chir.length else 0)
  + (if c.rad then b.ir.length else 0)
  + (if c.cr then b.ucr.length else 0)
  + (if c.crdiff then b.ecr.length else 0)
  + sizes b.iuser + sizes b.ruser

/-- `GetBlockSizeInBytesGray` (meshblock.cpp:693-729) when `restart_from_gray > 0`. -/
def blockSizeGray (c : Cfg) (b : BlockData) : Nat :=
  b.u.length
  + (if c.gr then b.w.length + b.w1.length else 0)
  + (if c.mhd then b.b1.length + b.b2.length + b.b3.length else 0)
  + (if c.scal then b.s.length else 0)
  + (if c.rad then b.irGray.length else 0)
  + (if c.cr then b.ucr.length else 0)
  + (if c.crdiff then b.ecr.length else 0)
  + sizes b.iuser + sizes b.ruser

/-- The sequence of `memcpy` sources of the writer (restart.cpp:162-239). -/
def writeFields (c : Cfg) (b : BlockData) : List Str :=
  [b.u] ++ (if c.gr then [b.w, b.w1] else []) ++ (if c.mhd then [b.b1, b.b2, b.b3] else [])
  ++ (if c.rad then [b.ir] else []) ++ (if c.cr then [b.ucr] else []) ++ (if c.crdiff then [b.ecr] else [])
  ++ (if c.scal then b.s :: (if c.chem then [b.h] else []) else [])
  ++ (if c.chemrad then [b.chir] else []) ++ b.iuser ++ b.ruser

/-- `memcpy` into a buffer at an offset; `none` outside the buffer. -/
def memcpy (buf : Str) (os : Nat) (src : Str) : Option Str :=
  if os + src.length ≤ buf.length then some (buf.take os ++ src ++ buf.drop (os + src.length)) else none

/-- Packing into a buffer of `datasize` bytes that still holds the previous block. -/
def packBlock (c : Cfg) (b : BlockData) (buf : Str) : Option Str :=
  ((writeFields c b).foldlM (fun (p : Str × Nat) x => (memcpy p.1 p.2 x).map (·, p.2 + x.length)) (buf, 0)).map (·.1)

/-- `memcpy` from the buffer to an array of `n` bytes; `none` outside the buffer. -/
def fetch (buf : Str) (os n : Nat) : Option (Str × Nat) :=
  if os + n ≤ buf.length then some ((buf.drop os).take n, os + n) else none

/-- A `fetch` behind a preprocessor-style condition. -/
def fetchIf (p : Bool) (buf : Str) (old : Str) (os : Nat) : Option (Str × Nat) :=
  if p then fetch buf os old.length else some (old, os)

/-- `fetch` for a list of user arrays. -/
def fetchAll (buf : Str) : List Str → Nat → Option (List Str × Nat)
  | [], os => some ([], os)
  | x :: xs, os =>
    match fetch buf os x.length with
    | none => none
    | some (y, os) => (fetchAll buf xs os).map (fun p => (y :: p.1, p.2))

/-- The restart constructor of MeshBlock (meshblock.cpp:446-546): the arrays are allocated as in `a`
(with their initial content); `gray` is `restart_from_gray`, `split` the conversion of the gray
intensities. Returns the arrays and the number of bytes consumed. -/
def readBlock (c : Cfg) (gray : Bool) (split : Str → Str) (a : BlockData) (buf : Str) :
    Option (BlockData × Nat) := do
  let (u, os) ← fetch buf 0 a.u.length
  let (w, os) ← fetchIf c.gr buf a.w os
  let (w1, os) ← fetchIf c.gr buf a.w1 os
  let (b1, os) ← fetchIf c.mhd buf a.b1 os
  let (b2, os) ← fetchIf c.mhd buf a.b2 os
  let (b3, os) ← fetchIf c.mhd buf a.b3 os
  let (irGray, os) ← fetchIf (c.rad && gray) buf a.irGray os
  let (ir, os) ← fetchIf (c.rad && !gray) buf a.ir os
  let ir := if c.rad && gray then split irGray else ir
  let (ucr, os) ← fetchIf c.cr buf a.ucr os
  let (ecr, os) ← fetchIf c.crdiff buf a.ecr os
  let (s, os) ← fetchIf c.scal buf a.s os
  let (h, os) ← fetchIf (c.scal && c.chem) buf a.h os
  let (chir, os) ← fetchIf c.chemrad buf a.chir os
  let (iuser, os) ← fetchAll buf a.iuser os
  let (ruser, os) ← fetchAll buf a.ruser os
  some (⟨u, w, w1, b1, b2, b3, ir, irGray, ucr, ecr, s, h, chir, iuser, ruser⟩, os)

/-! ## The whole file -/

/-- Mesh information in the header. -/
structure Head (R Reg : Type) where
  nbtotal : Int
  rootLevel : Int
  meshSize : Reg
  time : R
  dt : R
  ncycle : Int
  datasize : Nat

/-- One block as held by a process. -/
structure Blk (Loc D : Type) where
  loc : Loc
  cost : D
  data : BlockData

/-- A write at an offset. -/
structure Write where
  off : Nat
  bytes : Str

variable {R D Reg Loc : Type}

/-- Header written by process 0 behind the parameters (restart.cpp:101-128). -/
def headBytes (N : Native R D Reg Loc) (hd : Head R Reg) (ud : List Str) : Str :=
  N.int.enc hd.nbtotal ++ N.int.enc hd.rootLevel ++ N.reg.enc hd.meshSize ++ N.real.enc hd.time
  ++ N.real.enc hd.dt ++ N.int.enc hd.ncycle ++ N.off.enc hd.datasize ++ ud.flatten

/-- `headeroffset` of the writer (restart.cpp:78-86). -/
def writeHeadOffset (N : Native R D Reg Loc) (sbuf : Str) (ud : List Str) : Nat :=
  sbuf.length + 3 * N.int.size + N.reg.size + 2 * N.real.size + N.off.size + sizes ud

/-- `listsize` of the writer: location and `double` (restart.cpp:88). -/
def writeListSize (N : Native R D Reg Loc) : Nat := N.loc.size + N.dbl.size

/-- `idlist` of one process (restart.cpp:138-145). -/
def idlist (N : Native R D Reg Loc) (bs : List (Blk Loc D)) : Str :=
  bs.flatMap (fun b => N.loc.enc b.loc ++ N.dbl.enc b.cost)

/-- The data writes of one process (restart.cpp:153-247): `b` counts its blocks, `buf` is the reused
buffer. -/
def dataWrites (c : Cfg) (base datasize : Nat) : (n : Nat) → Str → List (Blk Loc D) → Option (List Write)
  | _, _, [] => some []
  | n, buf, b :: bs =>
    match packBlock c b.data buf with
    | none => none
    | some buf => (dataWrites c base datasize (n + 1) buf bs).map (⟨base + datasize * n, buf⟩ :: ·)

/-- `datasize`: the size of the first block of the process (restart.cpp:90). -/
def firstSize (c : Cfg) (bs : List (Blk Loc D)) : Nat :=
  match bs with
  | [] => 0
  | b :: _ => blockSize c b.data

/-- All writes of one process holding the blocks `bs` from number `myns` on; `junk` is the initial
content of its data buffer. Process 0 also writes the header. -/
def rankWrites (N : Native R D Reg Loc) (c : Cfg) (sbuf : Str) (hd : Head R Reg) (ud : List Str) (first : Bool)
    (myns : Nat) (junk : Str) (bs : List (Blk Loc D)) : Option (List Write) :=
  let ho := writeHeadOffset N sbuf ud
  let ls := writeListSize N
  let base := ho + ls * hd.nbtotal.toNat
  (dataWrites c base (firstSize c bs) myns junk bs).map (fun dw =>
    (if first then [⟨0, sbuf ++ headBytes N hd ud⟩] else []) ++ ⟨ho + ls * myns, idlist N bs⟩ :: dw)

/-- The writes of all processes; process `r` holds the blocks from `nslist[r]` on, i.e. behind the blocks of the
processes before it. A process is given by the initial content of its data buffer and its blocks. -/
def allWrites (N : Native R D Reg Loc) (c : Cfg) (sbuf : Str) (hd : Head R Reg) (ud : List Str) :
    (first : Bool) → (myns : Nat) → List (Str × List (Blk Loc D)) → Option (List Write)
  | _, _, [] => some []
  | first, myns, (junk, bs) :: rs =>
    match rankWrites N c sbuf hd ud first myns junk bs with
    | none => none
    | some w => (allWrites N c sbuf hd ud false (myns + bs.length) rs).map (w ++ ·)

/-- Kind of call in the loop over blocks: collective while every process still has a block
(restart.cpp:93-97, 238-241; the reader mesh.cpp:926-930, 947-962 alike). -/
def collective (nbmin b : Nat) : Bool := b < nbmin

/-- `nbmin` (restart.cpp:93-97). -/
def nbmin : List Nat → Nat
  | [] => 0
  | n :: ns => ns.foldl (fun m k => if m > k then k else m) n

/-- A file being written: bytes at positions. -/
abbrev File := Nat → Option Char

/-- One write. -/
def Write.apply (f : File) (w : Write) : File :=
  fun i => if w.off ≤ i ∧ i < w.off + w.bytes.length then w.bytes[i - w.off]? else f i

/-- All writes in some order. -/
def applyAll (f : File) (ws : List Write) : File := ws.foldl Write.apply f

/-- Read `n` bytes at a position; `none` beyond the end (short read, fatal error). -/
def readAt (file : Str) (os n : Nat) : Option Str :=
  if os + n ≤ file.length then some ((file.drop os).take n) else none

/-- Header read by the Mesh constructor (mesh.cpp:703-741): `pos` is the position behind
`<par_end>`. -/
def readHead (N : Native R D Reg Loc) (file : Str) (pos : Nat) : Option (Head R Reg) :=
  let headersize := N.int.size * 3 + N.real.size * 2 + N.reg.size + N.off.size
  (readAt file pos headersize).map (fun h =>
    let o1 := N.int.size
    let o2 := o1 + N.int.size
    let o3 := o2 + N.reg.size
    let o4 := o3 + N.real.size
    let o5 := o4 + N.real.size
    let o6 := o5 + N.int.size
    { nbtotal := N.int.dec (h.take N.int.size)
      rootLevel := N.int.dec ((h.drop o1).take N.int.size)
      meshSize := N.reg.dec ((h.drop o2).take N.reg.size)
      time := N.real.dec ((h.drop o3).take N.real.size)
      dt := N.real.dec ((h.drop o4).take N.real.size)
      ncycle := N.int.dec ((h.drop o5).take N.int.size)
      datasize := N.off.dec ((h.drop o6).take N.off.size) })

/-- `listsize` of the reader: location and `Real` (mesh.cpp:838). -/
def readListSize (N : Native R D Reg Loc) : Nat := N.loc.size + N.real.size

/-- The loop over the ID list (mesh.cpp:855-862): `memcpy` of a location and a `double` per block;
`none` if it leaves the buffer of `listsize*nbtotal` bytes. -/
def readIds (N : Native R D Reg Loc) (buf : Str) : (n os : Nat) → Option (List (Loc × D))
  | 0, _ => some []
  | n + 1, os =>
    match fetch buf os N.loc.size with
    | none => none
    | some (l, os) => match fetch buf os N.dbl.size with
      | none => none
      | some (d, os) => (readIds N buf n os).map ((N.loc.dec l, N.dbl.dec d) :: ·)

/-- What the Mesh constructor reads before the blocks (mesh.cpp:694-868): header, user data (arrays
allocated as `ua`), ID list and the position of the block data. -/
def readMesh (N : Native R D Reg Loc) (file : Str) (pos : Nat) (ua : List Str) :
    Option (Head R Reg × List Str × List (Loc × D) × Nat) := do
  let headersize := N.int.size * 3 + N.real.size * 2 + N.reg.size + N.off.size
  let hd ← readHead N file pos
  let udbuf ← readAt file (pos + headersize) (sizes ua)
  let (ud, _) ← fetchAll udbuf ua 0
  let idbuf ← readAt file (pos + headersize + sizes ua) (readListSize N * hd.nbtotal.toNat)
  let ids ← readIds N idbuf hd.nbtotal.toNat 0
  some (hd, ud, ids, pos + headersize + sizes ua + readListSize N * hd.nbtotal.toNat)

/-- Reading block `i` (mesh.cpp:946-968). -/
def readBlockAt (c : Cfg) (file : Str) (headeroffset datasize i : Nat) (a : BlockData) : Option (BlockData × Nat) :=
  match readAt file (headeroffset + i * datasize) datasize with
  | none => none
  | some mbdata => readBlock c false id a mbdata

end Verif.Restart
