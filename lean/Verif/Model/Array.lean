import Mathlib.Data.Int.Interval

/-!
# `AthenaArray` addressing, slices and buffer packing
(src/athena_arrays.hpp, src/utils/buffer_utils.cpp)

A heap is a function from addresses to values; an array is a base address plus the six extents, as
in the C++ class.  Integers are unbounded (`int` overflow of an index product is not modelled).
-/
namespace Verif.Arr

/-- Memory holding elements of type `α`; one address per element. -/
abbrev Mem (α : Type) := Int → α

/-- Data members of `AthenaArray` (athena_arrays.hpp:166-167): `pdata_` and `nx1_ .. nx6_`.
Ownership (`state_`) is modelled separately. -/
structure Arr where
  base : Int
  nx1 : Int
  nx2 : Int
  nx3 : Int
  nx4 : Int
  nx5 : Int
  nx6 : Int
  deriving DecidableEq, Repr

/-- `GetSize()` of a non-empty array (athena_arrays.hpp:95-100); also the number of elements
allocated by `AllocateData` and `NewAthenaArray` (lines 348-444, 519-530). -/
def Arr.size (a : Arr) : Int := a.nx1 * a.nx2 * a.nx3 * a.nx4 * a.nx5 * a.nx6

/-- The address read or written by `operator()` with one index (athena_arrays.hpp:123-128). -/
def Arr.at1 (a : Arr) (n : Int) : Int := a.base + n
/-- `operator()(n, i)` (athena_arrays.hpp:130-133). -/
def Arr.at2 (a : Arr) (n i : Int) : Int := a.base + (i + a.nx1 * n)
/-- `operator()(n, j, i)` (athena_arrays.hpp:135-138). -/
def Arr.at3 (a : Arr) (n j i : Int) : Int := a.base + (i + a.nx1 * (j + a.nx2 * n))
/-- `operator()(n, k, j, i)` (athena_arrays.hpp:140-143). -/
def Arr.at4 (a : Arr) (n k j i : Int) : Int :=
  a.base + (i + a.nx1 * (j + a.nx2 * (k + a.nx3 * n)))
/-- `operator()(m, n, k, j, i)` (athena_arrays.hpp:145-148). -/
def Arr.at5 (a : Arr) (m n k j i : Int) : Int :=
  a.base + (i + a.nx1 * (j + a.nx2 * (k + a.nx3 * (n + a.nx4 * m))))
/-- `operator()(p, m, n, k, j, i)` (athena_arrays.hpp:151-156). -/
def Arr.at6 (a : Arr) (p m n k j i : Int) : Int :=
  a.base + (i + a.nx1 * (j + a.nx2 * (k + a.nx3 * (n + a.nx4 * (m + a.nx5 * p)))))

/-- `NewAthenaArray` with one to six extents (athena_arrays.hpp:348-444) on an allocation starting
at `p`; unused extents are 1. -/
def new1 (p nx1 : Int) : Arr := ⟨p, nx1, 1, 1, 1, 1, 1⟩
@[inherit_doc new1] def new2 (p nx2 nx1 : Int) : Arr := ⟨p, nx1, nx2, 1, 1, 1, 1⟩
@[inherit_doc new1] def new3 (p nx3 nx2 nx1 : Int) : Arr := ⟨p, nx1, nx2, nx3, 1, 1, 1⟩
@[inherit_doc new1] def new4 (p nx4 nx3 nx2 nx1 : Int) : Arr := ⟨p, nx1, nx2, nx3, nx4, 1, 1⟩
@[inherit_doc new1] def new5 (p nx5 nx4 nx3 nx2 nx1 : Int) : Arr := ⟨p, nx1, nx2, nx3, nx4, nx5, 1⟩
@[inherit_doc new1] def new6 (p nx6 nx5 nx4 nx3 nx2 nx1 : Int) : Arr :=
  ⟨p, nx1, nx2, nx3, nx4, nx5, nx6⟩

/-- `InitWithShallowSlice(src, dim, indx, nvar)` (athena_arrays.hpp:291-346).  `this` is the array
before the call: for a `dim` outside 1..6 only `pdata_` is set. -/
def slice (this src : Arr) (dim : Nat) (indx nvar : Int) : Arr :=
  if dim = 6 then
    ⟨src.base + indx * (src.nx1 * src.nx2 * src.nx3 * src.nx4 * src.nx5),
      src.nx1, src.nx2, src.nx3, src.nx4, src.nx5, nvar⟩
  else if dim = 5 then
    ⟨src.base + indx * (src.nx1 * src.nx2 * src.nx3 * src.nx4),
      src.nx1, src.nx2, src.nx3, src.nx4, nvar, 1⟩
  else if dim = 4 then
    ⟨src.base + indx * (src.nx1 * src.nx2 * src.nx3), src.nx1, src.nx2, src.nx3, nvar, 1, 1⟩
  else if dim = 3 then
    ⟨src.base + indx * (src.nx1 * src.nx2), src.nx1, src.nx2, nvar, 1, 1, 1⟩
  else if dim = 2 then ⟨src.base + indx * src.nx1, src.nx1, nvar, 1, 1, 1, 1⟩
  else if dim = 1 then ⟨src.base + indx, nvar, 1, 1, 1, 1, 1⟩
  else { this with base := src.base }

/-- `ShallowSlice3DToPencil(src, k, j, il, n)` (athena_arrays.hpp:536-549). -/
def pencil (src : Arr) (k j il n : Int) : Arr :=
  ⟨src.base + ((k * src.nx2 + j) * src.nx1 + il), n, 1, 1, 1, 1, 1⟩

/-- The indices visited by `for (int i=s; i<=e; ++i)`, in order. -/
def rng (s e : Int) : List Int := (List.range (e + 1 - s).toNat).map fun (t : Nat) => s + (t : Int)

/-- `for (int i=s; i<=e; ++i) body`, a loop over the state `σ`. -/
def loop {σ : Type} (s e : Int) (body : Int → σ → σ) (st : σ) : σ :=
  (rng s e).foldl (fun st i => body i st) st

/-- Store one value. -/
def store {α : Type} (m : Mem α) (p : Int) (v : α) : Mem α := fun q => if q = p then v else m q

/-- The statement `buf[offset++] = src(...)`; `p` is the address of `src(...)`. -/
def putBuf {α : Type} (buf p : Int) (st : Mem α × Int) : Mem α × Int :=
  (store st.1 (buf + st.2) (st.1 p), st.2 + 1)

/-- The statement `dst(...) = buf[offset++]`; `p` is the address of `dst(...)`. -/
def getBuf {α : Type} (buf p : Int) (st : Mem α × Int) : Mem α × Int :=
  (store st.1 p (st.1 (buf + st.2)), st.2 + 1)

/-- `PackData`, 3D (buffer_utils.cpp:64-74). The state is memory and `offset`. -/
def pack3 {α : Type} (src : Arr) (buf : Int) (si ei sj ej sk ek : Int) :
    Mem α × Int → Mem α × Int :=
  loop sk ek fun k => loop sj ej fun j => loop si ei fun i => putBuf buf (src.at3 k j i)

/-- `PackData`, 4D (buffer_utils.cpp:47-57). -/
def pack4 {α : Type} (src : Arr) (buf : Int) (sn en si ei sj ej sk ek : Int) :
    Mem α × Int → Mem α × Int :=
  loop sn en fun n => loop sk ek fun k => loop sj ej fun j => loop si ei fun i =>
    putBuf buf (src.at4 n k j i)

/-- `PackData`, 5D (buffer_utils.cpp:25-40). -/
def pack5 {α : Type} (src : Arr) (buf : Int) (sn en sm em si ei sj ej sk ek : Int) :
    Mem α × Int → Mem α × Int :=
  loop sn en fun n => loop sk ek fun k => loop sj ej fun j => loop si ei fun i =>
    loop sm em fun m => putBuf buf (src.at5 n k j i m)

/-- `UnpackData`, 3D (buffer_utils.cpp:123-132). -/
def unpack3 {α : Type} (buf : Int) (dst : Arr) (si ei sj ej sk ek : Int) :
    Mem α × Int → Mem α × Int :=
  loop sk ek fun k => loop sj ej fun j => loop si ei fun i => getBuf buf (dst.at3 k j i)

/-- `UnpackData`, 4D (buffer_utils.cpp:105-116). -/
def unpack4 {α : Type} (buf : Int) (dst : Arr) (sn en si ei sj ej sk ek : Int) :
    Mem α × Int → Mem α × Int :=
  loop sn en fun n => loop sk ek fun k => loop sj ej fun j => loop si ei fun i =>
    getBuf buf (dst.at4 n k j i)

/-- `UnpackData`, 5D (buffer_utils.cpp:82-98). -/
def unpack5 {α : Type} (buf : Int) (dst : Arr) (sn en sm em si ei sj ej sk ek : Int) :
    Mem α × Int → Mem α × Int :=
  loop sn en fun n => loop sk ek fun k => loop sj ej fun j => loop si ei fun i =>
    loop sm em fun m => getBuf buf (dst.at5 n k j i m)

/-- Copy assignment `dst = src` (athena_arrays.hpp:204-224): the extents are taken over and
`size` elements copied; the destination keeps its own allocation. -/
def copyAssign {α : Type} (dst src : Arr) (m : Mem α) : Arr × Mem α :=
  ({ src with base := dst.base },
    loop 0 (src.size - 1) (fun i m => store m (dst.base + i) (m (src.base + i))) m)

end Verif.Arr
