import Verif.Model.Restart

/-! # Specification vocabulary for restart files -/
namespace Verif.Restart
open Verif.Params (Str)

/-- Two blocks have arrays of the same sizes. -/
structure SameShape (a b : BlockData) : Prop where
  u : a.u.length = b.u.length
  w : a.w.length = b.w.length
  w1 : a.w1.length = b.w1.length
  b1 : a.b1.length = b.b1.length
  b2 : a.b2.length = b.b2.length
  b3 : a.b3.length = b.b3.length
  ir : a.ir.length = b.ir.length
  ucr : a.ucr.length = b.ucr.length
  ecr : a.ecr.length = b.ecr.length
  s : a.s.length = b.s.length
  h : a.h.length = b.h.length
  chir : a.chir.length = b.chir.length
  iuser : a.iuser.map (·.length) = b.iuser.map (·.length)
  ruser : a.ruser.map (·.length) = b.ruser.map (·.length)

/-- Two blocks hold the same data in every array of the configuration. -/
structure SameData (c : Cfg) (a b : BlockData) : Prop where
  u : a.u = b.u
  w : c.gr = true → a.w = b.w
  w1 : c.gr = true → a.w1 = b.w1
  b1 : c.mhd = true → a.b1 = b.b1
  b2 : c.mhd = true → a.b2 = b.b2
  b3 : c.mhd = true → a.b3 = b.b3
  ir : c.rad = true → a.ir = b.ir
  ucr : c.cr = true → a.ucr = b.ucr
  ecr : c.crdiff = true → a.ecr = b.ecr
  s : c.scal = true → a.s = b.s
  h : c.scal = true → c.chem = true → a.h = b.h
  chir : c.chemrad = true → a.chir = b.chir
  iuser : a.iuser = b.iuser
  ruser : a.ruser = b.ruser

variable {R D Reg Loc : Type}

/-- All header values are representable in their types. -/
structure HeadOk (N : Native R D Reg Loc) (hd : Head R Reg) : Prop where
  nbtotal : N.int.valid hd.nbtotal
  rootLevel : N.int.valid hd.rootLevel
  meshSize : N.reg.valid hd.meshSize
  time : N.real.valid hd.time
  dt : N.real.valid hd.dt
  ncycle : N.int.valid hd.ncycle
  datasize : N.off.valid hd.datasize

/-- Location and cost are representable. -/
structure BlkOk (N : Native R D Reg Loc) (b : Blk Loc D) : Prop where
  loc : N.loc.valid b.loc
  cost : N.dbl.valid b.cost

/-- Two writes touch no common byte. -/
def Write.Disjoint (v w : Write) : Prop :=
  v.off + v.bytes.length ≤ w.off ∨ w.off + w.bytes.length ≤ v.off

end Verif.Restart
