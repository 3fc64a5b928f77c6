import Verif.Model.Neighbors
import Verif.Props.TreeNeighbor

/-! Helper lemmas for neighbour lists. -/
namespace Verif.Tree

/-- The two child indices transverse to a direction. -/
def trans (o1 o2 o3 : Int) (a b c : Nat) : Nat × Nat :=
  if o1 ≠ 0 then
    if o2 ≠ 0 then (if o3 ≠ 0 then (0, 0) else (c, 0))
    else if o3 ≠ 0 then (b, 0) else (b, c)
  else if o2 ≠ 0 then (if o3 ≠ 0 then (a, 0) else (a, c))
  else (a, b)

def nleafB (f2 f3 : Bool) : Nat := if f3 then 8 else if f2 then 4 else 2

def sideOk (o : Int) (b : Nat) : Bool := (o = 0) || (o = 1 && b = 0) || (o = -1 && b = 1)

def faceB (o1 o2 o3 : Int) (n : Fin 8) : Bool :=
  sideOk o1 (n.val % 2) && sideOk o2 (n.val / 2 % 2) && sideOk o3 (n.val / 4 % 2)

/-- Nonzero component implies that the parity lies on that side. -/
def parOk (o : Int) (b : Bool) : Bool := (o = 0) || (o = 1 && b) || (o = -1 && !b)

def isFaceB (o1 o2 o3 : Int) : Bool :=
  (o2 = 0 && o3 = 0) || (o1 = 0 && o3 = 0) || (o1 = 0 && o2 = 0)

/-- Checked facts about one passage. -/
structure VOk (c : SCfg) (v : Visit) (bid : Nat) : Prop where
  d1 : v.o1 = -1 ∨ v.o1 = 0 ∨ v.o1 = 1
  d2 : (v.o2 = -1 ∨ v.o2 = 0 ∨ v.o2 = 1) ∧ (c.f2 = false → v.o2 = 0)
  d3 : (v.o3 = -1 ∨ v.o3 = 0 ∨ v.o3 = 1) ∧ (c.f3 = false → v.o3 = 0)
  nz : ¬ (v.o1 = 0 ∧ v.o2 = 0 ∧ v.o3 = 0)
  slot : (niList c.f2 c.f3 c.ml)[bid]? = some ⟨v.o1, v.o2, v.o3, 0, 0⟩
  fine : ∀ x ∈ v.fine.zipIdx, (niList c.f2 c.f3 c.ml)[bid + x.2]? =
      some ⟨v.o1, v.o2, v.o3, x.1.2.1, x.1.2.2⟩ ∧ x.1.1.val < nleafB c.f2 c.f3 ∧
      faceB v.o1 v.o2 v.o3 x.1.1 = true ∧
      x.1.2 = trans v.o1 v.o2 v.o3 (x.1.1.val % 2) (x.1.1.val / 2 % 2) (x.1.1.val / 4 % 2)
  full : c.ml = true → ∀ n : Fin 8, n.val < nleafB c.f2 c.f3 → faceB v.o1 v.o2 v.o3 n = true →
    ∃ x ∈ v.fine.zipIdx, x.1.1 = n
  tF : v.tFine = c.find (-v.o1) (-v.o2) (-v.o3) 0 0
  tS : v.tSame = c.find (-v.o1) (-v.o2) (-v.o3) 0 0
  tC : v.tCoarse = c.find (-v.o1) (-v.o2) (-v.o3) (trans v.o1 v.o2 v.o3 c.b1.toNat c.b2.toNat c.b3.toNat).1
      (trans v.o1 v.o2 v.o3 c.b1.toNat c.b2.toNat c.b3.toNat).2
  ok : v.okCoarse = (isFaceB v.o1 v.o2 v.o3 || (parOk v.o1 c.b1 && parOk v.o2 c.b2 && parOk v.o3 c.b3))
  pol : v.polFine = false ∧ v.polSame = false ∧ v.polCoarse = false ∧ v.shear = false
  wd : v.fine.length ≤ v.width ∧ 1 ≤ v.width

instance (c : SCfg) (v : Visit) (bid : Nat) : Decidable (VOk c v bid) :=
  decidable_of_iff ((v.o1 = -1 ∨ v.o1 = 0 ∨ v.o1 = 1) ∧
    ((v.o2 = -1 ∨ v.o2 = 0 ∨ v.o2 = 1) ∧ (c.f2 = false → v.o2 = 0)) ∧
    ((v.o3 = -1 ∨ v.o3 = 0 ∨ v.o3 = 1) ∧ (c.f3 = false → v.o3 = 0)) ∧
    (¬ (v.o1 = 0 ∧ v.o2 = 0 ∧ v.o3 = 0)) ∧
    ((niList c.f2 c.f3 c.ml)[bid]? = some ⟨v.o1, v.o2, v.o3, 0, 0⟩) ∧
    (∀ x ∈ v.fine.zipIdx, (niList c.f2 c.f3 c.ml)[bid + x.2]? =
      some ⟨v.o1, v.o2, v.o3, x.1.2.1, x.1.2.2⟩ ∧ x.1.1.val < nleafB c.f2 c.f3 ∧
      faceB v.o1 v.o2 v.o3 x.1.1 = true ∧
      x.1.2 = trans v.o1 v.o2 v.o3 (x.1.1.val % 2) (x.1.1.val / 2 % 2) (x.1.1.val / 4 % 2)) ∧
    (c.ml = true → ∀ n : Fin 8, n.val < nleafB c.f2 c.f3 → faceB v.o1 v.o2 v.o3 n = true →
      ∃ x ∈ v.fine.zipIdx, x.1.1 = n) ∧
    (v.tFine = c.find (-v.o1) (-v.o2) (-v.o3) 0 0) ∧ (v.tSame = c.find (-v.o1) (-v.o2) (-v.o3) 0 0) ∧
    (v.tCoarse = c.find (-v.o1) (-v.o2) (-v.o3) (trans v.o1 v.o2 v.o3 c.b1.toNat c.b2.toNat c.b3.toNat).1
      (trans v.o1 v.o2 v.o3 c.b1.toNat c.b2.toNat c.b3.toNat).2) ∧
    (v.okCoarse = (isFaceB v.o1 v.o2 v.o3 || (parOk v.o1 c.b1 && parOk v.o2 c.b2 && parOk v.o3 c.b3))) ∧
    (v.polFine = false ∧ v.polSame = false ∧ v.polCoarse = false ∧ v.shear = false) ∧
    (v.fine.length ≤ v.width ∧ 1 ≤ v.width))
    ⟨fun ⟨a, b, c, d, e, f, g, h, i, j, k, l, w⟩ => ⟨a, b, c, d, e, f, g, h, i, j, k, l, w⟩,
     fun ⟨a, b, c, d, e, f, g, h, i, j, k, l, w⟩ => ⟨a, b, c, d, e, f, g, h, i, j, k, l, w⟩⟩

def allOk (c : SCfg) : Nat → List Visit → Bool
  | _, [] => true
  | bid, v :: vs => decide (VOk c v bid) && allOk c (bid + v.width) vs

def dirsB (on : Bool) : List Int := if on then [-1, 0, 1] else [0]

def allDirs (c : SCfg) : Bool :=
  (dirsB true).all fun a => (dirsB c.f2).all fun b => (dirsB c.f3).all fun d =>
    (a = 0 && b = 0 && d = 0) || c.visits.any fun v => v.o1 = a && v.o2 = b && v.o3 = d

theorem allOk_core : ∀ f2 f3 ml b1 b2 b3 pi po : Bool, (f3 = true → f2 = true) →
    (f2 = false → b2 = false) → (f3 = false → b3 = false) → (f2 = true → pi = false ∧ po = false) →
    (allOk ⟨f2, f3, ml, b1, b2, b3, pi, po, false, false⟩ 0
      (SCfg.visits ⟨f2, f3, ml, b1, b2, b3, pi, po, false, false⟩) &&
     allDirs ⟨f2, f3, ml, b1, b2, b3, pi, po, false, false⟩) = true := by
  decide +kernel

theorem slot_core : ∀ f2 f3 ml : Bool, (f3 = true → f2 = true) →
    (niList f2 f3 ml).length ≤ 56 ∧
    ∀ x ∈ (niList f2 f3 ml).zipIdx, findBufferID f2 f3 ml x.1 = x.2 := by
  decide +kernel

theorem slot_find {f2 f3 ml : Bool} (h : f3 = true → f2 = true) {i : Nat} {a : NI}
    (hi : (niList f2 f3 ml)[i]? = some a) : findBufferID f2 f3 ml a = i ∧ i < 56 := by
  have h1 := slot_core f2 f3 ml h
  have h2 : i < (niList f2 f3 ml).length := (List.getElem?_eq_some_iff.1 hi).1
  refine ⟨h1.2 (a, i) ?_, by omega⟩
  rw [List.mem_zipIdx_iff_getElem?]
  exact hi

theorem scfg_ok {m : Mesh} (hm : m.Valid) (hnp : NoPolar m) (hns : NoShear m) (ml : Bool) {L : Nat}
    (hL : m.rootLevel ≤ L) {p : Pos} (hp : Dom m L p) :
    allOk (scfg m ml L p) 0 (scfg m ml L p).visits = true ∧ allDirs (scfg m ml L p) = true := by
  have h1 : (scfg m ml L p).si = false := by
    simp only [scfg, blockIx1, decide_eq_false_iff_not]
    split
    · exact decide_eq_false hns
    · simp
  have h2 : (scfg m ml L p).so = false := by
    simp only [scfg, blockOx1, decide_eq_false_iff_not]
    split
    · exact decide_eq_false fun h => hns (hm.shear.2 h)
    · simp
  have hd := (dom_iff_ge hL).1 hp
  have h3 : m.f2 = false → p.x2 = 0 := by
    intro h
    have := hp.d2
    simpa [DomDim, h] using this
  have h4 : m.f3 = false → p.x3 = 0 := by
    intro h
    have := hp.d3
    simpa [DomDim, h] using this
  have h5 : m.f2 = true → (scfg m ml L p).pi = false ∧ (scfg m ml L p).po = false := by
    intro h
    constructor
    · simp only [scfg, blockIx2, decide_eq_false_iff_not]
      split
      · exact decide_eq_false (hnp h).1
      · simp
    · simp only [scfg, blockOx2, decide_eq_false_iff_not]
      split
      · exact decide_eq_false (hnp h).2
      · simp
  have := allOk_core m.f2 m.f3 ml (decide (p.x1 % 2 = 1)) (decide (p.x2 % 2 = 1))
    (decide (p.x3 % 2 = 1)) (scfg m ml L p).pi (scfg m ml L p).po hm.dim
    (fun h => by simp [h3 h]) (fun h => by simp [h4 h]) h5
  have hc : (⟨m.f2, m.f3, ml, decide (p.x1 % 2 = 1), decide (p.x2 % 2 = 1), decide (p.x3 % 2 = 1),
      (scfg m ml L p).pi, (scfg m ml L p).po, false, false⟩ : SCfg) = scfg m ml L p := by
    have e : scfg m ml L p = ⟨m.f2, m.f3, ml, decide (p.x1 % 2 = 1), decide (p.x2 % 2 = 1),
      decide (p.x3 % 2 = 1), (scfg m ml L p).pi, (scfg m ml L p).po, (scfg m ml L p).si,
      (scfg m ml L p).so⟩ := rfl
    rw [h1, h2] at e
    exact e.symm
  rw [hc] at this
  simpa using this

end Verif.Tree
