import Verif.Spec.Ghost
import Verif.Lemmas.NeighborsPair
import Mathlib.Tactic.Ring
import Mathlib.Tactic.Linarith

/-! Ghost-zone boxes in one direction. -/
namespace Verif.Ghost
open Verif.Grid Verif.Tree

theorem Step.mul {per : Prop} {n x y : Nat} {o : Int} (h : Step per n x o y) (c : Int) :
    (x : Int) * c + o * c = y * c ∨
      (per ∧ ((x : Int) * c + o * c = y * c - n * c ∨ (x : Int) * c + o * c = y * c + n * c)) := by
  rcases h.eq with h1 | ⟨h0, h1 | h1⟩
  · left; rw [← h1]; ring
  · right; refine ⟨h0, .inl ?_⟩; rw [← sub_mul, ← h1]; ring
  · right; refine ⟨h0, .inr ?_⟩; rw [show (y : Int) * c + n * c = (y + n) * c by ring, ← h1]; ring

/-- What one direction of a message has to satisfy: `[s, e]` is packed, `[s', e']` unpacked. -/
def Fits (per : Prop) (N : Int) (f f' : Int → Int) (s e s' e' : Int) : Prop :=
  e' - s' = e - s ∧ ∀ i, SameCell per N (f i) (f' (i - s + s'))

theorem fits_same {per : Prop} {n x y : Nat} {o : Int} (h : Step per n x o y) (nx ng s : Int) (L : Nat)
    (cs cs' : Int) :
    Fits per (n * nx) (cellNo nx s cs L L x) (cellNo nx s cs' L L y)
      (if o > 0 then s + nx - 1 - ng + 1 else s) (if o < 0 then s + ng - 1 else s + nx - 1)
      (if -o = 0 then s else if -o > 0 then s + nx - 1 + 1 else s - ng)
      (if -o = 0 then s + nx - 1 else if -o > 0 then s + nx - 1 + ng else s - 1) := by
  have hm := Step.mul h nx
  obtain rfl | rfl | rfl : o = -1 ∨ o = 0 ∨ o = 1 := by have := h.lo; have := h.hi; omega
  all_goals
    refine ⟨by simp; try omega, fun i => ?_⟩
    simp only [SameCell, cellNo, lt_irrefl, if_false, neg_zero, gt_iff_lt, if_true, ↓reduceIte, Int.reduceNeg,
      Int.reduceLT, Int.reduceEq, neg_neg, show ((-1 : Int) = 0) = False by simp, show ((1 : Int) = 0) = False by simp]
    push_cast at hm
    rcases hm with hm | ⟨hp, hm | hm⟩
    · left; linarith
    · right; exact ⟨hp, by first | (left; linarith) | (right; linarith)⟩
    · right; exact ⟨hp, by first | (left; linarith) | (right; linarith)⟩

/-- Towards a finer block. `b` is the half of the neighbour it fills. -/
theorem fits_fine {per : Prop} {n x r b : Nat} {o : Int} (h : Step per n x o r) (hb : b < 2)
    (ha : o = -1 → b = 1) (hc : o = 1 → b = 0) (hx s cng : Int) (L fi : Nat) (hfi : o = 0 → fi = b) :
    Fits per (n * (2 * hx)) (cellNo (2 * hx) s s L (L + 1) x) (cellNo (2 * hx) s s (L + 1) L (2 * r + b : Nat))
      ((if o > 0 then s + 2 * hx - 1 - (cng - 1) else s) + (if o = 0 ∧ fi = 1 then hx - cng else 0))
      ((if o < 0 then s + (cng - 1) else s + 2 * hx - 1) - (if o = 0 ∧ fi ≠ 1 then hx - cng else 0))
      (if -o = 0 then s - (if (2 * r + b) % 2 = 0 then 0 else cng) else if -o > 0 then s + hx - 1 + 1 else s - cng)
      (if -o = 0 then s + hx - 1 + (if (2 * r + b) % 2 = 0 then cng else 0)
        else if -o > 0 then s + hx - 1 + cng else s - 1) := by
  have hm := Step.mul h (2 * hx)
  have hh : (2 * hx + 1) / 2 = hx := by omega
  have hb' : b = 0 ∨ b = 1 := by omega
  obtain rfl | rfl | rfl : o = -1 ∨ o = 0 ∨ o = 1 := by have := h.lo; have := h.hi; omega
  · obtain rfl := ha rfl
    refine ⟨by norm_num; try omega, fun i => ?_⟩
    simp only [SameCell, cellNo, hh]
    norm_num
    push_cast at hm
    rcases hm with hm | ⟨hp, hm | hm⟩
    · left; push_cast; linarith
    · right; exact ⟨hp, by first | (left; linarith) | (right; linarith)⟩
    · right; exact ⟨hp, by first | (left; linarith) | (right; linarith)⟩
  · obtain rfl := hfi rfl
    rcases hb' with rfl | rfl
    all_goals
      refine ⟨by norm_num [Nat.add_mod]; try omega, fun i => ?_⟩
      simp only [SameCell, cellNo, hh]
      norm_num [Nat.add_mod]
      push_cast at hm
      rcases hm with hm | ⟨hp, hm | hm⟩
      · left; linarith
      · right; exact ⟨hp, by first | (left; linarith) | (right; linarith)⟩
      · right; exact ⟨hp, by first | (left; linarith) | (right; linarith)⟩
  · obtain rfl := hc rfl
    refine ⟨by norm_num; try omega, fun i => ?_⟩
    simp only [SameCell, cellNo, hh]
    norm_num
    push_cast at hm
    rcases hm with hm | ⟨hp, hm | hm⟩
    · left; linarith
    · right; exact ⟨hp, by first | (left; linarith) | (right; linarith)⟩
    · right; exact ⟨hp, by first | (left; linarith) | (right; linarith)⟩

/-- Towards a coarser block. -/
theorem fits_coarse {per : Prop} {n x r : Nat} {o : Int} (h : Step per (2 * n) x o r)
    (ha : o = -1 → x % 2 = 0) (hc : o = 1 → x % 2 = 1) (hx ng s : Int) (K fi : Nat) (hfi : o = 0 → fi = x % 2) :
    Fits per (n * (2 * hx)) (cellNo (2 * hx) s s (K + 1) K x) (cellNo (2 * hx) s s K (K + 1) (r / 2 : Nat))
      (if o > 0 then s + hx - 1 - (ng - 1) else s) (if o < 0 then s + (ng - 1) else s + hx - 1)
      (if -o = 0 then s + (if fi = 1 then hx else 0) else if -o > 0 then s + 2 * hx - 1 + 1 else s - ng)
      (if -o = 0 then s + 2 * hx - 1 - (if fi = 1 then 0 else hx)
        else if -o > 0 then s + 2 * hx - 1 + ng else s - 1) := by
  have hm := Step.mul h hx
  have hh : (2 * hx + 1) / 2 = hx := by omega
  have hpar := h.eq
  obtain ⟨u, hu⟩ : ∃ u, u = r / 2 := ⟨_, rfl⟩
  rw [← hu]
  obtain rfl | rfl | rfl : o = -1 ∨ o = 0 ∨ o = 1 := by have := h.lo; have := h.hi; omega
  · have h0 := ha rfl
    obtain rfl : r = 2 * u + 1 := by omega
    refine ⟨by norm_num; try omega, fun i => ?_⟩
    simp only [SameCell, cellNo, hh]
    norm_num
    push_cast at hm
    rcases hm with hm | ⟨hp, hm | hm⟩
    · left; linarith
    · right; exact ⟨hp, by first | (left; linarith) | (right; linarith)⟩
    · right; exact ⟨hp, by first | (left; linarith) | (right; linarith)⟩
  · obtain rfl := hfi rfl
    obtain h0 | h0 : x % 2 = 0 ∨ x % 2 = 1 := by omega
    · obtain rfl : r = 2 * u := by omega
      refine ⟨by norm_num [h0]; try omega, fun i => ?_⟩
      simp only [SameCell, cellNo, hh]
      norm_num [h0]
      push_cast at hm
      rcases hm with hm | ⟨hp, hm | hm⟩
      · left; linarith
      · right; exact ⟨hp, by first | (left; linarith) | (right; linarith)⟩
      · right; exact ⟨hp, by first | (left; linarith) | (right; linarith)⟩
    · obtain rfl : r = 2 * u + 1 := by omega
      refine ⟨by norm_num [h0]; try omega, fun i => ?_⟩
      simp only [SameCell, cellNo, hh]
      norm_num [h0]
      push_cast at hm
      rcases hm with hm | ⟨hp, hm | hm⟩
      · left; linarith
      · right; exact ⟨hp, by first | (left; linarith) | (right; linarith)⟩
      · right; exact ⟨hp, by first | (left; linarith) | (right; linarith)⟩
  · have h0 := hc rfl
    obtain rfl : r = 2 * u := by omega
    refine ⟨by norm_num; try omega, fun i => ?_⟩
    simp only [SameCell, cellNo, hh]
    norm_num
    push_cast at hm
    rcases hm with hm | ⟨hp, hm | hm⟩
    · left; linarith
    · right; exact ⟨hp, by first | (left; linarith) | (right; linarith)⟩
    · right; exact ⟨hp, by first | (left; linarith) | (right; linarith)⟩

theorem trans_sel {o1 o2 o3 : Int} {fi1 fi2 a b c : Nat} (h0 : ¬ (o1 = 0 ∧ o2 = 0 ∧ o3 = 0))
    (h : (fi1, fi2) = trans o1 o2 o3 a b c) :
    (o1 = 0 → fi1 = a) ∧ (o2 = 0 → sel2 ⟨o1, o2, o3, fi1, fi2⟩ = b) ∧
    (o3 = 0 → sel3 ⟨o1, o2, o3, fi1, fi2⟩ = c) := by
  by_cases h1 : o1 = 0 <;> by_cases h2 : o2 = 0 <;> by_cases h3 : o3 = 0 <;>
    simp_all [Tree.trans, sel2, sel3]

section
variable {m : Mesh} (hm : m.Valid) {ml : Bool} {d : Dims} (hd : SizesOk m ml d)

include hd in
theorem on2 (h : m.f2 = true) : 1 < d.nx2 := (hd.n2 h).2

include hd in
theorem on3 (h : m.f3 = true) : 1 < d.nx3 := (hd.n3 h).2

theorem dom_off {m : Mesh} {L : Nat} {p : Pos} (hp : Dom m L p) :
    (m.f2 = false → p.x2 = 0) ∧ (m.f3 = false → p.x3 = 0) := by
  have h2 := hp.d2
  have h3 := hp.d3
  constructor <;> intro h <;> simp_all [DomDim]

/-- All three directions of a message fit. -/
structure AllFit (m : Mesh) (d : Dims) (L : Nat) (p : Pos) (K : Nat) (q : Pos) (B B' : Box) : Prop where
  x1 : Fits (m.ix1 = .periodic) (m.nmax1 (min L K) * d.nx1) (cellNo d.nx1 d.is d.cis L K p.x1)
    (cellNo d.nx1 d.is d.cis K L q.x1) B.si B.ei B'.si B'.ei
  x2 : Fits (m.ix2 = .periodic) (m.nmax2 (min L K) * d.nx2) (cellNo d.nx2 d.js d.cjs L K p.x2)
    (cellNo d.nx2 d.js d.cjs K L q.x2) B.sj B.ej B'.sj B'.ej
  x3 : Fits (m.ix3 = .periodic) (m.nmax3 (min L K) * d.nx3) (cellNo d.nx3 d.ks d.cks L K p.x3)
    (cellNo d.nx3 d.ks d.cks K L q.x3) B.sk B.ek B'.sk B'.ek

include hm hd in
theorem geo_fits {L K : Nat} {p q : Pos} (hL : m.rootLevel ≤ L) (hK : m.rootLevel ≤ K)
    (hml : K ≠ L → ml = true) (hp : Dom m L p) (hq : Dom m K q) {e e' : NI}
    (h0 : ¬ (e.ox1 = 0 ∧ e.ox2 = 0 ∧ e.ox3 = 0))
    (h1 : e'.ox1 = -e.ox1) (h2 : e'.ox2 = -e.ox2) (h3 : e'.ox3 = -e.ox3)
    (hg : Geo m L p K q e e') : AllFit m d L p K q (loadBox d L K e) (setBox d K q L e') := by
  obtain ⟨o1, o2, o3, fi1, fi2⟩ := e
  obtain ⟨o1', o2', o3', fi1', fi2'⟩ := e'
  simp only at h0 h1 h2 h3
  subst h1 h2 h3
  have po := dom_off hp
  have qo := dom_off hq
  rcases hg with ⟨rfl, hs⟩ | ⟨rfl, r, n, hs, rfl, hn, hf, hfi⟩ | ⟨rfl, r, hs, rfl, hout, hfi⟩
  · simp only [loadBox, setBox, if_true]
    simp only at hs
    refine ⟨by rw [min_self]; exact fits_same hs.s1 d.nx1 d.ng d.ng K d.cis d.cis, ?_, ?_⟩
    · cases hf2 : m.f2
      · have := hs.off2 hf2
        have hn := hd.o2 hf2
        simp [loadSame, setSame, Fits, SameCell, cellNo, this, po.1 hf2, qo.1 hf2, hn, Dims.js, Dims.je]
      · have hn := on2 hd hf2
        have := fits_same hs.s2 d.nx2 d.ng d.ng K d.cjs d.cjs
        simpa only [min_self, loadSame, setSame, Dims.js, Dims.je, if_pos hn] using this
    · cases hf3 : m.f3
      · have := hs.off3 hf3
        have hn := hd.o3 hf3
        simp [loadSame, setSame, Fits, SameCell, cellNo, this, po.2 hf3, qo.2 hf3, hn, Dims.ks, Dims.ke]
      · have hn := on3 hd hf3
        have := fits_same hs.s3 d.nx3 d.ng d.ng K d.cks d.cks
        simpa only [min_self, loadSame, setSame, Dims.ks, Dims.ke, if_pos hn] using this
  · simp only at hs hf hfi
    have hs' := trans_sel h0 hfi
    have hmt := hml (by omega)
    have hmin : min L (L + 1) = L := by omega
    simp only [loadBox, setBox, if_neg (show ¬ (L + 1 = L) by omega), if_neg (show ¬ (L + 1 < L) by omega),
      if_neg (show ¬ (L = L + 1) by omega), if_pos (show L < L + 1 by omega)]
    have hn8 := n.isLt
    refine ⟨?_, ?_, ?_⟩
    · obtain ⟨hx, hx1⟩ : ∃ hx, d.nx1 = 2 * hx := ⟨d.nx1 / 2, by have := hd.even1 hmt; omega⟩
      have := fits_fine hs.s1 (b := n.val % 2) (by omega) hf.a1 hf.b1 hx d.ng (cnghost d) L fi1 hs'.1
      have hh : 2 * hx / 2 = hx := by omega
      simp only [hmin, loadToFiner, setFromCoarser, Dims.is, Dims.ie, Dims.cis, Dims.cie, hx1, hh, Pos.child, if_true] at this ⊢
      convert this <;> split_ifs <;> omega
    · cases hf2 : m.f2
      · have := hs.off2 hf2
        have hn := hd.o2 hf2
        simp [loadToFiner, setFromCoarser, Fits, SameCell, cellNo, this, po.1 hf2, qo.1 hf2, hn, Dims.js, Dims.je,
          Dims.cjs, Dims.cje]
      · have hn := on2 hd hf2
        obtain ⟨hx, hx1⟩ : ∃ hx, d.nx2 = 2 * hx := ⟨d.nx2 / 2, by have := hd.even2 hmt hf2; omega⟩
        have := fits_fine hs.s2 (b := n.val / 2 % 2) (by omega) hf.a2 hf.b2 hx d.ng (cnghost d) L _ hs'.2.1
        have hh : 2 * hx / 2 = hx := by omega
        rw [hx1] at hn
        simp only [hmin, loadToFiner, setFromCoarser, Dims.js, Dims.je, Dims.cjs, Dims.cje, hx1, hh, Pos.child,
          if_pos hn, gt_iff_lt, hn, and_true, if_true] at this ⊢
        convert this <;> split_ifs <;> omega
    · cases hf3 : m.f3
      · have := hs.off3 hf3
        have hn := hd.o3 hf3
        simp [loadToFiner, setFromCoarser, Fits, SameCell, cellNo, this, po.2 hf3, qo.2 hf3, hn, Dims.ks, Dims.ke,
          Dims.cks, Dims.cke]
      · have hn := on3 hd hf3
        obtain ⟨hx, hx1⟩ : ∃ hx, d.nx3 = 2 * hx := ⟨d.nx3 / 2, by have := hd.even3 hmt hf3; omega⟩
        have := fits_fine hs.s3 (b := n.val / 4 % 2) (by omega) hf.a3 hf.b3 hx d.ng (cnghost d) L _ hs'.2.2
        have hh : 2 * hx / 2 = hx := by omega
        rw [hx1] at hn
        simp only [hmin, loadToFiner, setFromCoarser, Dims.ks, Dims.ke, Dims.cks, Dims.cke, hx1, hh, Pos.child,
          if_pos hn, gt_iff_lt, hn, and_true, if_true] at this ⊢
        convert this <;> split_ifs <;> omega
  · simp only at hs hout hfi
    have h0' : ¬ (-o1 = 0 ∧ -o2 = 0 ∧ -o3 = 0) := by omega
    have hs' := trans_sel h0' (by rw [hfi, trans_neg])
    obtain ⟨e1, e2, e3⟩ := nmax_succ hK
    have hmt := hml (by omega)
    have hmin : min (K + 1) K = K := by omega
    simp only [loadBox, setBox, if_neg (show ¬ (K + 1 = K) by omega), if_neg (show ¬ (K + 1 < K) by omega),
      if_neg (show ¬ (K = K + 1) by omega), if_pos (show K < K + 1 by omega)]
    refine ⟨?_, ?_, ?_⟩
    · obtain ⟨hx, hx1⟩ : ∃ hx, d.nx1 = 2 * hx := ⟨d.nx1 / 2, by have := hd.even1 hmt; omega⟩
      have hst := hs.s1
      rw [e1] at hst
      have := fits_coarse hst hout.a1 hout.b1 hx d.ng d.ng K fi1' (fun h => hs'.1 (by omega))
      have hh : 2 * hx / 2 = hx := by omega
      simp only [hmin, loadToCoarser, setFromFiner, Dims.is, Dims.ie, Dims.cis, Dims.cie, hx1, hh, Pos.half, if_true] at this ⊢
      convert this <;> split_ifs <;> omega
    · cases hf2 : m.f2
      · have := hs.off2 hf2
        have hn := hd.o2 hf2
        simp [loadToCoarser, setFromFiner, Fits, SameCell, cellNo, this, po.1 hf2, qo.1 hf2, hn, Dims.js, Dims.je,
          Dims.cjs, Dims.cje]
      · have hn := on2 hd hf2
        obtain ⟨hx, hx1⟩ : ∃ hx, d.nx2 = 2 * hx := ⟨d.nx2 / 2, by have := hd.even2 hmt hf2; omega⟩
        have hst := hs.s2
        rw [e2 hf2] at hst
        have := fits_coarse hst hout.a2 hout.b2 hx d.ng d.ng K _ (fun h => hs'.2.1 (by omega))
        have hh : 2 * hx / 2 = hx := by omega
        rw [hx1] at hn
        simp only [hmin, loadToCoarser, setFromFiner, Dims.js, Dims.je, Dims.cjs, Dims.cje, hx1, hh, Pos.half,
          if_pos hn, gt_iff_lt, hn, and_true, if_true] at this ⊢
        convert this <;> split_ifs <;> omega
    · cases hf3 : m.f3
      · have := hs.off3 hf3
        have hn := hd.o3 hf3
        simp [loadToCoarser, setFromFiner, Fits, SameCell, cellNo, this, po.2 hf3, qo.2 hf3, hn, Dims.ks, Dims.ke,
          Dims.cks, Dims.cke]
      · have hn := on3 hd hf3
        obtain ⟨hx, hx1⟩ : ∃ hx, d.nx3 = 2 * hx := ⟨d.nx3 / 2, by have := hd.even3 hmt hf3; omega⟩
        have hst := hs.s3
        rw [e3 hf3] at hst
        have := fits_coarse hst hout.a3 hout.b3 hx d.ng d.ng K _ (fun h => hs'.2.2 (by omega))
        have hh : 2 * hx / 2 = hx := by omega
        rw [hx1] at hn
        simp only [hmin, loadToCoarser, setFromFiner, Dims.ks, Dims.ke, Dims.cks, Dims.cke, hx1, hh, Pos.half,
          if_pos hn, gt_iff_lt, hn, and_true, if_true] at this ⊢
        convert this <;> split_ifs <;> omega

end

/-! ### Extents, arrays and buffers -/

/-- Extent of a message in one direction. -/
def ext (L K : Nat) (nx ng cng : Int) (on : Bool) (o : Int) : Int :=
  if K = L then (if o = 0 then nx else ng)
  else if K < L then (if o = 0 then (nx + 1) / 2 else ng)
  else (if o = 0 then (nx + 1) / 2 + (if on then cng else 0) else cng)

section
variable {m : Mesh} {ml : Bool} {d : Dims} (hd : SizesOk m ml d)

include hd in
theorem SizesOk.dir2 {o : Int} (h : m.f2 = false → o = 0) :
    (m.f2 = false ∧ d.nx2 = 1 ∧ o = 0) ∨ (m.f2 = true ∧ d.ng ≤ d.nx2 ∧ 1 < d.nx2) := by
  cases hf : m.f2
  · exact .inl ⟨rfl, hd.o2 hf, h hf⟩
  · exact .inr ⟨rfl, hd.n2 hf⟩

include hd in
theorem SizesOk.dir3 {o : Int} (h : m.f3 = false → o = 0) :
    (m.f3 = false ∧ d.nx3 = 1 ∧ o = 0) ∨ (m.f3 = true ∧ d.ng ≤ d.nx3 ∧ 1 < d.nx3) := by
  cases hf : m.f3
  · exact .inl ⟨rfl, hd.o3 hf, h hf⟩
  · exact .inr ⟨rfl, hd.n3 hf⟩

include hd in
theorem load_ext {L K : Nat} (hml : K ≠ L → ml = true) {e : NI} (h2 : m.f2 = false → e.ox2 = 0) (h3 : m.f3 = false → e.ox3 = 0) :
    (loadBox d L K e).ei + 1 - (loadBox d L K e).si = ext L K d.nx1 d.ng (cnghost d) true e.ox1 ∧
    (loadBox d L K e).ej + 1 - (loadBox d L K e).sj = ext L K d.nx2 d.ng (cnghost d) m.f2 e.ox2 ∧
    (loadBox d L K e).ek + 1 - (loadBox d L K e).sk = ext L K d.nx3 d.ng (cnghost d) m.f3 e.ox3 := by
  have hg := hd.ng
  have hn1 := hd.n1
  have H2 := hd.dir2 h2
  have H3 := hd.dir3 h3
  rcases lt_trichotomy K L with hk | rfl | hk
  · have hmt := hml (by omega)
    have := hd.even1 hmt
    have E2 := hd.even2 hmt
    have E3 := hd.even3 hmt
    have := hd.gEven hmt
    refine ⟨?_, ?_, ?_⟩
    · simp only [loadBox, ext, if_pos hk, if_neg (Nat.ne_of_lt hk), loadToCoarser, cnghost, Dims.is, Dims.ie, Dims.cis, Dims.cie]
      try simp only [if_true, if_false, Bool.false_eq_true]
      first | omega | (split_ifs <;> omega)
    · simp only [loadBox, ext, if_pos hk, if_neg (Nat.ne_of_lt hk), loadToCoarser, cnghost, Dims.js, Dims.je, Dims.cjs, Dims.cje]
      rcases H2 with ⟨hf, H⟩ | ⟨hf, H⟩
      · try simp only [if_true, if_false, Bool.false_eq_true, hf]
        first | omega | (split_ifs <;> omega)
      · have E := E2 hf
        try simp only [if_true, if_false, Bool.false_eq_true, hf]
        first | omega | (split_ifs <;> omega)
    · simp only [loadBox, ext, if_pos hk, if_neg (Nat.ne_of_lt hk), loadToCoarser, cnghost, Dims.ks, Dims.ke, Dims.cks, Dims.cke]
      rcases H3 with ⟨hf, H⟩ | ⟨hf, H⟩
      · try simp only [if_true, if_false, Bool.false_eq_true, hf]
        first | omega | (split_ifs <;> omega)
      · have E := E3 hf
        try simp only [if_true, if_false, Bool.false_eq_true, hf]
        first | omega | (split_ifs <;> omega)
  · refine ⟨?_, ?_, ?_⟩
    · simp only [loadBox, ext, if_true, lt_irrefl, if_false, loadSame, cnghost, Dims.is, Dims.ie, Dims.cis, Dims.cie]
      try simp only [if_true, if_false, Bool.false_eq_true]
      first | omega | (split_ifs <;> omega)
    · simp only [loadBox, ext, if_true, lt_irrefl, if_false, loadSame, cnghost, Dims.js, Dims.je, Dims.cjs, Dims.cje]
      rcases H2 with ⟨hf, H⟩ | ⟨hf, H⟩
      · try simp only [if_true, if_false, Bool.false_eq_true, hf]
        first | omega | (split_ifs <;> omega)
      · try simp only [if_true, if_false, Bool.false_eq_true, hf]
        first | omega | (split_ifs <;> omega)
    · simp only [loadBox, ext, if_true, lt_irrefl, if_false, loadSame, cnghost, Dims.ks, Dims.ke, Dims.cks, Dims.cke]
      rcases H3 with ⟨hf, H⟩ | ⟨hf, H⟩
      · try simp only [if_true, if_false, Bool.false_eq_true, hf]
        first | omega | (split_ifs <;> omega)
      · try simp only [if_true, if_false, Bool.false_eq_true, hf]
        first | omega | (split_ifs <;> omega)
  · have hmt := hml (by omega)
    have := hd.even1 hmt
    have E2 := hd.even2 hmt
    have E3 := hd.even3 hmt
    have := hd.gEven hmt
    refine ⟨?_, ?_, ?_⟩
    · simp only [loadBox, ext, if_neg (Nat.lt_asymm hk), if_neg (Nat.ne_of_gt hk), loadToFiner, cnghost, Dims.is, Dims.ie, Dims.cis, Dims.cie]
      try simp only [if_true, if_false, Bool.false_eq_true]
      first | omega | (split_ifs <;> omega)
    · simp only [loadBox, ext, if_neg (Nat.lt_asymm hk), if_neg (Nat.ne_of_gt hk), loadToFiner, cnghost, Dims.js, Dims.je, Dims.cjs, Dims.cje]
      rcases H2 with ⟨hf, H⟩ | ⟨hf, H⟩
      · try simp only [if_true, if_false, Bool.false_eq_true, hf]
        first | omega | (split_ifs <;> omega)
      · have E := E2 hf
        try simp only [if_true, if_false, Bool.false_eq_true, hf]
        first | omega | (split_ifs <;> omega)
    · simp only [loadBox, ext, if_neg (Nat.lt_asymm hk), if_neg (Nat.ne_of_gt hk), loadToFiner, cnghost, Dims.ks, Dims.ke, Dims.cks, Dims.cke]
      rcases H3 with ⟨hf, H⟩ | ⟨hf, H⟩
      · try simp only [if_true, if_false, Bool.false_eq_true, hf]
        first | omega | (split_ifs <;> omega)
      · have E := E3 hf
        try simp only [if_true, if_false, Bool.false_eq_true, hf]
        first | omega | (split_ifs <;> omega)

include hd in
theorem load_in {L K : Nat} (hml : K ≠ L → ml = true) {e : NI} (h2 : m.f2 = false → e.ox2 = 0) (h3 : m.f3 = false → e.ox3 = 0) :
    ((arrayBox d L K).si ≤ (loadBox d L K e).si ∧ (loadBox d L K e).ei ≤ (arrayBox d L K).ei) ∧
    ((arrayBox d L K).sj ≤ (loadBox d L K e).sj ∧ (loadBox d L K e).ej ≤ (arrayBox d L K).ej) ∧
    ((arrayBox d L K).sk ≤ (loadBox d L K e).sk ∧ (loadBox d L K e).ek ≤ (arrayBox d L K).ek) := by
  have hg := hd.ng
  have hn1 := hd.n1
  have H2 := hd.dir2 h2
  have H3 := hd.dir3 h3
  rcases lt_trichotomy K L with hk | rfl | hk
  · have hmt := hml (by omega)
    have := hd.even1 hmt
    have E2 := hd.even2 hmt
    have E3 := hd.even3 hmt
    have := hd.gEven hmt
    refine ⟨?_, ?_, ?_⟩
    · simp only [loadBox, arrayBox, if_pos hk, if_neg (Nat.ne_of_lt hk), loadToCoarser, cnghost, Dims.is, Dims.ie, Dims.cis, Dims.cie]
      try simp only [if_true, if_false, Bool.false_eq_true]
      first | omega | (split_ifs <;> omega)
    · simp only [loadBox, arrayBox, if_pos hk, if_neg (Nat.ne_of_lt hk), loadToCoarser, cnghost, Dims.js, Dims.je, Dims.cjs, Dims.cje]
      rcases H2 with ⟨hf, H⟩ | ⟨hf, H⟩
      · try simp only [if_true, if_false, Bool.false_eq_true, hf]
        first | omega | (split_ifs <;> omega)
      · have E := E2 hf
        try simp only [if_true, if_false, Bool.false_eq_true, hf]
        first | omega | (split_ifs <;> omega)
    · simp only [loadBox, arrayBox, if_pos hk, if_neg (Nat.ne_of_lt hk), loadToCoarser, cnghost, Dims.ks, Dims.ke, Dims.cks, Dims.cke]
      rcases H3 with ⟨hf, H⟩ | ⟨hf, H⟩
      · try simp only [if_true, if_false, Bool.false_eq_true, hf]
        first | omega | (split_ifs <;> omega)
      · have E := E3 hf
        try simp only [if_true, if_false, Bool.false_eq_true, hf]
        first | omega | (split_ifs <;> omega)
  · refine ⟨?_, ?_, ?_⟩
    · simp only [loadBox, arrayBox, if_true, lt_irrefl, if_false, loadSame, cnghost, Dims.is, Dims.ie, Dims.cis, Dims.cie]
      try simp only [if_true, if_false, Bool.false_eq_true]
      first | omega | (split_ifs <;> omega)
    · simp only [loadBox, arrayBox, if_true, lt_irrefl, if_false, loadSame, cnghost, Dims.js, Dims.je, Dims.cjs, Dims.cje]
      rcases H2 with ⟨hf, H⟩ | ⟨hf, H⟩
      · try simp only [if_true, if_false, Bool.false_eq_true, hf]
        first | omega | (split_ifs <;> omega)
      · try simp only [if_true, if_false, Bool.false_eq_true, hf]
        first | omega | (split_ifs <;> omega)
    · simp only [loadBox, arrayBox, if_true, lt_irrefl, if_false, loadSame, cnghost, Dims.ks, Dims.ke, Dims.cks, Dims.cke]
      rcases H3 with ⟨hf, H⟩ | ⟨hf, H⟩
      · try simp only [if_true, if_false, Bool.false_eq_true, hf]
        first | omega | (split_ifs <;> omega)
      · try simp only [if_true, if_false, Bool.false_eq_true, hf]
        first | omega | (split_ifs <;> omega)
  · have hmt := hml (by omega)
    have := hd.even1 hmt
    have E2 := hd.even2 hmt
    have E3 := hd.even3 hmt
    have := hd.gEven hmt
    refine ⟨?_, ?_, ?_⟩
    · simp only [loadBox, arrayBox, if_neg (Nat.lt_asymm hk), if_neg (Nat.ne_of_gt hk), loadToFiner, cnghost, Dims.is, Dims.ie, Dims.cis, Dims.cie]
      try simp only [if_true, if_false, Bool.false_eq_true]
      first | omega | (split_ifs <;> omega)
    · simp only [loadBox, arrayBox, if_neg (Nat.lt_asymm hk), if_neg (Nat.ne_of_gt hk), loadToFiner, cnghost, Dims.js, Dims.je, Dims.cjs, Dims.cje]
      rcases H2 with ⟨hf, H⟩ | ⟨hf, H⟩
      · try simp only [if_true, if_false, Bool.false_eq_true, hf]
        first | omega | (split_ifs <;> omega)
      · have E := E2 hf
        try simp only [if_true, if_false, Bool.false_eq_true, hf]
        first | omega | (split_ifs <;> omega)
    · simp only [loadBox, arrayBox, if_neg (Nat.lt_asymm hk), if_neg (Nat.ne_of_gt hk), loadToFiner, cnghost, Dims.ks, Dims.ke, Dims.cks, Dims.cke]
      rcases H3 with ⟨hf, H⟩ | ⟨hf, H⟩
      · try simp only [if_true, if_false, Bool.false_eq_true, hf]
        first | omega | (split_ifs <;> omega)
      · have E := E3 hf
        try simp only [if_true, if_false, Bool.false_eq_true, hf]
        first | omega | (split_ifs <;> omega)

include hd in
/-- The box that is unpacked lies in the array, beside the active cells if the offset is not zero. -/
theorem set_in {L K : Nat} (hml : K ≠ L → ml = true) (p : Pos) {e : NI} (h2 : m.f2 = false → e.ox2 = 0) (h3 : m.f3 = false → e.ox3 = 0) :
    (((arrayBox d L K).si ≤ (setBox d L p K e).si ∧ (setBox d L p K e).ei ≤ (arrayBox d L K).ei) ∧
      (e.ox1 < 0 → (setBox d L p K e).ei < (activeBox d L K).si) ∧
      (0 < e.ox1 → (activeBox d L K).ei < (setBox d L p K e).si)) ∧
    (((arrayBox d L K).sj ≤ (setBox d L p K e).sj ∧ (setBox d L p K e).ej ≤ (arrayBox d L K).ej) ∧
      (e.ox2 < 0 → (setBox d L p K e).ej < (activeBox d L K).sj) ∧
      (0 < e.ox2 → (activeBox d L K).ej < (setBox d L p K e).sj)) ∧
    (((arrayBox d L K).sk ≤ (setBox d L p K e).sk ∧ (setBox d L p K e).ek ≤ (arrayBox d L K).ek) ∧
      (e.ox3 < 0 → (setBox d L p K e).ek < (activeBox d L K).sk) ∧
      (0 < e.ox3 → (activeBox d L K).ek < (setBox d L p K e).sk)) := by
  have hg := hd.ng
  have hn1 := hd.n1
  have H2 := hd.dir2 h2
  have H3 := hd.dir3 h3
  rcases lt_trichotomy K L with hk | rfl | hk
  · have hmt := hml (by omega)
    have := hd.even1 hmt
    have E2 := hd.even2 hmt
    have E3 := hd.even3 hmt
    have := hd.gEven hmt
    refine ⟨?_, ?_, ?_⟩
    · simp only [setBox, arrayBox, activeBox, if_pos hk, if_neg (Nat.ne_of_lt hk), setFromCoarser, cnghost, Dims.is, Dims.ie, Dims.cis, Dims.cie]
      try simp only [if_true, if_false, Bool.false_eq_true]
      first | omega | (split_ifs <;> omega)
    · simp only [setBox, arrayBox, activeBox, if_pos hk, if_neg (Nat.ne_of_lt hk), setFromCoarser, cnghost, Dims.js, Dims.je, Dims.cjs, Dims.cje]
      rcases H2 with ⟨hf, H⟩ | ⟨hf, H⟩
      · try simp only [if_true, if_false, Bool.false_eq_true, hf]
        first | omega | (split_ifs <;> omega)
      · have E := E2 hf
        try simp only [if_true, if_false, Bool.false_eq_true, hf]
        first | omega | (split_ifs <;> omega)
    · simp only [setBox, arrayBox, activeBox, if_pos hk, if_neg (Nat.ne_of_lt hk), setFromCoarser, cnghost, Dims.ks, Dims.ke, Dims.cks, Dims.cke]
      rcases H3 with ⟨hf, H⟩ | ⟨hf, H⟩
      · try simp only [if_true, if_false, Bool.false_eq_true, hf]
        first | omega | (split_ifs <;> omega)
      · have E := E3 hf
        try simp only [if_true, if_false, Bool.false_eq_true, hf]
        first | omega | (split_ifs <;> omega)
  · refine ⟨?_, ?_, ?_⟩
    · simp only [setBox, arrayBox, activeBox, if_true, lt_irrefl, if_false, setSame, cnghost, Dims.is, Dims.ie, Dims.cis, Dims.cie]
      try simp only [if_true, if_false, Bool.false_eq_true]
      first | omega | (split_ifs <;> omega)
    · simp only [setBox, arrayBox, activeBox, if_true, lt_irrefl, if_false, setSame, cnghost, Dims.js, Dims.je, Dims.cjs, Dims.cje]
      rcases H2 with ⟨hf, H⟩ | ⟨hf, H⟩
      · try simp only [if_true, if_false, Bool.false_eq_true, hf]
        first | omega | (split_ifs <;> omega)
      · try simp only [if_true, if_false, Bool.false_eq_true, hf]
        first | omega | (split_ifs <;> omega)
    · simp only [setBox, arrayBox, activeBox, if_true, lt_irrefl, if_false, setSame, cnghost, Dims.ks, Dims.ke, Dims.cks, Dims.cke]
      rcases H3 with ⟨hf, H⟩ | ⟨hf, H⟩
      · try simp only [if_true, if_false, Bool.false_eq_true, hf]
        first | omega | (split_ifs <;> omega)
      · try simp only [if_true, if_false, Bool.false_eq_true, hf]
        first | omega | (split_ifs <;> omega)
  · have hmt := hml (by omega)
    have := hd.even1 hmt
    have E2 := hd.even2 hmt
    have E3 := hd.even3 hmt
    have := hd.gEven hmt
    refine ⟨?_, ?_, ?_⟩
    · simp only [setBox, arrayBox, activeBox, if_neg (Nat.lt_asymm hk), if_neg (Nat.ne_of_gt hk), setFromFiner, cnghost, Dims.is, Dims.ie, Dims.cis, Dims.cie]
      try simp only [if_true, if_false, Bool.false_eq_true]
      first | omega | (split_ifs <;> omega)
    · simp only [setBox, arrayBox, activeBox, if_neg (Nat.lt_asymm hk), if_neg (Nat.ne_of_gt hk), setFromFiner, cnghost, Dims.js, Dims.je, Dims.cjs, Dims.cje]
      rcases H2 with ⟨hf, H⟩ | ⟨hf, H⟩
      · try simp only [if_true, if_false, Bool.false_eq_true, hf]
        first | omega | (split_ifs <;> omega)
      · have E := E2 hf
        try simp only [if_true, if_false, Bool.false_eq_true, hf]
        first | omega | (split_ifs <;> omega)
    · simp only [setBox, arrayBox, activeBox, if_neg (Nat.lt_asymm hk), if_neg (Nat.ne_of_gt hk), setFromFiner, cnghost, Dims.ks, Dims.ke, Dims.cks, Dims.cke]
      rcases H3 with ⟨hf, H⟩ | ⟨hf, H⟩
      · try simp only [if_true, if_false, Bool.false_eq_true, hf]
        first | omega | (split_ifs <;> omega)
      · have E := E3 hf
        try simp only [if_true, if_false, Bool.false_eq_true, hf]
        first | omega | (split_ifs <;> omega)

include hd in
/-- With enough cells the box that is packed consists of active cells. -/
theorem load_active (hw : Wide m ml d) {L K : Nat} (hml : K ≠ L → ml = true) {e : NI}
    (h2 : m.f2 = false → e.ox2 = 0) (h3 : m.f3 = false → e.ox3 = 0) :
    ((activeBox d L K).si ≤ (loadBox d L K e).si ∧ (loadBox d L K e).ei ≤ (activeBox d L K).ei) ∧
    ((activeBox d L K).sj ≤ (loadBox d L K e).sj ∧ (loadBox d L K e).ej ≤ (activeBox d L K).ej) ∧
    ((activeBox d L K).sk ≤ (loadBox d L K e).sk ∧ (loadBox d L K e).ek ≤ (activeBox d L K).ek) := by
  have hg := hd.ng
  have hn1 := hd.n1
  have H2 := hd.dir2 h2
  have H3 := hd.dir3 h3
  rcases lt_trichotomy K L with hk | rfl | hk
  · have hmt := hml (by omega)
    have := hd.even1 hmt
    have E2 := hd.even2 hmt
    have E3 := hd.even3 hmt
    have := hd.gEven hmt
    have := hw.n1 hmt
    have W2 := hw.n2 hmt
    have W3 := hw.n3 hmt
    refine ⟨?_, ?_, ?_⟩
    · simp only [loadBox, activeBox, if_pos hk, if_neg (Nat.ne_of_lt hk), loadToCoarser, cnghost, Dims.is, Dims.ie, Dims.cis, Dims.cie]
      try simp only [if_true, if_false, Bool.false_eq_true]
      first | omega | (split_ifs <;> omega)
    · simp only [loadBox, activeBox, if_pos hk, if_neg (Nat.ne_of_lt hk), loadToCoarser, cnghost, Dims.js, Dims.je, Dims.cjs, Dims.cje]
      rcases H2 with ⟨hf, H⟩ | ⟨hf, H⟩
      · try simp only [if_true, if_false, Bool.false_eq_true, hf]
        first | omega | (split_ifs <;> omega)
      · have E := E2 hf
        have W := W2 hf
        try simp only [if_true, if_false, Bool.false_eq_true, hf]
        first | omega | (split_ifs <;> omega)
    · simp only [loadBox, activeBox, if_pos hk, if_neg (Nat.ne_of_lt hk), loadToCoarser, cnghost, Dims.ks, Dims.ke, Dims.cks, Dims.cke]
      rcases H3 with ⟨hf, H⟩ | ⟨hf, H⟩
      · try simp only [if_true, if_false, Bool.false_eq_true, hf]
        first | omega | (split_ifs <;> omega)
      · have E := E3 hf
        have W := W3 hf
        try simp only [if_true, if_false, Bool.false_eq_true, hf]
        first | omega | (split_ifs <;> omega)
  · refine ⟨?_, ?_, ?_⟩
    · simp only [loadBox, activeBox, if_true, lt_irrefl, if_false, loadSame, cnghost, Dims.is, Dims.ie, Dims.cis, Dims.cie]
      try simp only [if_true, if_false, Bool.false_eq_true]
      first | omega | (split_ifs <;> omega)
    · simp only [loadBox, activeBox, if_true, lt_irrefl, if_false, loadSame, cnghost, Dims.js, Dims.je, Dims.cjs, Dims.cje]
      rcases H2 with ⟨hf, H⟩ | ⟨hf, H⟩
      · try simp only [if_true, if_false, Bool.false_eq_true, hf]
        first | omega | (split_ifs <;> omega)
      · try simp only [if_true, if_false, Bool.false_eq_true, hf]
        first | omega | (split_ifs <;> omega)
    · simp only [loadBox, activeBox, if_true, lt_irrefl, if_false, loadSame, cnghost, Dims.ks, Dims.ke, Dims.cks, Dims.cke]
      rcases H3 with ⟨hf, H⟩ | ⟨hf, H⟩
      · try simp only [if_true, if_false, Bool.false_eq_true, hf]
        first | omega | (split_ifs <;> omega)
      · try simp only [if_true, if_false, Bool.false_eq_true, hf]
        first | omega | (split_ifs <;> omega)
  · have hmt := hml (by omega)
    have := hd.even1 hmt
    have E2 := hd.even2 hmt
    have E3 := hd.even3 hmt
    have := hd.gEven hmt
    have := hw.n1 hmt
    have W2 := hw.n2 hmt
    have W3 := hw.n3 hmt
    refine ⟨?_, ?_, ?_⟩
    · simp only [loadBox, activeBox, if_neg (Nat.lt_asymm hk), if_neg (Nat.ne_of_gt hk), loadToFiner, cnghost, Dims.is, Dims.ie, Dims.cis, Dims.cie]
      try simp only [if_true, if_false, Bool.false_eq_true]
      first | omega | (split_ifs <;> omega)
    · simp only [loadBox, activeBox, if_neg (Nat.lt_asymm hk), if_neg (Nat.ne_of_gt hk), loadToFiner, cnghost, Dims.js, Dims.je, Dims.cjs, Dims.cje]
      rcases H2 with ⟨hf, H⟩ | ⟨hf, H⟩
      · try simp only [if_true, if_false, Bool.false_eq_true, hf]
        first | omega | (split_ifs <;> omega)
      · have E := E2 hf
        have W := W2 hf
        try simp only [if_true, if_false, Bool.false_eq_true, hf]
        first | omega | (split_ifs <;> omega)
    · simp only [loadBox, activeBox, if_neg (Nat.lt_asymm hk), if_neg (Nat.ne_of_gt hk), loadToFiner, cnghost, Dims.ks, Dims.ke, Dims.cks, Dims.cke]
      rcases H3 with ⟨hf, H⟩ | ⟨hf, H⟩
      · try simp only [if_true, if_false, Bool.false_eq_true, hf]
        first | omega | (split_ifs <;> omega)
      · have E := E3 hf
        have W := W3 hf
        try simp only [if_true, if_false, Bool.false_eq_true, hf]
        first | omega | (split_ifs <;> omega)

include hd in
theorem ext_pos {L K : Nat} (o1 o2 o3 : Int) :
    0 < ext L K d.nx1 d.ng (cnghost d) true o1 ∧ 0 < ext L K d.nx2 d.ng (cnghost d) m.f2 o2 ∧
    0 < ext L K d.nx3 d.ng (cnghost d) m.f3 o3 := by
  have hg := hd.ng
  have hn1 := hd.n1
  have h2 : 0 < d.nx2 := by
    cases hf : m.f2
    · have := hd.o2 hf; omega
    · have := hd.n2 hf; omega
  have h3 : 0 < d.nx3 := by
    cases hf : m.f3
    · have := hd.o3 hf; omega
    · have := hd.n3 hf; omega
  simp only [ext, cnghost]
  refine ⟨?_, ?_, ?_⟩ <;> split_ifs <;> omega

end

end Verif.Ghost
