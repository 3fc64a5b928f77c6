import Verif.Spec.Orbital
import Verif.Lemmas.Array
import Mathlib.Algebra.BigOperators.Intervals
import Mathlib.Tactic.Tauto

/-! Helper lemmas for orbital advection: rows, messages, buffers. -/
namespace Verif.Orbital
open Verif.Arr Verif.Grid

section
variable (r : Rows) (lo hi : ℤ → ℤ → ℤ)

/-- The index tuples `(n, a, i, o)` visited by the loops. -/
def cells : List (ℤ × ℤ × ℤ × ℤ) :=
  (prodL (rng r.a0 r.a1) (prodL (rng r.i0 r.i1) (rng 0 (r.nv - 1)))).flatMap fun x =>
    (rng (lo x.1 x.2.1) (hi x.1 x.2.1)).map fun o => (x.2.2, x.1, x.2.1, o)

theorem mem_cells {n a i o : ℤ} : (n, a, i, o) ∈ cells r lo hi ↔ r.Has n a i ∧ lo a i ≤ o ∧ o ≤ hi a i := by
  simp only [cells, List.mem_flatMap, List.mem_map, mem_rng, Prod.mk.injEq, Rows.Has]
  constructor
  · rintro ⟨⟨a', i', n'⟩, hx, o', ho, rfl, rfl, rfl, rfl⟩
    rw [mem_prodL, mem_prodL, mem_rng, mem_rng, mem_rng] at hx
    dsimp only at ho ⊢
    exact ⟨⟨by omega, hx.1, hx.2.1⟩, ho⟩
  · rintro ⟨⟨hn, ha, hi'⟩, ho⟩
    refine ⟨(a, i, n), ?_, o, ho, rfl, rfl, rfl, rfl⟩
    rw [mem_prodL, mem_prodL, mem_rng, mem_rng, mem_rng]
    exact ⟨ha, hi', by omega⟩

theorem nodup_cells : (cells r lo hi).Nodup := by
  unfold cells
  rw [List.nodup_flatMap]
  refine ⟨fun x _ => (nodup_rng _ _).map (fun p q h => by simpa using h), ?_⟩
  refine (nodup_prodL (nodup_rng _ _) (nodup_prodL (nodup_rng _ _) (nodup_rng _ _))).imp ?_
  rintro ⟨a, i, n⟩ ⟨a', i', n'⟩ hne
  simp only [Function.onFun, List.disjoint_left, List.mem_map]
  rintro _ ⟨p, _, rfl⟩ ⟨q, _, h⟩
  simp only [Prod.mk.injEq] at h
  exact hne (by rw [h.1, h.2.1, h.2.2.1])

theorem foldl_flatMap' {α β σ : Type} (l : List α) (f : α → List β) (g : σ → β → σ) (s : σ) :
    (l.flatMap f).foldl g s = l.foldl (fun s a => (f a).foldl g s) s := by
  induction l generalizing s with
  | nil => rfl
  | cons a l ih => rw [List.flatMap_cons, List.foldl_append, ih]; rfl

theorem rowLoop_eq {σ : Type} (g : ℤ × ℤ × ℤ × ℤ → σ → σ) (s : σ) :
    rowLoop r (fun n a i => loop (lo a i) (hi a i) fun o => g (n, a, i, o)) s =
      (cells r lo hi).foldl (fun s c => g c s) s := by
  unfold cells rowLoop loop
  simp only [foldl_flatMap', foldl_prodL, List.foldl_map]

theorem cells_shift (c : ℤ → ℤ → ℤ) : cells r (fun a i => lo a i + c a i) (fun a i => hi a i + c a i) =
    (cells r lo hi).map fun x => (x.1, x.2.1, x.2.2.1, x.2.2.2 + c x.2.1 x.2.2.1) := by
  unfold cells
  rw [List.map_flatMap]
  congr 1
  funext x
  rw [rng_shift, List.map_map, List.map_map]
  rfl
end

section
variable {K : Type}

theorem upd_fold {ι : Type} [DecidableEq ι] {κ : Type} (l : List κ) (g : κ → ι) (v : κ → K) (b : ι → K)
    (hn : (l.map g).Nodup) :
    (∀ c ∈ l, l.foldl (fun b c => Function.update b (g c) (v c)) b (g c) = v c) ∧
    (∀ x, (∀ c ∈ l, x ≠ g c) → l.foldl (fun b c => Function.update b (g c) (v c)) b x = b x) := by
  induction l generalizing b with
  | nil => simp
  | cons c l ih =>
    simp only [List.map_cons, List.nodup_cons] at hn
    obtain ⟨h1, h2⟩ := ih (Function.update b (g c) (v c)) hn.2
    constructor
    · intro c' hc'
      rw [List.foldl_cons]
      rcases List.mem_cons.1 hc' with rfl | hc'
      · rw [h2 _ (fun y hy e => hn.1 (by rw [e]; exact List.mem_map_of_mem hy))]
        simp
      · exact h1 c' hc'
    · intro x hx
      rw [List.foldl_cons, h2 x (fun y hy => hx y (List.mem_cons_of_mem _ hy)),
        Function.update_of_ne (hx c List.mem_cons_self)]

theorem get_fold {ι : Type} [DecidableEq ι] (l : List ι) (buf : ℕ → K) (b : ι → K) (p : ℕ) (hn : l.Nodup) :
    (l.foldl (fun s c => (Function.update s.1 c (buf s.2), s.2 + 1)) (b, p)).2 = p + l.length ∧
    (∀ (m : ℕ) (h : m < l.length),
      (l.foldl (fun s c => (Function.update s.1 c (buf s.2), s.2 + 1)) (b, p)).1 l[m] = buf (p + m)) ∧
    (∀ x, x ∉ l → (l.foldl (fun s c => (Function.update s.1 c (buf s.2), s.2 + 1)) (b, p)).1 x = b x) := by
  induction l generalizing b p with
  | nil => simp
  | cons c l ih =>
    rw [List.nodup_cons] at hn
    obtain ⟨h0, h1, h2⟩ := ih (Function.update b c (buf p)) (p + 1) hn.2
    refine ⟨?_, ?_, ?_⟩
    · rw [List.foldl_cons, h0, List.length_cons]; omega
    · intro m hm
      rw [List.foldl_cons]
      cases m with
      | zero => rw [List.getElem_cons_zero, h2 c hn.1]; simp
      | succ m =>
        rw [List.getElem_cons_succ, h1 m (by simpa using hm)]
        congr 1; omega
    · intro x hx
      rw [List.foldl_cons, h2 x (fun h => hx (List.mem_cons_of_mem _ h))]
      exact Function.update_of_ne (fun h => hx (by rw [h]; exact List.mem_cons_self)) _ _

theorem app_fold {ι : Type} (l : List ι) (v : ι → K) (b : List K) :
    l.foldl (fun b c => b ++ [v c]) b = b ++ l.map v := by
  induction l generalizing b with
  | nil => simp
  | cons c l ih => rw [List.foldl_cons, ih]; simp

variable (r : Rows) (off : ℤ × ℤ → ℤ)

/-- Cells sent to the right and to the left. -/
def upCells : List (ℤ × ℤ × ℤ × ℤ) := cells r (fun a i => r.os - r.xgh - off (a, i) + r.onx) (fun _ _ => r.oe)
@[inherit_doc upCells] def dnCells : List (ℤ × ℤ × ℤ × ℤ) :=
  cells r (fun _ _ => r.os) (fun a i => r.oe + 1 + r.xgh - off (a, i) - r.onx)

/-- The value of a block at `(n, a, i, o)`. -/
def val (u : Var K) (c : ℤ × ℤ × ℤ × ℤ) : K := u (c.1, c.2.1, c.2.2.2, c.2.2.1)

/-- Positions in the orbital buffer. -/
def upPos (c : ℤ × ℤ × ℤ × ℤ) : ℤ × ℤ × ℤ × ℤ :=
  (c.1, c.2.1, c.2.2.1, c.2.2.2 + -(if off (c.2.1, c.2.2.1) ≤ 0 then r.onx else 0))
@[inherit_doc upPos] def dnPos (c : ℤ × ℤ × ℤ × ℤ) : ℤ × ℤ × ℤ × ℤ :=
  (c.1, c.2.1, c.2.2.1, c.2.2.2 + (r.onx + if off (c.2.1, c.2.2.1) > 0 then r.onx else 0))
@[inherit_doc upPos] def ownPos (c : ℤ × ℤ × ℤ × ℤ) : ℤ × ℤ × ℤ × ℤ :=
  (c.1, c.2.1, c.2.2.1, c.2.2.2 + if off (c.2.1, c.2.2.1) > 0 then r.onx else 0)

theorem upPos_inj {c c'} (h : upPos r off c = upPos r off c') : c = c' := by
  obtain ⟨n, a, i, o⟩ := c
  obtain ⟨n', a', i', o'⟩ := c'
  simp only [upPos, Prod.mk.injEq] at h
  obtain ⟨rfl, rfl, rfl, h⟩ := h
  simp only [add_left_inj] at h
  rw [h]
theorem dnPos_inj {c c'} (h : dnPos r off c = dnPos r off c') : c = c' := by
  obtain ⟨n, a, i, o⟩ := c
  obtain ⟨n', a', i', o'⟩ := c'
  simp only [dnPos, Prod.mk.injEq] at h
  obtain ⟨rfl, rfl, rfl, h⟩ := h
  simp only [add_left_inj] at h
  rw [h]
theorem ownPos_inj {c c'} (h : ownPos r off c = ownPos r off c') : c = c' := by
  obtain ⟨n, a, i, o⟩ := c
  obtain ⟨n', a', i', o'⟩ := c'
  simp only [ownPos, Prod.mk.injEq] at h
  obtain ⟨rfl, rfl, rfl, h⟩ := h
  simp only [add_left_inj] at h
  rw [h]

theorem loadUp_eq (u : Var K) (b : List K) : loadUp r off u b = b ++ (upCells r off).map (val u) := by
  rw [← app_fold]
  exact rowLoop_eq r _ _ (fun c b => b ++ [val u c]) b
theorem loadDown_eq (u : Var K) (b : List K) : loadDown r off u b = b ++ (dnCells r off).map (val u) := by
  rw [← app_fold]
  exact rowLoop_eq r _ _ (fun c b => b ++ [val u c]) b

theorem setUp_eq (buf : ℕ → K) (s : Buf K × ℕ) : setUp r off buf s =
    ((upCells r off).map (upPos r off)).foldl (fun s c => (Function.update s.1 c (buf s.2), s.2 + 1)) s := by
  have := cells_shift r (fun a i => r.os - r.xgh - off (a, i) + r.onx) (fun _ _ => r.oe)
    (fun a i => -(if off (a, i) ≤ 0 then r.onx else 0))
  unfold upCells upPos
  rw [← this, ← rowLoop_eq]
  rfl
theorem setDown_eq (buf : ℕ → K) (s : Buf K × ℕ) : setDown r off buf s =
    ((dnCells r off).map (dnPos r off)).foldl (fun s c => (Function.update s.1 c (buf s.2), s.2 + 1)) s := by
  have := cells_shift r (fun _ _ => r.os) (fun a i => r.oe + 1 + r.xgh - off (a, i) - r.onx)
    (fun a i => r.onx + if off (a, i) > 0 then r.onx else 0)
  unfold dnCells dnPos
  rw [← this, ← rowLoop_eq]
  unfold setDown
  congr 1
  funext n a i
  dsimp only
  congr 1 <;> ring

theorem ownCC_eq (u : Var K) (b : Buf K) : ownCC r off u b =
    (cells r (fun a i => max r.os (r.os - r.xgh - off (a, i))) (fun a i => min r.oe (r.oe + 1 + r.xgh - off (a, i)))).foldl
      (fun b c => Function.update b (ownPos r off c) (val u c)) b := by
  rw [← rowLoop_eq]
  rfl
theorem ownFC_eq (u : Var K) (b : Buf K) : ownFC r off u b =
    (cells r (fun _ _ => r.os) (fun _ _ => r.oe)).foldl
      (fun b c => Function.update b (ownPos r off c) (val u c)) b := by
  rw [← rowLoop_eq]
  rfl

/-- Setting a message: `pre` values were read before. -/
theorem set_hit (L : List (ℤ × ℤ × ℤ × ℤ)) (hL : L.Nodup) (g : ℤ × ℤ × ℤ × ℤ → ℤ × ℤ × ℤ × ℤ)
    (hg : ∀ c c', g c = g c' → c = c') (v : ℤ × ℤ × ℤ × ℤ → K) (pre post : List K) (old : ℕ → K) (b : Buf K) :
    let s := (L.map g).foldl (fun s c => (Function.update s.1 c (recv (pre ++ L.map v ++ post) old s.2), s.2 + 1))
      (b, pre.length)
    s.2 = pre.length + L.length ∧ (∀ c ∈ L, s.1 (g c) = v c) ∧ (∀ x, (∀ c ∈ L, x ≠ g c) → s.1 x = b x) := by
  intro s
  have hn : (L.map g).Nodup := hL.map_on (fun x _ y _ h => hg x y h)
  obtain ⟨h0, h1, h2⟩ := get_fold (L.map g) (recv (pre ++ L.map v ++ post) old) b pre.length hn
  refine ⟨by rw [h0, List.length_map], ?_, ?_⟩
  · intro c hc
    obtain ⟨m, hm, rfl⟩ := List.getElem_of_mem hc
    have := h1 m (by simpa using hm)
    rw [List.getElem_map] at this
    rw [this]
    unfold recv
    rw [List.getD_eq_getElem?_getD, List.append_assoc, List.getElem?_append_right (by omega),
      List.getElem?_append_left (by simp; omega)]
    simp [hm]
  · intro x hx
    apply h2
    intro h
    obtain ⟨c, hc, rfl⟩ := List.mem_map.1 h
    exact hx c hc rfl

variable (P Q : Part K)

theorem msgUp_eq (b : ℤ) : msgUp P Q b = (upCells P.r P.off).map (val (P.u b)) ++ (upCells Q.r Q.off).map (val (Q.u b)) := by
  unfold msgUp
  rw [loadUp_eq, loadUp_eq, List.nil_append]
theorem msgDown_eq (b : ℤ) : msgDown P Q b = (dnCells P.r P.off).map (val (P.u b)) ++ (dnCells Q.r Q.off).map (val (Q.u b)) := by
  unfold msgDown
  rw [loadDown_eq, loadDown_eq, List.nil_append]

/-- What setting the message from the left does. -/
theorem receiveUp (b : ℤ) (old : ℕ → K) (s : Buf K × Buf K) :
    let t := receive (setUp P.r P.off) (setUp Q.r Q.off) (recv (msgUp P Q b) old) s
    t.2 = (msgUp P Q b).length ∧
    (∀ c ∈ upCells P.r P.off, t.1.1 (upPos P.r P.off c) = val (P.u b) c) ∧
    (∀ x, (∀ c ∈ upCells P.r P.off, x ≠ upPos P.r P.off c) → t.1.1 x = s.1 x) ∧
    (∀ c ∈ upCells Q.r Q.off, t.1.2 (upPos Q.r Q.off c) = val (Q.u b) c) ∧
    (∀ x, (∀ c ∈ upCells Q.r Q.off, x ≠ upPos Q.r Q.off c) → t.1.2 x = s.2 x) := by
  intro t
  have hP := set_hit (upCells P.r P.off) (nodup_cells _ _ _) (upPos P.r P.off) (fun _ _ => upPos_inj _ _)
    (val (P.u b)) [] ((upCells Q.r Q.off).map (val (Q.u b))) old s.1
  have hQ := set_hit (upCells Q.r Q.off) (nodup_cells _ _ _) (upPos Q.r Q.off) (fun _ _ => upPos_inj _ _)
    (val (Q.u b)) ((upCells P.r P.off).map (val (P.u b))) [] old s.2
  rw [List.nil_append, ← msgUp_eq, List.length_nil, ← setUp_eq] at hP
  rw [List.append_nil, ← msgUp_eq, ← setUp_eq] at hQ
  have e : (setUp P.r P.off (recv (msgUp P Q b) old) (s.1, 0)).2 = ((upCells P.r P.off).map (val (P.u b))).length := by
    rw [hP.1]; simp
  rw [← e] at hQ
  refine ⟨?_, hP.2.1, hP.2.2, hQ.2.1, hQ.2.2⟩
  show (setUp Q.r Q.off (recv (msgUp P Q b) old) (s.2, (setUp P.r P.off (recv (msgUp P Q b) old) (s.1, 0)).2)).2 = _
  rw [hQ.1, e, msgUp_eq]; simp

theorem receiveDown (b : ℤ) (old : ℕ → K) (s : Buf K × Buf K) :
    let t := receive (setDown P.r P.off) (setDown Q.r Q.off) (recv (msgDown P Q b) old) s
    t.2 = (msgDown P Q b).length ∧
    (∀ c ∈ dnCells P.r P.off, t.1.1 (dnPos P.r P.off c) = val (P.u b) c) ∧
    (∀ x, (∀ c ∈ dnCells P.r P.off, x ≠ dnPos P.r P.off c) → t.1.1 x = s.1 x) ∧
    (∀ c ∈ dnCells Q.r Q.off, t.1.2 (dnPos Q.r Q.off c) = val (Q.u b) c) ∧
    (∀ x, (∀ c ∈ dnCells Q.r Q.off, x ≠ dnPos Q.r Q.off c) → t.1.2 x = s.2 x) := by
  intro t
  have hP := set_hit (dnCells P.r P.off) (nodup_cells _ _ _) (dnPos P.r P.off) (fun _ _ => dnPos_inj _ _)
    (val (P.u b)) [] ((dnCells Q.r Q.off).map (val (Q.u b))) old s.1
  have hQ := set_hit (dnCells Q.r Q.off) (nodup_cells _ _ _) (dnPos Q.r Q.off) (fun _ _ => dnPos_inj _ _)
    (val (Q.u b)) ((dnCells P.r P.off).map (val (P.u b))) [] old s.2
  rw [List.nil_append, ← msgDown_eq, List.length_nil, ← setDown_eq] at hP
  rw [List.append_nil, ← msgDown_eq, ← setDown_eq] at hQ
  have e : (setDown P.r P.off (recv (msgDown P Q b) old) (s.1, 0)).2 = ((dnCells P.r P.off).map (val (P.u b))).length := by
    rw [hP.1]; simp
  rw [← e] at hQ
  refine ⟨?_, hP.2.1, hP.2.2, hQ.2.1, hQ.2.2⟩
  show (setDown Q.r Q.off (recv (msgDown P Q b) old) (s.2, (setDown P.r P.off (recv (msgDown P Q b) old) (s.1, 0)).2)).2 = _
  rw [hQ.1, e, msgDown_eq]; simp

/-- The value a position of the orbital buffer should have: `y` counted as in block `b`. -/
def want (b n a i y : ℤ) : K :=
  if y < P.r.os then P.u (b - 1) (n, a, y + P.r.onx, i)
  else if y ≤ P.r.oe then P.u b (n, a, y, i) else P.u (b + 1) (n, a, y - P.r.onx, i)

theorem want_cell (h : 0 < P.r.onx) {b n a i y : ℤ} (h0 : P.r.os - P.r.onx ≤ y) (h1 : y ≤ P.r.oe + P.r.onx) :
    want P b n a i y = P.cell n a i (b * P.r.onx + (y - P.r.os)) := by
  unfold want Part.cell Rows.oe at *
  have key : ∀ (q t : ℤ), 0 ≤ t → t < P.r.onx → b * P.r.onx + (y - P.r.os) = q * P.r.onx + t →
      (b * P.r.onx + (y - P.r.os)) / P.r.onx = q ∧ (b * P.r.onx + (y - P.r.os)) % P.r.onx = t := by
    intro q t ht0 ht1 e
    rw [e, add_comm]
    exact ⟨by rw [Int.add_mul_ediv_right _ _ (by omega), Int.ediv_eq_zero_of_lt ht0 ht1]; omega,
      by rw [Int.add_mul_emod_self_right, Int.emod_eq_of_lt ht0 ht1]⟩
  split_ifs with c1 c2
  · obtain ⟨e1, e2⟩ := key (b - 1) (y - P.r.os + P.r.onx) (by omega) (by omega) (by ring)
    rw [e1, e2]; congr 4; ring
  · obtain ⟨e1, e2⟩ := key b (y - P.r.os) (by omega) (by omega) rfl
    rw [e1, e2]; congr 4; ring
  · obtain ⟨e1, e2⟩ := key (b + 1) (y - P.r.os - P.r.onx) (by omega) (by omega) (by ring)
    rw [e1, e2]; congr 4; ring

/-- One array after the three writes, in one of the two orders. `H1` is the array after
the own cells, `H2` after the message from the left, `H3` after the one from the right. -/
theorem three {ol ou : ℤ → ℤ → ℤ} (hfit : P.Fits)
    {b : ℤ} {H1 H2 H3 : Buf K}
    (own : ∀ c ∈ cells P.r ol ou, H1 (ownPos P.r P.off c) = val (P.u b) c)
    (up : ∀ c ∈ upCells P.r P.off, H2 (upPos P.r P.off c) = val (P.u (b - 1)) c)
    (dn : ∀ c ∈ dnCells P.r P.off, H3 (dnPos P.r P.off c) = val (P.u (b + 1)) c)
    {F : Buf K}
    (hF : (F = H3 ∧ (∀ x, (∀ c ∈ upCells P.r P.off, x ≠ upPos P.r P.off c) → H2 x = H1 x) ∧
        ∀ x, (∀ c ∈ dnCells P.r P.off, x ≠ dnPos P.r P.off c) → H3 x = H2 x) ∨
      (F = H2 ∧ (∀ x, (∀ c ∈ dnCells P.r P.off, x ≠ dnPos P.r P.off c) → H3 x = H1 x) ∧
        ∀ x, (∀ c ∈ upCells P.r P.off, x ≠ upPos P.r P.off c) → H2 x = H3 x))
    {n a i y : ℤ} (hr : P.r.Has n a i)
    (h0 : ol a i ≤ y ∨ y < P.r.os) (h0' : P.r.os - P.r.xgh - P.off (a, i) ≤ y ∨ P.r.os ≤ y)
    (h1 : y ≤ ou a i ∨ P.r.oe < y) (h1' : y ≤ P.r.oe + 1 + P.r.xgh - P.off (a, i) ∨ y ≤ P.r.oe) :
    F (n, a, i, y + if P.off (a, i) > 0 then P.r.onx else 0) = want P b n a i y := by
  obtain ⟨hx, hg, hf⟩ := hfit
  have hfa := hf a i hr.2.1.1 hr.2.1.2 hr.2.2.1 hr.2.2.2
  set sh : ℤ := if P.off (a, i) > 0 then P.r.onx else 0 with hsh
  -- positions of the three writers
  have memUp : ∀ y', y' = y → y < P.r.os → (n, a, i, y' + P.r.onx) ∈ upCells P.r P.off := by
    rintro y' rfl hlt
    unfold upCells
    rw [mem_cells]
    refine ⟨hr, ?_, ?_⟩ <;> unfold Rows.oe at * <;> omega
  have memDn : P.r.oe < y → (n, a, i, y - P.r.onx) ∈ dnCells P.r P.off := by
    intro hlt
    unfold dnCells
    rw [mem_cells]
    refine ⟨hr, ?_, ?_⟩ <;> unfold Rows.oe at * <;> omega
  have posUp : upPos P.r P.off (n, a, i, y + P.r.onx) = (n, a, i, y + sh) := by
    simp only [upPos, hsh, Prod.mk.injEq, true_and]
    split_ifs <;> omega
  have posDn : dnPos P.r P.off (n, a, i, y - P.r.onx) = (n, a, i, y + sh) := by
    simp only [dnPos, hsh, Prod.mk.injEq, true_and]
    split_ifs <;> omega
  have posOwn : ownPos P.r P.off (n, a, i, y) = (n, a, i, y + sh) := rfl
  have notUp : P.r.os ≤ y → ∀ c ∈ upCells P.r P.off, ((n, a, i, y + sh) : ℤ × ℤ × ℤ × ℤ) ≠ upPos P.r P.off c := by
    rintro hy ⟨n', a', i', o'⟩ hc e
    rw [← posUp] at e
    have := upPos_inj _ _ e
    rw [← this] at hc
    unfold upCells at hc
    rw [mem_cells] at hc
    have := hc.2.2
    unfold Rows.oe at *; omega
  have notDn : y ≤ P.r.oe → ∀ c ∈ dnCells P.r P.off, ((n, a, i, y + sh) : ℤ × ℤ × ℤ × ℤ) ≠ dnPos P.r P.off c := by
    rintro hy ⟨n', a', i', o'⟩ hc e
    rw [← posDn] at e
    have := dnPos_inj _ _ e
    rw [← this] at hc
    unfold dnCells at hc
    rw [mem_cells] at hc
    have := hc.2.1
    unfold Rows.oe at *; omega
  have vUp : y < P.r.os → H2 (n, a, i, y + sh) = want P b n a i y := by
    intro hlt
    rw [← posUp, up _ (memUp y rfl hlt)]
    unfold want val
    rw [if_pos hlt]
  have vDn : P.r.oe < y → H3 (n, a, i, y + sh) = want P b n a i y := by
    intro hlt
    rw [← posDn, dn _ (memDn hlt)]
    unfold want val
    rw [if_neg (by unfold Rows.oe at *; omega), if_neg (by omega)]
  have vOwn : P.r.os ≤ y → y ≤ P.r.oe → H1 (n, a, i, y + sh) = want P b n a i y := by
    intro h h'
    rw [← posOwn, own _ (by rw [mem_cells]; exact ⟨hr, by omega, by omega⟩)]
    unfold want val
    rw [if_neg (by omega), if_pos h']
  rcases hF with ⟨rfl, f1, f2⟩ | ⟨rfl, f1, f2⟩
  · by_cases hlt : y < P.r.os
    · rw [f2 _ (notDn (by unfold Rows.oe at *; omega)), vUp hlt]
    · by_cases hle : y ≤ P.r.oe
      · rw [f2 _ (notDn hle), f1 _ (notUp (by omega)), vOwn (by omega) hle]
      · exact vDn (by omega)
  · by_cases hlt : y < P.r.os
    · exact vUp hlt
    · by_cases hle : y ≤ P.r.oe
      · rw [f2 _ (notUp (by omega)), f1 _ (notDn hle), vOwn (by omega) hle]
      · rw [f2 _ (notUp (by omega)), vDn (by omega)]

variable {P Q}

theorem fill_fst {own : Rows → (ℤ × ℤ → ℤ) → Var K → Buf K → Buf K} {ol ou : ℤ → ℤ → ℤ} (hfit : P.Fits)
    (b : ℤ) (s : Buf K × Buf K)
    (hown : ∀ c ∈ cells P.r ol ou, own P.r P.off (P.u b) s.1 (ownPos P.r P.off c) = val (P.u b) c)
    (first : Bool) (old0 old1 : ℕ → K)
    {n a i y : ℤ} (hr : P.r.Has n a i)
    (h0 : ol a i ≤ y ∨ y < P.r.os) (h0' : P.r.os - P.r.xgh - P.off (a, i) ≤ y ∨ P.r.os ≤ y)
    (h1 : y ≤ ou a i ∨ P.r.oe < y) (h1' : y ≤ P.r.oe + 1 + P.r.xgh - P.off (a, i) ∨ y ≤ P.r.oe) :
    (fill P Q own first old0 old1 b s).1 (n, a, i, y + if P.off (a, i) > 0 then P.r.onx else 0) =
      want P b n a i y := by
  set s' : Buf K × Buf K := (own P.r P.off (P.u b) s.1, own Q.r Q.off (Q.u b) s.2) with hs'
  cases first with
  | true =>
    obtain ⟨-, u1, u2, -, -⟩ := receiveUp P Q (b - 1) old0 s'
    obtain ⟨-, d1, d2, -, -⟩ := receiveDown P Q (b + 1) old1
      (receive (setUp P.r P.off) (setUp Q.r Q.off) (recv (msgUp P Q (b - 1)) old0) s').1
    exact three P hfit (H1 := s'.1) hown u1 d1 (.inl ⟨rfl, u2, d2⟩) hr h0 h0' h1 h1'
  | false =>
    obtain ⟨-, d1, d2, -, -⟩ := receiveDown P Q (b + 1) old1 s'
    obtain ⟨-, u1, u2, -, -⟩ := receiveUp P Q (b - 1) old0
      (receive (setDown P.r P.off) (setDown Q.r Q.off) (recv (msgDown P Q (b + 1)) old1) s').1
    exact three P hfit (H1 := s'.1) hown u1 d1 (.inr ⟨rfl, d2, u2⟩) hr h0 h0' h1 h1'

theorem fill_snd {own : Rows → (ℤ × ℤ → ℤ) → Var K → Buf K → Buf K} {ol ou : ℤ → ℤ → ℤ} (hfit : Q.Fits)
    (b : ℤ) (s : Buf K × Buf K)
    (hown : ∀ c ∈ cells Q.r ol ou, own Q.r Q.off (Q.u b) s.2 (ownPos Q.r Q.off c) = val (Q.u b) c)
    (first : Bool) (old0 old1 : ℕ → K)
    {n a i y : ℤ} (hr : Q.r.Has n a i)
    (h0 : ol a i ≤ y ∨ y < Q.r.os) (h0' : Q.r.os - Q.r.xgh - Q.off (a, i) ≤ y ∨ Q.r.os ≤ y)
    (h1 : y ≤ ou a i ∨ Q.r.oe < y) (h1' : y ≤ Q.r.oe + 1 + Q.r.xgh - Q.off (a, i) ∨ y ≤ Q.r.oe) :
    (fill P Q own first old0 old1 b s).2 (n, a, i, y + if Q.off (a, i) > 0 then Q.r.onx else 0) =
      want Q b n a i y := by
  set s' : Buf K × Buf K := (own P.r P.off (P.u b) s.1, own Q.r Q.off (Q.u b) s.2) with hs'
  cases first with
  | true =>
    obtain ⟨-, -, -, u1, u2⟩ := receiveUp P Q (b - 1) old0 s'
    obtain ⟨-, -, -, d1, d2⟩ := receiveDown P Q (b + 1) old1
      (receive (setUp P.r P.off) (setUp Q.r Q.off) (recv (msgUp P Q (b - 1)) old0) s').1
    exact three Q hfit (H1 := s'.2) hown u1 d1 (.inl ⟨rfl, u2, d2⟩) hr h0 h0' h1 h1'
  | false =>
    obtain ⟨-, -, -, d1, d2⟩ := receiveDown P Q (b + 1) old1 s'
    obtain ⟨-, -, -, u1, u2⟩ := receiveUp P Q (b - 1) old0
      (receive (setDown P.r P.off) (setDown Q.r Q.off) (recv (msgDown P Q (b + 1)) old1) s').1
    exact three Q hfit (H1 := s'.2) hown u1 d1 (.inr ⟨rfl, d2, u2⟩) hr h0 h0' h1 h1'

theorem ownCC_hit (u : Var K) (b : Buf K) :
    ∀ c ∈ cells r (fun a i => max r.os (r.os - r.xgh - off (a, i))) (fun a i => min r.oe (r.oe + 1 + r.xgh - off (a, i))),
      ownCC r off u b (ownPos r off c) = val u c := by
  rw [ownCC_eq]
  exact (upd_fold _ (ownPos r off) (val u) b ((nodup_cells _ _ _).map_on fun _ _ _ _ h => ownPos_inj _ _ h)).1
theorem ownFC_hit (u : Var K) (b : Buf K) :
    ∀ c ∈ cells r (fun _ _ => r.os) (fun _ _ => r.oe), ownFC r off u b (ownPos r off c) = val u c := by
  rw [ownFC_eq]
  exact (upd_fold _ (ownPos r off) (val u) b ((nodup_cells _ _ _).map_on fun _ _ _ _ h => ownPos_inj _ _ h)).1

/-- The buffers hold the cells of the ring: both arrays, cell-centred exchange. -/
theorem fillCC_fst (hfit : P.Fits) (first : Bool) (old0 old1 : ℕ → K) (b : ℤ) (s : Buf K × Buf K) {n a i y : ℤ}
    (hr : P.r.Has n a i) (h0 : P.r.os - P.r.xgh - P.off (a, i) ≤ y) (h1 : y ≤ P.r.oe + 1 + P.r.xgh - P.off (a, i)) :
    (fill P Q ownCC first old0 old1 b s).1 (n, a, i, y + if P.off (a, i) > 0 then P.r.onx else 0) =
      P.cell n a i (b * P.r.onx + (y - P.r.os)) := by
  have := hfit.2.2 a i hr.2.1.1 hr.2.1.2 hr.2.2.1 hr.2.2.2
  rw [fill_fst hfit b s (ownCC_hit _ _ _ _) first old0 old1 hr (by omega) (by omega) (by omega) (by omega)]
  exact want_cell P hfit.1 (by omega) (by omega)
theorem fillCC_snd (hfit : Q.Fits) (first : Bool) (old0 old1 : ℕ → K) (b : ℤ) (s : Buf K × Buf K) {n a i y : ℤ}
    (hr : Q.r.Has n a i) (h0 : Q.r.os - Q.r.xgh - Q.off (a, i) ≤ y) (h1 : y ≤ Q.r.oe + 1 + Q.r.xgh - Q.off (a, i)) :
    (fill P Q ownCC first old0 old1 b s).2 (n, a, i, y + if Q.off (a, i) > 0 then Q.r.onx else 0) =
      Q.cell n a i (b * Q.r.onx + (y - Q.r.os)) := by
  have := hfit.2.2 a i hr.2.1.1 hr.2.1.2 hr.2.2.1 hr.2.2.2
  rw [fill_snd hfit b s (ownCC_hit _ _ _ _) first old0 old1 hr (by omega) (by omega) (by omega) (by omega)]
  exact want_cell Q hfit.1 (by omega) (by omega)
/-- The same for the face-centred exchange, which keeps all own cells. -/
theorem fillFC_fst (hfit : P.Fits) (first : Bool) (old0 old1 : ℕ → K) (b : ℤ) (s : Buf K × Buf K) {n a i y : ℤ}
    (hr : P.r.Has n a i) (h0 : P.r.os - P.r.xgh - P.off (a, i) ≤ y ∨ P.r.os ≤ y)
    (h1 : y ≤ P.r.oe + 1 + P.r.xgh - P.off (a, i) ∨ y ≤ P.r.oe) :
    (fill P Q ownFC first old0 old1 b s).1 (n, a, i, y + if P.off (a, i) > 0 then P.r.onx else 0) =
      P.cell n a i (b * P.r.onx + (y - P.r.os)) := by
  have := hfit.2.2 a i hr.2.1.1 hr.2.1.2 hr.2.2.1 hr.2.2.2
  have := hfit.1; have := hfit.2.1
  rw [fill_fst hfit b s (ownFC_hit _ _ _ _) first old0 old1 hr (by omega) (by omega) (by omega) (by omega)]
  exact want_cell P hfit.1 (by omega) (by unfold Rows.oe at *; omega)
theorem fillFC_snd (hfit : Q.Fits) (first : Bool) (old0 old1 : ℕ → K) (b : ℤ) (s : Buf K × Buf K) {n a i y : ℤ}
    (hr : Q.r.Has n a i) (h0 : Q.r.os - Q.r.xgh - Q.off (a, i) ≤ y ∨ Q.r.os ≤ y)
    (h1 : y ≤ Q.r.oe + 1 + Q.r.xgh - Q.off (a, i) ∨ y ≤ Q.r.oe) :
    (fill P Q ownFC first old0 old1 b s).2 (n, a, i, y + if Q.off (a, i) > 0 then Q.r.onx else 0) =
      Q.cell n a i (b * Q.r.onx + (y - Q.r.os)) := by
  have := hfit.2.2 a i hr.2.1.1 hr.2.1.2 hr.2.2.1 hr.2.2.2
  have := hfit.1; have := hfit.2.1
  rw [fill_snd hfit b s (ownFC_hit _ _ _ _) first old0 old1 hr (by omega) (by omega) (by omega) (by omega)]
  exact want_cell Q hfit.1 (by omega) (by unfold Rows.oe at *; omega)

end

/-! ### Remapping -/
section
variable {K : Type} [Field K] [LinearOrder K]

theorem remapFlux_congr (ppm : Bool) (eps : K) (osgn : Bool) (q q' : ℤ → K) (x x' w : ℤ) (hw : (if ppm then 2 else 1) ≤ w)
    (h : ∀ t, -w ≤ t → t ≤ w → q (x + t) = q' (x' + t)) :
    remapFlux ppm eps osgn q x = remapFlux ppm eps osgn q' x' := by
  have e0 := h 0 (by split_ifs at hw <;> omega) (by split_ifs at hw <;> omega)
  have e1 := h 1 (by split_ifs at hw <;> omega) (by split_ifs at hw <;> omega)
  have m1 := h (-1) (by split_ifs at hw <;> omega) (by split_ifs at hw <;> omega)
  rw [add_zero, add_zero] at e0
  rw [← sub_eq_add_neg, ← sub_eq_add_neg] at m1
  unfold remapFlux
  cases ppm with
  | false =>
    simp only [Bool.false_eq_true, if_false]
    unfold fluxPlm
    rw [e0, e1, m1]
  | true =>
    simp only [if_true] at hw ⊢
    have e2 := h 2 (by omega) (by omega)
    have m2 := h (-2) (by omega) (by omega)
    rw [← sub_eq_add_neg, ← sub_eq_add_neg] at m2
    have : ppmCell q x = ppmCell q' x' := by unfold ppmCell; rw [e0, e1, m1, e2, m2]
    unfold fluxPpm
    rw [this, e0]

variable (ppm : Bool) (r : Rows) (off : ℤ × ℤ → ℤ) (eps : ℤ × ℤ → K)

theorem calcCC_val (h : Buf K) (u : Var K) {n a i o : ℤ} (hr : r.Has n a i) (h0 : r.os ≤ o) (h1 : o ≤ r.oe) :
    calcCC ppm r off eps h u (n, a, o, i) =
      let g : ℤ := if off (a, i) > 0 then 1 else 0
      let F := fun o => remapFlux ppm (eps (a, i)) (off (a, i) > 0) (fun x => h (n, a, i, x)) (o + (g * r.onx - off (a, i)))
      h (n, a, i, o + (g * r.onx - off (a, i) + g)) - (F (o + 1) - F o) := by
  set v : ℤ × ℤ × ℤ × ℤ → K := fun c =>
    let g : ℤ := if off (c.2.1, c.2.2.1) > 0 then 1 else 0
    let F := fun o => remapFlux ppm (eps (c.2.1, c.2.2.1)) (off (c.2.1, c.2.2.1) > 0) (fun x => h (c.1, c.2.1, c.2.2.1, x))
      (o + (g * r.onx - off (c.2.1, c.2.2.1)))
    h (c.1, c.2.1, c.2.2.1, c.2.2.2 + (g * r.onx - off (c.2.1, c.2.2.1) + g)) - (F (c.2.2.2 + 1) - F c.2.2.2) with hv
  have e : calcCC ppm r off eps h u = (cells r (fun _ _ => r.os) (fun _ _ => r.oe)).foldl
      (fun u c => Function.update u (c.1, c.2.1, c.2.2.2, c.2.2.1) (v c)) u := by
    rw [← rowLoop_eq]
    unfold calcCC
    congr 1
    funext n a i
    by_cases hp : off (a, i) > 0 <;> simp only [hp, hv, decide_true, decide_false, if_true, if_false, Bool.false_eq_true]
  rw [e]
  have := (upd_fold (cells r (fun _ _ => r.os) (fun _ _ => r.oe)) (fun c => (c.1, c.2.1, c.2.2.2, c.2.2.1)) v u
    ((nodup_cells _ _ _).map_on (by
      rintro ⟨_, _, _, _⟩ _ ⟨_, _, _, _⟩ _ he
      simp only [Prod.mk.injEq] at he ⊢
      tauto))).1 (n, a, i, o) (by rw [mem_cells]; exact ⟨hr, h0, h1⟩)
  rw [this]
end
end Verif.Orbital
