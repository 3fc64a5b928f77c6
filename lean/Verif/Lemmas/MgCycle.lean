import Verif.Model.MgCycle
import Verif.Lemmas.MultigridTransfer
import Mathlib.Tactic.Linarith
import Mathlib.Tactic.FieldSimp
import Mathlib.Tactic.Ring

/-!
# The V-cycle leaves solutions alone: supporting lemmas
-/
namespace Verif.Mg
open Verif.Grid (A3)
open scoped Classical

theorem Box.In.ext {b : Box} {k j i : ℤ} (h : b.In k j i) : b.Ext k j i := by
  obtain ⟨⟨_, _⟩, ⟨_, _⟩, _, _⟩ := h
  exact ⟨⟨by omega, by omega⟩, ⟨by omega, by omega⟩, by omega, by omega⟩

theorem FillsGhosts.idem {b : Box} {B : A3 ℝ → A3 ℝ} (h : FillsGhosts b B) (a : A3 ℝ) : B (B a) = B a := by
  funext q
  by_cases hq : b.Ext q.1 q.2.1 q.2.2
  · exact h.ghosts _ _ (fun r hr => h.active a r hr) q hq
  · exact h.rest _ q hq

theorem sweep_solves {omega h : ℝ} (hh : h ≠ 0) {b : Box} {u src : A3 ℝ} (hs : Solves h b u src) (p : ℤ) :
    sweep omega h b p src u = u := by
  funext q
  obtain ⟨k, j, i⟩ := q
  unfold sweep
  split_ifs with hc
  · have := hs k j i hc.1
    unfold PoissonAt at this
    have h2 : h ^ 2 ≠ 0 := pow_ne_zero 2 hh
    rw [div_eq_iff h2] at this
    simp only [relaxed, gaussSeidel]
    have e : (nbrSum u k j i - h ^ 2 * src (k, j, i)) / 6 = u (k, j, i) := by linarith
    rw [e]; ring
  · rfl

theorem dxAt_ne {rdx : ℝ} (h : rdx ≠ 0) (r : ℤ) : dxAt rdx r ≠ 0 := by
  unfold dxAt
  split_ifs
  · exact mul_ne_zero h (by positivity)
  · exact div_ne_zero h (by positivity)

theorem smooth_solves {omega rdx : ℝ} (hh : rdx ≠ 0) {rlev : ℤ} {b : Box} {u src : A3 ℝ}
    (hs : Solves (dxAt rdx rlev) b u src) (c col : ℕ) : smooth omega rdx rlev c b col src u = u := by
  rw [smooth_eq]; exact sweep_solves (dxAt_ne hh rlev) hs _

theorem defect_solves {rdx : ℝ} {rlev : ℤ} {b : Box} {u src : A3 ℝ}
    (hs : Solves (dxAt rdx rlev) b u src) : defect rdx rlev b u src (fun _ => 0) = fun _ => 0 := by
  funext q
  rw [defect_at]
  split_ifs with hq
  · have := hs _ _ _ hq
    unfold PoissonAt at this
    obtain ⟨k, j, i⟩ := q
    simp only at this ⊢
    rw [this]; ring
  · rfl

theorem fasRhs_solves {rdx : ℝ} {rlev : ℤ} {b : Box} {u src : A3 ℝ} (h0 : ∀ q, b.In q.1 q.2.1 q.2.2 → src q = 0) :
    Solves (dxAt rdx rlev) b u (fasRhs rdx rlev b u src) := by
  intro k j i hq
  unfold PoissonAt
  rw [fasRhs_at]
  have e := h0 (k, j, i) hq
  simp only [hq, if_true, e, zero_add]

theorem mean8_zero (b : Box) (q : ℤ × ℤ × ℤ) : mean8 b (fun _ => 0) q = 0 := by
  simp [mean8]

namespace Cfg
variable (c : Cfg)

/-- The spacing of level `l`. -/
noncomputable def dx (l : ℕ) : ℝ := dxAt c.h (c.rlev l)

/-- Level `l` is at rest: ghost cells are filled and the equation is solved. -/
def Rest (l : ℕ) (s : Arrays) : Prop := c.bnd l (s.u l) = s.u l ∧ Solves (c.dx l) (c.box l) (s.u l) (s.src l)

variable {c}
theorem smoothLevel_rest (hh : c.h ≠ 0) {l : ℕ} {s : Arrays} (hs : Solves (c.dx l) (c.box l) (s.u l) (s.src l)) (col : ℕ) :
    c.smoothLevel l col s = s := by
  unfold smoothLevel
  rw [smooth_solves hh hs, Function.update_eq_self]

theorem bndLevel_rest {l : ℕ} {s : Arrays} (hs : c.bnd l (s.u l) = s.u l) : c.bndLevel l s = s := by
  unfold bndLevel
  rw [hs, Function.update_eq_self]

theorem passDown_rest (hh : c.h ≠ 0) {l : ℕ} {s : Arrays} (hs : c.Rest l s) : c.passDown l s = s := by
  unfold passDown
  simp only [smoothLevel_rest hh hs.2, bndLevel_rest hs.1, ite_self]

theorem passUp_rest (hh : c.h ≠ 0) {l : ℕ} {s : Arrays} (hs : c.Rest l s) : c.passUp l s = s := by
  unfold passUp
  simp only [bndLevel_rest hs.1, smoothLevel_rest hh hs.2, ite_self]

theorem iter_fix {α : Type} {f : α → α} {x : α} (h : f x = x) (n : ℕ) : f^[n] x = x :=
  Function.iterate_fixed h n

/-- After restriction from a level at rest. -/
theorem restrictLevel_rest {l : ℕ} {s : Arrays} (hs : c.Rest (l+1) s) :
    (∀ q, (c.box l).In q.1 q.2.1 q.2.2 → (c.restrictLevel l s).src l q = 0) ∧
    (∀ q, (c.box l).In q.1 q.2.1 q.2.2 → (c.restrictLevel l s).u l q = if c.ffas then mean8 (c.box l) (s.u (l+1)) q else 0) ∧
    (c.ffas = false → (c.restrictLevel l s).u l = fun _ => 0) ∧
    (∀ m, m ≠ l → (c.restrictLevel l s).u m = s.u m ∧ (c.restrictLevel l s).src m = s.src m) ∧
    (c.restrictLevel l s).uold = s.uold := by
  unfold restrictLevel
  rw [defect_solves hs.2]
  refine ⟨?_, ?_, ?_, ?_, ?_⟩
  · intro q hq
    have : (restrict (c.box l) (fun _ => 0) (s.src l)) q = 0 := by
      rw [restrict_at, if_pos hq, mean8_zero]
    cases c.ffas <;> simpa using this
  · intro q hq
    cases hf : c.ffas
    · simp
    · simp [restrict_at, hq]
  · intro hf; simp [hf]
  · intro m hm
    cases hf : c.ffas <;> simp [hm]
  · cases hf : c.ffas <;> simp

variable (c)
/-- What the boundary functions have to satisfy. -/
structure Bounds : Prop where
  fills : ∀ l, FillsGhosts (c.box l) (c.bnd l)
  zero : c.ffas = false ∨ c.fsub = true → ∀ l, c.bnd l (fun _ => 0) = fun _ => 0

/-- Level `l` on arrival from the finer level, or at the start of the cycle. -/
def Ready (start l : ℕ) (s : Arrays) : Prop :=
  if l = start then Solves (c.dx l) (c.box l) (c.bnd l (s.u l)) (s.src l)
  else (∀ q, (c.box l).In q.1 q.2.1 q.2.2 → s.src l q = 0) ∧ (c.ffas = false → s.u l = fun _ => 0)

/-- The correction of level `l` vanishes. -/
def NoCorr (l : ℕ) (s : Arrays) : Prop :=
  ∀ q, (c.box l).Ext q.1 q.2.1 q.2.2 → c.bnd l (s.u l) q - (if c.ffas then s.uold l q else 0) = 0

/-- Levels above `l` are the same. -/
def SameAbove (l : ℕ) (s s' : Arrays) : Prop :=
  ∀ m, l < m → s'.u m = s.u m ∧ s'.uold m = s.uold m ∧ s'.src m = s.src m

variable {c}
theorem solves_zero {h : ℝ} {b : Box} {src : A3 ℝ} (h0 : ∀ q, b.In q.1 q.2.1 q.2.2 → src q = 0) :
    Solves h b (fun _ => 0) src := by
  intro k j i hq
  unfold PoissonAt
  rw [h0 (k, j, i) hq, nbrSum_eq]; simp

/-- The state in which the smoothing passes of `toCoarser` start. -/
theorem prepare (hB : c.Bounds) {start l : ℕ} (hl : l ≤ start) {s : Arrays} (hr : c.Ready start l s) :
    let s' := if c.ffas && decide (l < start) then c.fasLevel l (c.bndLevel l s) else c.bndLevel l s
    c.Rest l s' ∧ s'.u l = c.bnd l (s.u l) ∧ (l < start → c.NoCorr l s') ∧ (l = start → s'.src l = s.src l) ∧
      (∀ m, m ≠ l → s'.u m = s.u m ∧ s'.uold m = s.uold m ∧ s'.src m = s.src m) := by
  intro s'
  have hid := (hB.fills l).idem (s.u l)
  by_cases hls : l = start
  · subst hls
    have e : s' = c.bndLevel l s := by simp [s']
    rw [e]
    unfold Ready at hr
    rw [if_pos rfl] at hr
    refine ⟨⟨?_, ?_⟩, ?_, fun h => absurd h (lt_irrefl _), fun _ => rfl, ?_⟩
    · simp [bndLevel, hid]
    · simpa [bndLevel] using hr
    · simp [bndLevel]
    · intro m hm; simp [bndLevel, hm]
  · have hlt : l < start := by omega
    unfold Ready at hr
    rw [if_neg hls] at hr
    obtain ⟨h0, hu⟩ := hr
    cases hf : c.ffas
    · have e : s' = c.bndLevel l s := by simp [s', hf]
      have hz := hB.zero (Or.inl hf) l
      have hu0 := hu hf
      rw [e]
      refine ⟨⟨?_, ?_⟩, ?_, fun _ => ?_, fun h => absurd h hls, ?_⟩
      · simp [bndLevel, hid]
      · simp only [bndLevel, Function.update_self, hu0, hz]
        exact solves_zero h0
      · simp [bndLevel]
      · intro q _; simp [bndLevel, hf, hu0, hz]
      · intro m hm; simp [bndLevel, hm]
    · have e : s' = c.fasLevel l (c.bndLevel l s) := by simp [s', hf, hlt]
      rw [e]
      refine ⟨⟨?_, ?_⟩, ?_, fun _ => ?_, fun h => absurd h hls, ?_⟩
      · simp [bndLevel, fasLevel, hid]
      · simp only [fasLevel, bndLevel, Function.update_self]
        exact fasRhs_solves h0
      · simp [bndLevel, fasLevel]
      · intro q _; simp [bndLevel, fasLevel, hf, hid]
      · intro m hm; simp [bndLevel, fasLevel, hm]

theorem fine_box (l : ℕ) : (c.box l).fine = c.box (l+1) := by
  simp only [Box.fine, box, pow_succ]
  congr 1 <;> ring

theorem toCoarser_rest (hB : c.Bounds) (hh : c.h ≠ 0) {start l : ℕ} (hl : l + 1 ≤ start) {s : Arrays}
    (hr : c.Ready start (l+1) s) :
    let s' := c.toCoarser start l s
    c.Rest (l+1) s' ∧ s'.u (l+1) = c.bnd (l+1) (s.u (l+1)) ∧ (l + 1 < start → c.NoCorr (l+1) s') ∧
      (l + 1 = start → s'.src (l+1) = s.src (l+1)) ∧ c.Ready start l s' ∧ SameAbove (l+1) s s' ∧
      (c.ffas = true → 8 * (c.box l).total (s'.u l) = (c.box (l+1)).total (s.u (l+1))) := by
  intro s'
  obtain ⟨p1, p2, p3, p4, p5⟩ := prepare hB hl hr
  set s1 := if c.ffas && decide (l + 1 < start) then c.fasLevel (l+1) (c.bndLevel (l+1) s) else c.bndLevel (l+1) s with hs1
  have e : s' = c.restrictLevel l s1 := by
    show c.restrictLevel l ((c.passDown (l+1))^[c.npre] s1) = _
    rw [iter_fix (passDown_rest hh p1)]
  obtain ⟨r1, r2, r3, r4, r5⟩ := restrictLevel_rest (c := c) p1
  rw [e]
  have hne : l + 1 ≠ l := by omega
  have hu := (r4 (l+1) hne).1
  have hsrc := (r4 (l+1) hne).2
  refine ⟨⟨?_, ?_⟩, ?_, ?_, ?_, ?_, ?_, ?_⟩
  · rw [hu]; exact p1.1
  · rw [hu, hsrc]; exact p1.2
  · rw [hu, p2]
  · intro h q hq
    rw [hu, r5]; exact p3 h q hq
  · intro h; rw [hsrc, p4 h]
  · unfold Ready
    rw [if_neg (by omega)]
    exact ⟨r1, r3⟩
  · intro m hm
    obtain ⟨a1, a2, a3⟩ := p5 m (by omega)
    obtain ⟨b1, b2⟩ := r4 m (by omega)
    exact ⟨b1.trans a1, by rw [r5, a2], b2.trans a3⟩
  · intro hf
    have e1 : (c.box l).total ((c.restrictLevel l s1).u l) = (c.box l).total (mean8 (c.box l) (s1.u (l+1))) := by
      refine Finset.sum_congr rfl fun q hq => ?_
      rw [r2 q ((mem_cells _ _).mp hq), hf]; simp
    rw [e1, total_fine, fine_box, p2]
    refine Finset.sum_congr rfl fun q hq => ?_
    exact (hB.fills (l+1)).active _ q ((mem_cells _ _).mp hq)

theorem down_rest (hB : c.Bounds) (hh : c.h ≠ 0) (start : ℕ) : ∀ (l : ℕ) (s : Arrays), l ≤ start → c.Ready start l s →
    (∀ m, l < m → m ≤ start → c.Rest m s ∧ (m < start → c.NoCorr m s)) →
    let s' := c.down start l s
    (∀ m, 0 < m → m ≤ start → c.Rest m s' ∧ (m < start → c.NoCorr m s')) ∧ c.Ready start 0 s' ∧
      (0 < start → s'.u start = if l = start then c.bnd start (s.u start) else s.u start) ∧
      (0 < start → s'.src start = s.src start) ∧
      (c.ffas = true → (c.box l).total (s.u l) = 0 → (c.box 0).total (s'.u 0) = 0) := by
  intro l
  induction l with
  | zero =>
    intro s _ hr hm s'
    refine ⟨fun m a b => hm m a b, hr, fun h => ?_, fun _ => rfl, fun _ h => h⟩
    rw [if_neg (by omega)]; rfl
  | succ l ih =>
    intro s hl hr hm
    obtain ⟨t1, t2, t3, t4, t5, t6, t7⟩ := toCoarser_rest hB hh hl hr
    have hm' : ∀ m, l < m → m ≤ start →
        c.Rest m (c.toCoarser start l s) ∧ (m < start → c.NoCorr m (c.toCoarser start l s)) := by
      intro m h1 h2
      by_cases he : m = l + 1
      · subst he; exact ⟨t1, t3⟩
      · obtain ⟨a1, a2, a3⟩ := t6 m (by omega)
        obtain ⟨b1, b2⟩ := hm m (by omega) h2
        refine ⟨⟨?_, ?_⟩, fun h q hq => ?_⟩
        · rw [a1]; exact b1.1
        · rw [a1, a3]; exact b1.2
        · rw [a1, a2]; exact b2 h q hq
    obtain ⟨u1, u2, u3, u4, u5⟩ := ih (c.toCoarser start l s) (by omega) t5 hm'
    refine ⟨u1, u2, fun h => ?_, fun h => ?_, fun hf h => ?_⟩
    · show (c.down start l (c.toCoarser start l s)).u start = _
      rw [u3 h, if_neg (by omega)]
      split_ifs with he
      · subst he; exact t2
      · exact (t6 start (by omega)).1
    · show (c.down start l (c.toCoarser start l s)).src start = _
      rw [u4 h]
      by_cases he : l + 1 = start
      · subst he; exact t4 rfl
      · exact (t6 start (by omega)).2.2
    · refine u5 hf ?_
      have := t7 hf
      rw [h] at this; linarith

theorem subtractAverage_zero {s : Arrays} (h : c.average s = 0) : c.subtractAverage s = s := by
  unfold subtractAverage
  simp only [h]
  have : ∀ (w : Box) (a : A3 ℝ), w.each (fun k j i a => a (k, j, i) - 0) a = a := by
    intro w a
    funext q
    rw [each_at w _ a a]
    · split_ifs <;> rfl
    · intro st k j i _ h; rw [h]; ring
  rw [this, Function.update_eq_self]

theorem average_total (s : Arrays) (h : (c.box 0).total (s.u 0) = 0) : c.average s = 0 := by
  unfold average
  have e : (∑ q ∈ Finset.Icc (1 : ℤ) c.n3 ×ˢ (Finset.Icc (1 : ℤ) c.n2 ×ˢ Finset.Icc (1 : ℤ) c.n1), s.u 0 q)
      = (c.box 0).total (s.u 0) := by
    simp [Box.total, Box.cells, box]
  rw [e, h]; ring

theorem coarsest_rest (hB : c.Bounds) (hh : c.h ≠ 0) {start : ℕ} (h0 : 0 < start) {s : Arrays}
    (hpos : 0 < c.n1 ∧ 0 < c.n2 ∧ 0 < c.n3)
    (hr : c.Ready start 0 s) (ht : c.ffas = true → c.fsub = true → (c.box 0).total (s.u 0) = 0) :
    let s' := c.coarsest s
    c.NoCorr 0 s' ∧ SameAbove 0 s s' := by
  intro s'
  have hav : c.fsub = true → (c.box 0).total (s.u 0) = 0 := by
    intro hs
    cases hf : c.ffas
    · unfold Ready at hr
      rw [if_neg (by omega)] at hr
      rw [hr.2 hf]; simp [Box.total]
    · exact ht hf hs
  by_cases htriv : (c.fsub && decide (max c.n1 (max c.n2 c.n3) = 1)) = true
  · simp only [Bool.and_eq_true, decide_eq_true_eq] at htriv
    obtain ⟨hs, hn⟩ := htriv
    have hn1 : c.n1 = 1 := by omega
    have hn2 : c.n2 = 1 := by omega
    have hn3 : c.n3 = 1 := by omega
    have hz := hB.zero (Or.inr hs) 0
    have hbox : c.box 0 = ⟨1, 1, 1, 1, 1, 1⟩ := by simp [box, hn1, hn2, hn3]
    have hu0 : ∀ q, (c.box 0).In q.1 q.2.1 q.2.2 → s.u 0 q = (fun _ => (0 : ℝ)) q := by
      rintro ⟨k, j, i⟩ hq
      have htot := hav hs
      rw [hbox] at htot hq
      obtain ⟨⟨a1, a2⟩, ⟨a3, a4⟩, a5, a6⟩ := hq
      have : k = 1 ∧ j = 1 ∧ i = 1 := by simp only at *; omega
      obtain ⟨rfl, rfl, rfl⟩ := this
      simpa [Box.total, Box.cells] using htot
    have e : s' = (let s1 := if c.ffas then { c.bndLevel 0 s with uold := Function.update s.uold 0 (c.bnd 0 (s.u 0)) } else s
        { s1 with u := Function.update s1.u 0 (fun _ => 0) }) := by
      simp only [s', coarsest, hs, hn, decide_true, Bool.and_self, if_true]
      cases c.ffas <;> simp [bndLevel]
    rw [e]
    constructor
    · intro q hq
      cases hf : c.ffas
      · simp [hz]
      · simp only [if_true, Function.update_self, hz]
        rw [(hB.fills 0).ghosts _ _ hu0 q hq, hz]; simp
    · intro m hm
      have hm0 : m ≠ 0 := by omega
      cases hf : c.ffas
      · simp [hm0]
      · simp [hm0, bndLevel]
  · have e : s' = (let s1 := if c.fsub then c.subtractAverage s else s
        let s2 := c.bndLevel 0 s1
        let s3 := if c.ffas then c.fasLevel 0 s2 else s2
        let s4 := (c.passDown 0)^[max c.n1 (max c.n2 c.n3)] s3
        if c.fsub then c.subtractAverage s4 else s4) := by
      simp only [s', coarsest, htriv]; simp
    have es : (if c.fsub then c.subtractAverage s else s) = s := by
      cases hs : c.fsub
      · simp
      · simpa using subtractAverage_zero (average_total s (hav hs))
    obtain ⟨p1, p2, p3, _, p5⟩ := prepare hB (Nat.zero_le start) hr
    have ed : (c.ffas && decide (0 < start)) = c.ffas := by simp [h0]
    rw [ed] at p1 p2 p3 p5
    set s3 := if c.ffas = true then c.fasLevel 0 (c.bndLevel 0 s) else c.bndLevel 0 s with hs3
    have e4 : s' = (if c.fsub then c.subtractAverage s3 else s3) := by
      rw [e]
      simp only [es]
      rw [← hs3, iter_fix (passDown_rest hh p1)]
    have hav3 : c.fsub = true → c.average s3 = 0 := by
      intro hs
      apply average_total
      rw [p2, ← hav hs]
      exact Finset.sum_congr rfl fun q hq => (hB.fills 0).active _ q ((mem_cells _ _).mp hq)
    have e5 : s' = s3 := by
      rw [e4]
      cases hs : c.fsub
      · simp
      · simpa using subtractAverage_zero (hav3 hs)
    rw [e5]
    exact ⟨p3 h0, fun m hm => p5 m (by omega)⟩

theorem weight_zero (cubic : Bool) (a b d : ℕ) (ha : a < 2) (hb : b < 2) (hd : d < 2) (s : A3 ℝ) (k j i : ℤ)
    (hs : ∀ k' j' i', |k' - k| ≤ 1 → |j' - j| ≤ 1 → |i' - i| ≤ 1 → s (k', j', i') = 0) :
    weight cubic a b d s k j i = 0 := by
  unfold weight
  split_ifs <;> exact interp_zero _ _ _ _ _ hs _ _ _

theorem pac_zero (cubic : Bool) (b : Box) (fkl fjl fil : ℤ) (src dst : A3 ℝ)
    (h : ∀ q, b.Ext q.1 q.2.1 q.2.2 → src q = 0) : prolongateAndCorrect cubic b fkl fjl fil src dst = dst := by
  funext q
  by_cases hq : ∃ k j i, b.In k j i ∧ ∃ a e d : ℕ, a < 2 ∧ e < 2 ∧ d < 2 ∧ q = finePt b fkl fjl fil k j i a e d
  · obtain ⟨k, j, i, hin, a, e, d, ha, he, hd, rfl⟩ := hq
    rw [pac_at b fkl fjl fil src cubic dst k j i hin a e d ha he hd, weight_zero cubic a e d ha he hd src k j i, add_zero]
    intro k' j' i' h1 h2 h3
    obtain ⟨⟨b1, b2⟩, ⟨b3, b4⟩, b5, b6⟩ := hin
    rw [abs_le] at h1 h2 h3
    exact h (k', j', i') ⟨⟨by simp only; omega, by simp only; omega⟩, ⟨by simp only; omega, by simp only; omega⟩,
      by simp only; omega, by simp only; omega⟩
  · refine pac_out b fkl fjl fil src cubic dst q fun k j i hin a e d ha he hd heq => hq ⟨k, j, i, hin, a, e, d, ha, he, hd, heq⟩

theorem correctLevel_rest {l : ℕ} {s : Arrays} (hn : c.NoCorr l s) :
    ∀ m, m ≠ l → (c.correctLevel l (c.bndLevel l s)).u m = s.u m ∧ (c.correctLevel l (c.bndLevel l s)).uold m = s.uold m
      ∧ (c.correctLevel l (c.bndLevel l s)).src m = s.src m := by
  intro m hm
  unfold correctLevel
  cases hf : c.ffas
  · have hz : ∀ q, (c.box l).Ext q.1 q.2.1 q.2.2 → c.bnd l (s.u l) q = 0 := by
      intro q hq; simpa [hf] using hn q hq
    simp only [Bool.false_eq_true, if_false, bndLevel, Function.update_self]
    rw [pac_zero _ _ _ _ _ _ _ hz]
    by_cases h : m = l + 1
    · subst h; simp
    · simp [h, hm]
  · have hz : ∀ q, (c.box l).Ext q.1 q.2.1 q.2.2 → c.bnd l (s.u l) q - s.uold l q = 0 := by
      intro q hq; simpa [hf] using hn q hq
    simp only [if_true, bndLevel, Function.update_self]
    rw [pac_zero _ _ _ _ _ _ _ hz]
    by_cases h : m = l + 1
    · subst h; simp
    · simp [h, hm]

theorem toFiner_rest (hh : c.h ≠ 0) {l : ℕ} {s : Arrays} (hn : c.NoCorr l s) (hr : c.Rest (l+1) s) :
    ∀ m, m ≠ l → (c.toFiner l s).u m = s.u m ∧ (c.toFiner l s).uold m = s.uold m ∧ (c.toFiner l s).src m = s.src m := by
  have hc := correctLevel_rest hn
  set s1 := c.correctLevel l (c.bndLevel l s) with hs1
  obtain ⟨a1, a2, a3⟩ := hc (l+1) (by omega)
  have hr1 : c.Rest (l+1) s1 := by
    refine ⟨?_, ?_⟩
    · rw [a1]; exact hr.1
    · rw [a1, a3]; exact hr.2
  have e : c.toFiner l s = s1 := by
    unfold toFiner
    simp only [← hs1]
    rw [iter_fix (passUp_rest hh hr1), bndLevel_rest hr1.1, ite_self]
  rw [e]; exact hc

theorem up_rest (hh : c.h ≠ 0) {start : ℕ} {s : Arrays} (hn : ∀ m, m < start → c.NoCorr m s)
    (hr : ∀ m, 0 < m → m ≤ start → c.Rest m s) : ∀ l, l ≤ start →
    ∀ m, l ≤ m → (c.up l s).u m = s.u m ∧ (c.up l s).uold m = s.uold m ∧ (c.up l s).src m = s.src m := by
  intro l
  induction l with
  | zero => intro _ m _; exact ⟨rfl, rfl, rfl⟩
  | succ l ih =>
    intro hl m hm
    have ih' := ih (by omega)
    obtain ⟨a1, a2, a3⟩ := ih' l le_rfl
    obtain ⟨b1, b2, b3⟩ := ih' (l+1) (by omega)
    have hn1 : c.NoCorr l (c.up l s) := by
      intro q hq
      rw [a1, a2]; exact hn l (by omega) q hq
    have hr1 : c.Rest (l+1) (c.up l s) := by
      refine ⟨?_, ?_⟩
      · rw [b1]; exact (hr (l+1) (by omega) hl).1
      · rw [b1, b3]; exact (hr (l+1) (by omega) hl).2
    obtain ⟨d1, d2, d3⟩ := toFiner_rest hh hn1 hr1 m (by omega)
    obtain ⟨f1, f2, f3⟩ := ih' m (by omega)
    exact ⟨d1.trans f1, d2.trans f2, d3.trans f3⟩

theorem vcycle_rest (hB : c.Bounds) (hh : c.h ≠ 0) {start : ℕ} (h0 : 0 < start) (hpos : 0 < c.n1 ∧ 0 < c.n2 ∧ 0 < c.n3)
    (s : Arrays) (hs : Solves (c.dx start) (c.box start) (c.bnd start (s.u start)) (s.src start))
    (ht : c.ffas = true → c.fsub = true → (c.box start).total (s.u start) = 0) :
    (c.vcycle start s).u start = c.bnd start (s.u start) ∧ (c.vcycle start s).src start = s.src start := by
  have hready : c.Ready start start s := by unfold Ready; rw [if_pos rfl]; exact hs
  obtain ⟨d1, d2, d3, d4, d5⟩ := down_rest hB hh start start s le_rfl hready (fun m h1 h2 => by omega)
  obtain ⟨e1, e2⟩ := coarsest_rest hB hh h0 hpos d2 (fun hf hfs => d5 hf (ht hf hfs))
  set s1 := c.down start start s with hs1
  have hn : ∀ m, m < start → c.NoCorr m (c.coarsest s1) := by
    intro m hm
    rcases Nat.eq_zero_or_pos m with rfl | hp
    · exact e1
    · obtain ⟨a1, a2, a3⟩ := e2 m hp
      intro q hq
      rw [a1, a2]; exact (d1 m hp (by omega)).2 hm q hq
  have hr : ∀ m, 0 < m → m ≤ start → c.Rest m (c.coarsest s1) := by
    intro m hp hm
    obtain ⟨a1, a2, a3⟩ := e2 m hp
    refine ⟨?_, ?_⟩
    · rw [a1]; exact (d1 m hp hm).1.1
    · rw [a1, a3]; exact (d1 m hp hm).1.2
  obtain ⟨f1, _, f3⟩ := up_rest hh hn hr start le_rfl start le_rfl
  obtain ⟨a1, _, a3⟩ := e2 start h0
  refine ⟨?_, ?_⟩
  · show (c.up start (c.coarsest s1)).u start = _
    rw [f1, a1, d3 h0, if_pos rfl]
  · show (c.up start (c.coarsest s1)).src start = _
    rw [f3, a3, d4 h0]

end Cfg
end Verif.Mg
