import Verif.Spec.TimeStep
import Verif.Lemmas.Refine
import Mathlib.Tactic.Linarith
import Mathlib.Tactic.Ring
import Mathlib.Tactic.FieldSimp

/-! Helper lemmas for the time step. -/
namespace Verif.TimeStep
open Verif.Grid Verif.Arr
set_option linter.unusedSectionVars false

section
variable {K : Type} [Field K] [LinearOrder K] [IsStrictOrderedRing K]

theorem le_foldl_min (x : K) (l : List K) (a : K) : x ≤ l.foldl min a ↔ x ≤ a ∧ ∀ y ∈ l, x ≤ y := by
  induction l generalizing a with
  | nil => simp
  | cons b l ih => simp only [List.foldl_cons, ih, le_min_iff, List.forall_mem_cons, and_assoc]

theorem le_foldl_map {β : Type} (g : β → K) (x : K) (l : List β) (a : K) :
    x ≤ (l.map g).foldl min a ↔ x ≤ a ∧ ∀ b ∈ l, x ≤ g b := by
  rw [le_foldl_min]
  simp only [List.mem_map, forall_exists_index, and_imp, forall_apply_eq_imp_iff₂]

theorem localDt_foldl (bs : List (Blk K)) (m : Msh K) :
    bs.foldl (fun m b => (⟨m.time, min m.dt b.dt, min m.hyp b.hyp, min m.par b.par, min m.usr b.usr⟩ : Msh K)) m
      = ⟨m.time, (bs.map Blk.dt).foldl min m.dt, (bs.map Blk.hyp).foldl min m.hyp, (bs.map Blk.par).foldl min m.par,
         (bs.map Blk.usr).foldl min m.usr⟩ := by
  induction bs generalizing m with
  | nil => rfl
  | cons b bs ih => simp only [List.foldl_cons, ih, List.map_cons]

/-- What `localDt` computes. -/
def LocalSpec (m : Msh K) (bs : List (Blk K)) (m' : Msh K) : Prop :=
  m'.time = m.time ∧ (∀ x, x ≤ m'.dt ↔ x ≤ 2 * m.dt ∧ ∀ b ∈ bs, x ≤ b.dt) ∧ (∀ x, x ≤ m'.hyp ↔ ∀ b ∈ bs, x ≤ b.hyp) ∧
  (∀ x, x ≤ m'.par ↔ ∀ b ∈ bs, x ≤ b.par) ∧ (∀ x, x ≤ m'.usr ↔ ∀ b ∈ bs, x ≤ b.usr)

theorem localDt_spec (m : Msh K) (bs : List (Blk K)) (h : bs ≠ []) : ∃ m', localDt m bs = some m' ∧ LocalSpec m bs m' := by
  cases bs with
  | nil => exact absurd rfl h
  | cons b0 bs =>
    refine ⟨_, rfl, ?_⟩
    rw [localDt_foldl]
    refine ⟨rfl, fun x => ?_, fun x => ?_, fun x => ?_, fun x => ?_⟩ <;>
      simp only [le_foldl_map, le_min_iff, List.forall_mem_cons] <;> tauto

theorem mapM_forall2 {α β : Type} {P : α → β → Prop} (f : α → Option β) (l : List α) (h : ∀ a ∈ l, ∃ b, f a = some b ∧ P a b) :
    ∃ bs, l.mapM f = some bs ∧ List.Forall₂ P l bs := by
  induction l with
  | nil => exact ⟨[], rfl, .nil⟩
  | cons a l ih =>
    obtain ⟨b, hb, hp⟩ := h a List.mem_cons_self
    obtain ⟨bs, hbs, hf⟩ := ih fun a ha => h a (List.mem_cons_of_mem _ ha)
    exact ⟨b :: bs, by simp [hb, hbs], .cons hp hf⟩

theorem map_snd_const {α β γ δ : Type} {l : List (α × β)} {l' : List (γ × β)} {v : δ} (h : l.map Prod.snd = l'.map Prod.snd) :
    (l.map fun r => (v, r.2)) = l'.map fun r => (v, r.2) := by
  have e : (fun r : α × β => (v, r.2)) = (fun b => (v, b)) ∘ Prod.snd := rfl
  have e' : (fun r : γ × β => (v, r.2)) = (fun b => (v, b)) ∘ Prod.snd := rfl
  rw [e, e', ← List.map_map, ← List.map_map, h]

theorem eq_of_le_iff {a b : K} (h : ∀ x, x ≤ a ↔ x ≤ b) : a = b :=
  le_antisymm ((h a).1 le_rfl) ((h b).2 le_rfl)

/-- `newTimeStep` when the ranks agree: the same members on all ranks. -/
theorem newTimeStep_agree {c : Cfg K} (hf : c.fixed = false) {ranks : List (Msh K × List (Blk K))} {t dt : K}
    (hag : Agree t dt ranks) (hb : HasBlocks ranks) (hne : ranks ≠ []) :
    ∃ m : Msh K, newTimeStep c ranks = some (ranks.map fun r => (cutDt c m, r.2)) ∧ m.time = t ∧
      (∀ x, x ≤ m.dt ↔ x ≤ 2 * dt ∧ ∀ r ∈ ranks, ∀ b ∈ r.2, x ≤ b.dt) ∧
      (∀ x, x ≤ m.hyp ↔ ∀ r ∈ ranks, ∀ b ∈ r.2, x ≤ b.hyp) ∧
      (∀ x, x ≤ m.par ↔ ∀ r ∈ ranks, ∀ b ∈ r.2, x ≤ b.par) ∧
      (∀ x, x ≤ m.usr ↔ ∀ r ∈ ranks, ∀ b ∈ r.2, x ≤ b.usr) := by
  obtain ⟨l, hl, hP⟩ := mapM_forall2 (P := fun r y => y.2 = r.2 ∧ LocalSpec r.1 r.2 y.1)
    (fun r : Msh K × List (Blk K) => (localDt r.1 r.2).map fun m => (m, r.2)) ranks (by
      intro r hr
      obtain ⟨m', h1, h2⟩ := localDt_spec r.1 r.2 (hb r hr)
      exact ⟨(m', r.2), by rw [h1]; rfl, rfl, h2⟩)
  -- every member of `l` comes from a rank and vice versa
  have fwd : ∀ r ∈ ranks, ∃ y ∈ l, y.2 = r.2 ∧ LocalSpec r.1 r.2 y.1 := by
    clear hl hne hb hag
    induction hP with
    | nil => intro r hr; cases hr
    | cons h hP ih =>
      intro r hr
      rcases List.mem_cons.1 hr with rfl | hr
      · exact ⟨_, List.mem_cons_self, h⟩
      · obtain ⟨y, hy, h⟩ := ih r hr
        exact ⟨y, List.mem_cons_of_mem _ hy, h⟩
  have bwd : ∀ y ∈ l, ∃ r ∈ ranks, y.2 = r.2 ∧ LocalSpec r.1 r.2 y.1 := by
    clear hl hne hb hag fwd
    induction hP with
    | nil => intro r hr; cases hr
    | cons h hP ih =>
      intro r hr
      rcases List.mem_cons.1 hr with rfl | hr
      · exact ⟨_, List.mem_cons_self, h⟩
      · obtain ⟨y, hy, h⟩ := ih r hr
        exact ⟨y, List.mem_cons_of_mem _ hy, h⟩
  -- the reduced values
  have red : ∀ (f : Msh K → K) (g : Blk K → K), (∀ y ∈ l, ∀ x, x ≤ f y.1 ↔ ∀ b ∈ y.2, x ≤ g b) →
      ∀ y ∈ l, ∀ x, x ≤ allMin (f y.1) ((l.map Prod.fst).map f) ↔ ∀ r ∈ ranks, ∀ b ∈ r.2, x ≤ g b := by
    intro f g hfg y hy x
    unfold allMin
    rw [le_foldl_min]
    simp only [List.mem_map, forall_exists_index, and_imp, forall_apply_eq_imp_iff₂]
    constructor
    · rintro ⟨-, h⟩ r hr b hb
      obtain ⟨z, hz, e, -⟩ := fwd r hr
      exact (hfg z hz x).1 (h z hz) b (by rw [e]; exact hb)
    · intro h
      have : ∀ z ∈ l, x ≤ f z.1 := fun z hz => (hfg z hz x).2 (by
        obtain ⟨r, hr, e, -⟩ := bwd z hz
        rw [e]; exact h r hr)
      exact ⟨this y hy, this⟩
  have redt : ∀ y ∈ l, ∀ x, x ≤ allMin y.1.dt ((l.map Prod.fst).map Msh.dt)
      ↔ x ≤ 2 * dt ∧ ∀ r ∈ ranks, ∀ b ∈ r.2, x ≤ b.dt := by
    intro y hy x
    have hy' : ∀ z ∈ l, (x ≤ z.1.dt ↔ x ≤ 2 * dt ∧ ∀ b ∈ z.2, x ≤ b.dt) := fun z hz => by
      obtain ⟨r, hr, e, hs⟩ := bwd z hz
      rw [hs.2.1 x, e, (hag r hr).2]
    unfold allMin
    rw [le_foldl_min]
    simp only [List.mem_map, forall_exists_index, and_imp, forall_apply_eq_imp_iff₂]
    constructor
    · rintro ⟨h0, h⟩
      refine ⟨((hy' y hy).1 h0).1, fun r hr b hb => ?_⟩
      obtain ⟨z, hz, e, -⟩ := fwd r hr
      exact ((hy' z hz).1 (h z hz)).2 b (by rw [e]; exact hb)
    · rintro ⟨h2, h⟩
      have : ∀ z ∈ l, x ≤ z.1.dt := fun z hz => (hy' z hz).2 ⟨h2, by
        obtain ⟨r, hr, e, -⟩ := bwd z hz
        rw [e]; exact h r hr⟩
      exact ⟨this y hy, this⟩
  have rh := red Msh.hyp Blk.hyp (fun y hy x => by obtain ⟨r, hr, e, hs⟩ := bwd y hy; rw [hs.2.2.1 x, e])
  have rp := red Msh.par Blk.par (fun y hy x => by obtain ⟨r, hr, e, hs⟩ := bwd y hy; rw [hs.2.2.2.1 x, e])
  have ru := red Msh.usr Blk.usr (fun y hy x => by obtain ⟨r, hr, e, hs⟩ := bwd y hy; rw [hs.2.2.2.2 x, e])
  obtain ⟨r0, hr0⟩ := List.exists_mem_of_ne_nil _ hne
  obtain ⟨y0, hy0, -⟩ := fwd r0 hr0
  have tm : ∀ y ∈ l, y.1.time = t := fun y hy => by
    obtain ⟨r, hr, -, hs⟩ := bwd y hy
    rw [hs.1, (hag r hr).1]
  refine ⟨⟨t, allMin y0.1.dt ((l.map Prod.fst).map Msh.dt), allMin y0.1.hyp ((l.map Prod.fst).map Msh.hyp),
    allMin y0.1.par ((l.map Prod.fst).map Msh.par), allMin y0.1.usr ((l.map Prod.fst).map Msh.usr)⟩, ?_, rfl,
    redt y0 hy0, rh y0 hy0, rp y0 hy0, ru y0 hy0⟩
  unfold newTimeStep
  rw [if_neg (by rw [hf]; simp), hl]
  show some _ = some _
  congr 1
  have hmap : ranks.map Prod.snd = l.map Prod.snd := by
    clear fwd bwd red redt rh rp ru tm hy0 hr0 hl hne hb hag
    induction hP with
    | nil => rfl
    | cons h hP ih => simp only [List.map_cons, ih, h.1]
  rw [map_snd_const hmap]
  refine List.map_congr_left fun y hy => ?_
  have e1 := eq_of_le_iff fun x => (redt y hy x).trans (redt y0 hy0 x).symm
  have e2 := eq_of_le_iff fun x => (rh y hy x).trans (rh y0 hy0 x).symm
  have e3 := eq_of_le_iff fun x => (rp y hy x).trans (rp y0 hy0 x).symm
  have e4 := eq_of_le_iff fun x => (ru y hy x).trans (ru y0 hy0 x).symm
  show (cutDt c ⟨y.1.time, _, _, _, _⟩, y.2) = _
  rw [e1, e2, e3, e4, tm y hy]

/-- The cuts at the end of `NewTimeStep`. -/
theorem cutDt_spec (c : Cfg K) (m : Msh K) (hp : c.sts = true → 0 < c.ratio → 0 < m.par) :
    (cutDt c m).time = m.time ∧ (cutDt c m).par = m.par ∧ (cutDt c m).hyp = m.hyp ∧ (cutDt c m).usr = m.usr ∧
    ∀ x, x ≤ (cutDt c m).dt ↔ x ≤ m.dt ∧ (m.time < c.tlim → x ≤ c.tlim - m.time) ∧
      (c.sts = true → 0 < c.ratio → x ≤ c.ratio * m.par) := by
  have h1 : ∃ d, (if m.time < c.tlim ∧ c.tlim - m.time < m.dt then { m with dt := c.tlim - m.time } else m) = { m with dt := d } ∧
      ∀ x, x ≤ d ↔ x ≤ m.dt ∧ (m.time < c.tlim → x ≤ c.tlim - m.time) := by
    split
    · rename_i h
      exact ⟨_, rfl, fun x => ⟨fun hx => ⟨by linarith [h.2], fun _ => hx⟩, fun hx => hx.2 h.1⟩⟩
    · rename_i h
      refine ⟨m.dt, rfl, fun x => ⟨fun hx => ⟨hx, fun ht => ?_⟩, fun hx => hx.1⟩⟩
      have : ¬ (c.tlim - m.time < m.dt) := fun h' => h ⟨ht, h'⟩
      linarith
  obtain ⟨d, hd, hx⟩ := h1
  unfold cutDt
  rw [hd]
  simp only
  split
  · rename_i hs
    split
    · rename_i h
      have hpos := hp hs h.1
      have hlt : c.ratio * m.par < d := (lt_div_iff₀ hpos).1 h.2
      refine ⟨rfl, rfl, rfl, rfl, fun x => ?_⟩
      constructor
      · intro hx'
        have := (hx d).1 le_rfl
        have hxd : x ≤ d := le_trans hx' hlt.le
        exact ⟨((hx x).1 hxd).1, ((hx x).1 hxd).2, fun _ _ => hx'⟩
      · intro h'; exact h'.2.2 hs h.1
    · rename_i h
      refine ⟨rfl, rfl, rfl, rfl, fun x => ?_⟩
      constructor
      · intro hx'
        refine ⟨((hx x).1 hx').1, ((hx x).1 hx').2, fun _ hr => ?_⟩
        have hpos := hp hs hr
        have : ¬ (c.ratio < d / m.par) := fun h' => h ⟨hr, h'⟩
        have hle : d ≤ c.ratio * m.par := by
          by_contra hn
          exact this ((lt_div_iff₀ hpos).2 (not_le.1 hn))
        exact le_trans hx' hle
      · intro h'; exact (hx x).2 ⟨h'.1, h'.2.1⟩
  · rename_i hs
    refine ⟨rfl, rfl, rfl, rfl, fun x => ?_⟩
    rw [hx x]
    constructor
    · rintro ⟨a, b⟩; exact ⟨a, b, fun h => absurd h hs⟩
    · rintro ⟨a, b, -⟩; exact ⟨a, b⟩

theorem loop_le {x : K} (s e : Int) (B : Int → K → K) (i : Int) (h1 : s ≤ i) (h2 : i ≤ e)
    (dec : ∀ i, s ≤ i → i ≤ e → ∀ m, B i m ≤ m) (hit : ∀ m, B i m ≤ x) (m : K) : loop s e B m ≤ x := by
  rw [loop_eq]
  have hm : i ∈ rng s e := mem_rng.2 ⟨h1, h2⟩
  have hd : ∀ i ∈ rng s e, ∀ m, B i m ≤ m := fun i hi => dec i (mem_rng.1 hi).1 (mem_rng.1 hi).2
  generalize rng s e = l at hm hd
  have aux : ∀ (l : List Int), (∀ i ∈ l, ∀ m, B i m ≤ m) → ∀ m, m ≤ x → l.foldl (fun m i => B i m) m ≤ x := by
    intro l
    induction l with
    | nil => intro _ m h; exact h
    | cons a l ih => intro hd m h; exact ih (fun i hi => hd i (List.mem_cons_of_mem _ hi)) _ (le_trans (hd a List.mem_cons_self m) h)
  induction l generalizing m with
  | nil => cases hm
  | cons a l ih =>
    rcases List.mem_cons.1 hm with rfl | hm
    · exact aux l (fun i hi => hd i (List.mem_cons_of_mem _ hi)) _ (hit m)
    · exact ih _ hm (fun i hi => hd i (List.mem_cons_of_mem _ hi))

theorem loop_dec (s e : Int) (B : Int → K → K) (dec : ∀ i, s ≤ i → i ≤ e → ∀ m, B i m ≤ m) (m : K) : loop s e B m ≤ m := by
  refine loop_inv (fun y => y ≤ m) s e B (fun i h1 h2 y hy => le_trans (dec i h1 h2 y) hy) m le_rfl

theorem cut_le (m w s : K) : cut m w s ≤ m := by
  unfold cut; split
  · exact le_rfl
  · exact min_le_left _ _

theorem cut_hit (m w : K) {s : K} (hs : s ≠ 0) : cut m w s ≤ w / s := by
  unfold cut; rw [if_neg hs]; exact min_le_right _ _

theorem cut_pos {m w s : K} (hm : 0 < m) (hw : 0 < w) (hs : 0 ≤ s) : 0 < cut m w s := by
  unfold cut; split
  · exact hm
  · rename_i h; exact lt_min hm (div_pos hw (lt_of_le_of_ne hs (Ne.symm h)))

end
end Verif.TimeStep
