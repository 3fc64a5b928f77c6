import Verif.Lemmas.TimeStep

/-!
# The time step (C49)
-/
namespace Verif.TimeStep
open Verif.Grid Verif.Arr
set_option linter.unusedSectionVars false

section
variable {K : Type} [Field K] [LinearOrder K] [IsStrictOrderedRing K] {c : Cfg K}

/-- **New time step.** All ranks obtain the same step, and it is the largest number that is at most twice the old step
and respects the limits of every block of every rank, the final time and the super-time-step ratio. -/
theorem new_dt (hf : c.fixed = false) {ranks : List (Msh K × List (Blk K))} {t dt : K} (hag : Agree t dt ranks)
    (hb : HasBlocks ranks) (hne : ranks ≠ []) (hp : c.sts = true → ∀ r ∈ ranks, ∀ b ∈ r.2, 0 < b.par) :
    ∃ ranks' dt', newTimeStep c ranks = some ranks' ∧ ranks'.map Prod.snd = ranks.map Prod.snd ∧ Agree t dt' ranks' ∧
      ∀ x, x ≤ dt' ↔ x ≤ 2 * dt ∧ Within c t (ranks.map Prod.snd) x := by
  obtain ⟨m, h1, ht, hd, -, hpar, -⟩ := newTimeStep_agree hf hag hb hne
  have hmp : c.sts = true → 0 < c.ratio → 0 < m.par := by
    intro hs _
    -- the minimum is one of the values
    by_contra hn
    have hn' : m.par ≤ 0 := not_lt.1 hn
    obtain ⟨z, hz⟩ : ∃ z : K, 0 < z ∧ ∀ r ∈ ranks, ∀ b ∈ r.2, z ≤ b.par := by
      have key : ∀ l : List (Blk K), (∀ b ∈ l, 0 < b.par) → ∃ z : K, 0 < z ∧ ∀ b ∈ l, z ≤ b.par := by
        intro l hl
        induction l with
        | nil => exact ⟨1, one_pos, by simp⟩
        | cons b l ih =>
          obtain ⟨z, hz, h⟩ := ih fun b hb => hl b (List.mem_cons_of_mem _ hb)
          refine ⟨min z b.par, lt_min hz (hl b List.mem_cons_self), fun b' hb' => ?_⟩
          rcases List.mem_cons.1 hb' with rfl | hb'
          · exact min_le_right _ _
          · exact le_trans (min_le_left _ _) (h b' hb')
      obtain ⟨z, hz, h⟩ := key (ranks.map Prod.snd).flatten (by
        intro b hb
        obtain ⟨l, hl, hb⟩ := List.mem_flatten.1 hb
        obtain ⟨r, hr, rfl⟩ := List.mem_map.1 hl
        exact hp hs r hr b hb)
      exact ⟨z, hz, fun r hr b hb => h b (List.mem_flatten.2 ⟨r.2, List.mem_map_of_mem hr, hb⟩)⟩
    have := (hpar z).2 hz.2
    linarith [hz.1]
  obtain ⟨c1, c2, -, -, c3⟩ := cutDt_spec c m hmp
  refine ⟨_, (cutDt c m).dt, h1, ?_, ?_, fun x => ?_⟩
  · simp [List.map_map, Function.comp_def]
  · intro r hr
    obtain ⟨r', -, rfl⟩ := List.mem_map.1 hr
    exact ⟨by rw [c1, ht], rfl⟩
  · rw [c3 x, hd x, ht]
    have hblk : (∀ r ∈ ranks, ∀ b ∈ r.2, x ≤ b.dt) ↔ ∀ bs ∈ ranks.map Prod.snd, ∀ b ∈ bs, x ≤ b.dt := by
      simp only [List.mem_map, forall_exists_index, and_imp, forall_apply_eq_imp_iff₂]
    have hst : (c.sts = true → 0 < c.ratio → x ≤ c.ratio * m.par) ↔
        (c.sts = true → 0 < c.ratio → ∀ bs ∈ ranks.map Prod.snd, ∀ b ∈ bs, x ≤ c.ratio * b.par) := by
      refine forall_congr' fun _ => forall_congr' fun hr => ?_
      rw [← div_le_iff₀' hr, hpar]
      simp only [List.mem_map, forall_exists_index, and_imp, forall_apply_eq_imp_iff₂, div_le_iff₀' hr]
    constructor
    · rintro ⟨⟨a, b⟩, d, e⟩; exact ⟨a, hblk.1 b, d, hst.1 e⟩
    · rintro ⟨a, h⟩; exact ⟨⟨a, hblk.2 h.block⟩, h.final, hst.2 h.sts⟩

/-- A rank without a block makes `NewTimeStep` read past its block list. -/
theorem new_dt_needs_block (hf : c.fixed = false) {ranks : List (Msh K × List (Blk K))} {r} (hr : r ∈ ranks) (h0 : r.2 = []) :
    newTimeStep c ranks = none := by
  unfold newTimeStep
  rw [if_neg (by rw [hf]; simp)]
  have : (ranks.mapM fun r => (localDt r.1 r.2).map fun m => (m, r.2)) = none := by
    induction ranks with
    | nil => cases hr
    | cons a l ih =>
      rcases List.mem_cons.1 hr with rfl | hr
      · simp [h0, localDt]
      · simp only [List.mapM_cons, ih hr]
        cases (localDt a.1 a.2).map fun m => (m, a.2) <;> rfl
  rw [this]
  rfl

/-- Growth of the step in one cycle. -/
def growth (remesh : Bool) : K := if remesh then 4 else 2

theorem zip_map_snd {α β : Type} {l : List α} {l' : List β} (h : l.length = l'.length) : (l.zip l').map Prod.snd = l' :=
  List.map_snd_zip (by omega)

/-- **One cycle.** Time advances by the step on every rank; the new step is the largest number that is at most twice the
old one (four times if the mesh was rebuilt in this cycle) and respects all limits. -/
theorem cycle_dt (hf : c.fixed = false) {n : Nat} (hn : n ≠ 0) {s : Sim K} {t dt : K} (hs : At c n t dt s) (h0 : 0 < dt)
    {blocks : List (List (Blk K))} (hg : GoodBlocks n blocks) (remesh : Bool) :
    ∃ s' dt', cycle c blocks remesh s = some s' ∧ At c n (t + dt) dt' s' ∧ s'.ncycle = s.ncycle + 1 ∧ 0 < dt' ∧
      s'.ranks.map Prod.snd = blocks ∧
      ∀ x, x ≤ dt' ↔ x ≤ growth remesh * dt ∧ Within c (t + dt) blocks x := by
  set adv := (s.ranks.zip blocks).map fun r => (({ r.1.1 with time := r.1.1.time + r.1.1.dt } : Msh K), r.2) with hadv
  have hlen : s.ranks.length = blocks.length := by rw [hs.ranks, hg.length]
  have hsnd : adv.map Prod.snd = blocks := by
    rw [hadv, List.map_map]
    exact zip_map_snd hlen
  have hl : adv.length = n := by
    rw [← List.length_map (f := Prod.snd), hsnd, hg.length]
  have hag : Agree (t + dt) dt adv := by
    intro r hr
    obtain ⟨q, hq, rfl⟩ := List.mem_map.1 hr
    have := hs.agree q.1 (List.of_mem_zip hq).1
    exact ⟨by show q.1.1.time + q.1.1.dt = _; rw [this.1, this.2], this.2⟩
  have hmem : ∀ ranks : List (Msh K × List (Blk K)), ranks.map Prod.snd = blocks → ∀ r ∈ ranks, r.2 ∈ blocks := by
    intro ranks h r hr
    rw [← h]; exact List.mem_map_of_mem hr
  have step : ∀ (ranks : List (Msh K × List (Blk K))) (d : K), ranks.map Prod.snd = blocks → Agree (t + dt) d ranks →
      ∃ ranks' dt', newTimeStep c ranks = some ranks' ∧ ranks'.map Prod.snd = blocks ∧ Agree (t + dt) dt' ranks' ∧
      ∀ x, x ≤ dt' ↔ x ≤ 2 * d ∧ Within c (t + dt) blocks x := by
    intro ranks d h1 h2
    have hne : ranks ≠ [] := by
      intro h
      rw [h] at h1
      have := hg.length
      rw [← h1] at this
      exact hn this.symm
    obtain ⟨ranks', dt', a1, a2, a3, a4⟩ := new_dt hf h2 (fun r hr => hg.some _ (hmem _ h1 r hr)) hne
      (fun _ r hr b hb => (hg.pos _ (hmem _ h1 r hr) b hb).2)
    exact ⟨ranks', dt', a1, a2.trans h1, a3, by rw [h1] at a4; exact a4⟩
  have pos : ∀ {y : K}, 0 < y → ∃ z, 0 < z ∧ z ≤ y ∧ Within c (t + dt) blocks z := by
    intro y hy
    have key : ∀ l : List (Blk K), (∀ b ∈ l, 0 < b.dt ∧ 0 < b.par) →
        ∃ z : K, 0 < z ∧ ∀ b ∈ l, z ≤ b.dt ∧ (0 < c.ratio → z ≤ c.ratio * b.par) := by
      intro l hl
      induction l with
      | nil => exact ⟨1, one_pos, by simp⟩
      | cons b l ih =>
        obtain ⟨z, hz, h⟩ := ih fun b hb => hl b (List.mem_cons_of_mem _ hb)
        have hb := hl b List.mem_cons_self
        by_cases hr : 0 < c.ratio
        · refine ⟨min z (min b.dt (c.ratio * b.par)), lt_min hz (lt_min hb.1 (mul_pos hr hb.2)), fun b' hb' => ?_⟩
          rcases List.mem_cons.1 hb' with rfl | hb'
          · exact ⟨le_trans (min_le_right _ _) (min_le_left _ _), fun _ => le_trans (min_le_right _ _) (min_le_right _ _)⟩
          · exact ⟨le_trans (min_le_left _ _) (h b' hb').1, fun hr => le_trans (min_le_left _ _) ((h b' hb').2 hr)⟩
        · refine ⟨min z b.dt, lt_min hz hb.1, fun b' hb' => ⟨?_, fun h => absurd h hr⟩⟩
          rcases List.mem_cons.1 hb' with rfl | hb'
          · exact min_le_right _ _
          · exact le_trans (min_le_left _ _) (h b' hb').1
    obtain ⟨z, hz, h⟩ := key blocks.flatten (by
      intro b hb
      obtain ⟨l, hl, hb⟩ := List.mem_flatten.1 hb
      exact hg.pos l hl b hb)
    have h' : ∀ bs ∈ blocks, ∀ b ∈ bs, z ≤ b.dt ∧ (0 < c.ratio → z ≤ c.ratio * b.par) :=
      fun bs hbs b hb => h b (List.mem_flatten.2 ⟨bs, hbs, hb⟩)
    by_cases htl : t + dt < c.tlim
    · refine ⟨min (min z y) (c.tlim - (t + dt)), lt_min (lt_min hz hy) (by linarith),
        le_trans (min_le_left _ _) (min_le_right _ _), ⟨fun bs hbs b hb => ?_, fun _ => min_le_right _ _, fun _ hr bs hbs b hb => ?_⟩⟩
      · exact le_trans (min_le_left _ _) (le_trans (min_le_left _ _) (h' bs hbs b hb).1)
      · exact le_trans (min_le_left _ _) (le_trans (min_le_left _ _) ((h' bs hbs b hb).2 hr))
    · refine ⟨min z y, lt_min hz hy, min_le_right _ _, ⟨fun bs hbs b hb => ?_, fun h => absurd h htl, fun _ hr bs hbs b hb => ?_⟩⟩
      · exact le_trans (min_le_left _ _) (h' bs hbs b hb).1
      · exact le_trans (min_le_left _ _) ((h' bs hbs b hb).2 hr)
  have wmono : ∀ {x y : K}, x ≤ y → Within c (t + dt) blocks y → Within c (t + dt) blocks x := fun hxy h =>
    ⟨fun bs hbs b hb => le_trans hxy (h.block bs hbs b hb), fun ht => le_trans hxy (h.final ht),
     fun hs hr bs hbs b hb => le_trans hxy (h.sts hs hr bs hbs b hb)⟩
  have fin : ∀ (ranks' : List (Msh K × List (Blk K))) (d : K), ranks'.map Prod.snd = blocks → Agree (t + dt) d ranks' →
      At c n (t + dt) d ⟨ranks', s.ncycle + 1⟩ := by
    intro ranks' d h1 h2
    refine ⟨?_, h2⟩
    show ranks'.length = n
    rw [← List.length_map (f := Prod.snd), h1, hg.length]
  cases remesh
  · obtain ⟨ranks', dt', a1, a2, a3, a4⟩ := step adv dt hsnd hag
    refine ⟨⟨ranks', s.ncycle + 1⟩, dt', ?_, fin _ _ a2 a3, rfl, ?_, a2, a4⟩
    · unfold cycle
      simp only [Bool.false_eq_true, if_false, Option.bind_eq_bind, Option.bind_some, ← hadv, a1]
      rfl
    · obtain ⟨z, z0, z1, z2⟩ := pos (show 0 < 2 * dt by linarith)
      exact lt_of_lt_of_le z0 ((a4 z).2 ⟨z1, z2⟩)
  · obtain ⟨r1, dt1, a1, a2, a3, a4⟩ := step adv dt hsnd hag
    obtain ⟨r2, dt2, b1, b2, b3, b4⟩ := step r1 dt1 a2 a3
    have hd1 : 0 < dt1 := by
      obtain ⟨z, z0, z1, z2⟩ := pos (show 0 < 2 * dt by linarith)
      exact lt_of_lt_of_le z0 ((a4 z).2 ⟨z1, z2⟩)
    refine ⟨⟨r2, s.ncycle + 1⟩, dt2, ?_, fin _ _ b2 b3, rfl, ?_, b2, fun x => ?_⟩
    · unfold cycle
      simp only [if_true, Option.bind_eq_bind, Option.bind_some, ← hadv, a1, b1]
      rfl
    · obtain ⟨z, z0, z1, z2⟩ := pos (show 0 < 2 * dt1 by linarith)
      exact lt_of_lt_of_le z0 ((b4 z).2 ⟨z1, z2⟩)
    · rw [b4]
      constructor
      · rintro ⟨h1, h2⟩
        have := ((a4 dt1).1 le_rfl).1
        exact ⟨by unfold growth; rw [if_pos rfl]; linarith, h2⟩
      · rintro ⟨h1, h2⟩
        refine ⟨?_, h2⟩
        unfold growth at h1
        rw [if_pos rfl] at h1
        rcases lt_or_ge x 0 with hx | hx
        · linarith
        · have : x / 2 ≤ dt1 := (a4 _).2 ⟨by linarith, wmono (by linarith) h2⟩
          linarith

/-- **A run keeps to the limits and never passes the final time.** From a state at time `t ≤ tlim` whose step does not pass
`tlim`, every state reached is of the same kind, at a time between `t` and `tlim`; if the run ends before the cycle limit,
it ends exactly at `tlim`. -/
theorem run_time (hf : c.fixed = false) {n : Nat} (hn : n ≠ 0) (l : List (List (List (Blk K)) × Bool))
    (hl : ∀ q ∈ l, GoodBlocks n q.1) {s : Sim K} {t dt : K} (hs : At c n t dt s) (h0 : 0 < dt) (ht : t ≤ c.tlim)
    (hd : t < c.tlim → dt ≤ c.tlim - t) :
    ∃ s' t' dt', run c l s = some s' ∧ At c n t' dt' s' ∧ 0 < dt' ∧ t ≤ t' ∧ t' ≤ c.tlim ∧ (t' < c.tlim → dt' ≤ c.tlim - t') ∧
      s.ncycle ≤ s'.ncycle ∧ (s'.ncycle < s.ncycle + l.length → (c.nlim < 0 ∨ s'.ncycle < c.nlim) → t' = c.tlim) := by
  induction l generalizing s t dt with
  | nil => exact ⟨s, t, dt, rfl, hs, h0, le_rfl, ht, hd, le_rfl, fun h => by simp at h⟩
  | cons q l ih =>
    unfold run
    obtain ⟨r, rs, hr⟩ : ∃ r rs, s.ranks = r :: rs := by
      cases h : s.ranks with
      | nil => have := hs.ranks; rw [h] at this; exact absurd this.symm hn
      | cons r rs => exact ⟨r, rs, rfl⟩
    have hrt : r.1.time = t := (hs.agree r (by rw [hr]; exact List.mem_cons_self)).1
    rw [hr]
    simp only [hrt]
    split
    · rename_i hgo
      obtain ⟨s1, dt1, e1, e2, e3, e4, -, e5⟩ := cycle_dt hf hn hs h0 (hl q List.mem_cons_self) q.2
      have hw := (e5 dt1).1 le_rfl
      have ht1 : t + dt ≤ c.tlim := by linarith [hd hgo.1]
      obtain ⟨s', t', dt', f1, f2, f3, f4, f5, f6, f7, f8⟩ := ih (fun q hq => hl q (List.mem_cons_of_mem _ hq)) e2 e4 ht1 hw.2.final
      rw [e1]
      refine ⟨s', t', dt', f1, f2, f3, by linarith, f5, f6, by omega, fun h1 h2 => f8 ?_ h2⟩
      rw [List.length_cons] at h1
      push_cast at h1
      omega
    · rename_i hgo
      refine ⟨s, t, dt, rfl, hs, h0, le_rfl, ht, hd, le_rfl, fun _ h2 => ?_⟩
      have : ¬ t < c.tlim := fun h => hgo ⟨h, h2⟩
      exact le_antisymm ht (not_lt.1 this)

/-- **A run reaches the final time.** If no limit ever falls below `δ > 0`, then after any number of cycles `N` with
`N·δ ≥ tlim - t` the run has ended at `tlim` or at the cycle limit. -/
theorem run_terminates (hf : c.fixed = false) {n : Nat} (hn : n ≠ 0) (l : List (List (List (Blk K)) × Bool)) {δ : K} (hδ : 0 < δ)
    (hl : ∀ q ∈ l, GoodBlocks n q.1 ∧ ∀ bs ∈ q.1, ∀ b ∈ bs, δ ≤ b.dt ∧ (c.sts = true → 0 < c.ratio → δ ≤ c.ratio * b.par))
    {s : Sim K} {t dt : K} (hs : At c n t dt s) (ht : t < c.tlim) (hd : dt ≤ c.tlim - t) (hd' : min δ (c.tlim - t) ≤ dt)
    (hN : c.tlim - t ≤ l.length * δ) :
    ∃ s' t' dt', run c l s = some s' ∧ At c n t' dt' s' ∧ (t' = c.tlim ∨ (0 ≤ c.nlim ∧ c.nlim ≤ s'.ncycle)) := by
  induction l generalizing s t dt with
  | nil => simp at hN; linarith
  | cons q l ih =>
    have h0 : 0 < dt := lt_of_lt_of_le (lt_min hδ (by linarith)) hd'
    unfold run
    obtain ⟨r, rs, hr⟩ : ∃ r rs, s.ranks = r :: rs := by
      cases h : s.ranks with
      | nil => have := hs.ranks; rw [h] at this; exact absurd this.symm hn
      | cons r rs => exact ⟨r, rs, rfl⟩
    have hrt : r.1.time = t := (hs.agree r (by rw [hr]; exact List.mem_cons_self)).1
    rw [hr]
    simp only [hrt]
    split
    · rename_i hgo
      obtain ⟨s1, dt1, e1, e2, e3, e4, -, e5⟩ := cycle_dt hf hn hs h0 (hl q List.mem_cons_self).1 q.2
      have hw := (e5 dt1).1 le_rfl
      rw [e1]
      show ∃ s' t' dt', run c l s1 = some s' ∧ _
      rcases lt_or_ge (t + dt) c.tlim with h1 | h1
      · refine ih (fun q hq => hl q (List.mem_cons_of_mem _ hq)) e2 h1 (hw.2.final h1) ?_ ?_
        · refine (e5 _).2 ⟨?_, ?_, fun _ => min_le_right _ _, fun hs hr bs hbs b hb => ?_⟩
          · have hg : 2 * dt ≤ growth q.2 * dt := by
              unfold growth; split <;> linarith
            have : min δ (c.tlim - (t + dt)) ≤ min δ (c.tlim - t) := min_le_min le_rfl (by linarith)
            linarith
          · exact fun bs hbs b hb => le_trans (min_le_left _ _) ((hl q List.mem_cons_self).2 bs hbs b hb).1
          · exact le_trans (min_le_left _ _) (((hl q List.mem_cons_self).2 bs hbs b hb).2 hs hr)
        · rw [List.length_cons] at hN
          push_cast at hN
          have : δ ≤ dt := by
            rcases min_le_iff.1 hd' with h | h
            · exact h
            · linarith
          nlinarith
      · have ht1 : t + dt = c.tlim := by linarith
        cases l with
        | nil => exact ⟨s1, t + dt, dt1, rfl, e2, Or.inl ht1⟩
        | cons q' l =>
          refine ⟨s1, t + dt, dt1, ?_, e2, Or.inl ht1⟩
          unfold run
          obtain ⟨r1, rs1, hr1⟩ : ∃ r rs, s1.ranks = r :: rs := by
            cases h : s1.ranks with
            | nil => have := e2.ranks; rw [h] at this; exact absurd this.symm hn
            | cons r rs => exact ⟨r, rs, rfl⟩
          have hrt1 : r1.1.time = t + dt := (e2.agree r1 (by rw [hr1]; exact List.mem_cons_self)).1
          rw [hr1]
          simp only [hrt1]
          rw [if_neg (by rintro ⟨h, -⟩; linarith)]
    · rename_i hgo
      refine ⟨s, t, dt, rfl, hs, Or.inr ?_⟩
      by_contra h
      apply hgo
      refine ⟨ht, ?_⟩
      by_contra h2
      apply h
      push Not at h2
      exact ⟨by omega, h2.2⟩

/-- **Restart.** A restarted run reads the saved step and calls `NewTimeStep` again (`Mesh::Initialize`) before its first
cycle. If the saved step was not the doubled one, the restarted run takes the same step. -/
theorem restart_same_step (hf : c.fixed = false) {ranks : List (Msh K × List (Blk K))} {t dt : K} (hag : Agree t dt ranks)
    (hb : HasBlocks ranks) (hne : ranks ≠ []) (hp : c.sts = true → ∀ r ∈ ranks, ∀ b ∈ r.2, 0 < b.par) (h0 : 0 < dt) :
    ∃ saved dt1 restarted dt2, newTimeStep c ranks = some saved ∧ Agree t dt1 saved ∧ newTimeStep c saved = some restarted ∧
      Agree t dt2 restarted ∧ (0 < dt1 → dt1 < 2 * dt → dt2 = dt1) ∧
      (∀ x, x ≤ dt2 ↔ x ≤ 2 * dt1 ∧ Within c t (ranks.map Prod.snd) x) := by
  obtain ⟨r1, dt1, a1, a2, a3, a4⟩ := new_dt hf hag hb hne hp
  have hm : ∀ r ∈ r1, ∃ r' ∈ ranks, r'.2 = r.2 := by
    intro r hr
    have : r.2 ∈ ranks.map Prod.snd := by rw [← a2]; exact List.mem_map_of_mem hr
    obtain ⟨r', h1, h2⟩ := List.mem_map.1 this
    exact ⟨r', h1, h2⟩
  have hne1 : r1 ≠ [] := by
    intro h
    rw [h] at a2
    cases ranks with
    | nil => exact hne rfl
    | cons a l => simp at a2
  obtain ⟨r2, dt2, b1, b2, b3, b4⟩ := new_dt hf a3 (fun r hr => by
      obtain ⟨r', h1, h2⟩ := hm r hr; rw [← h2]; exact hb r' h1) hne1 (fun hs r hr b hb => by
      obtain ⟨r', h1, h2⟩ := hm r hr; rw [← h2] at hb; exact hp hs r' h1 b hb)
  rw [a2] at b4
  refine ⟨r1, dt1, r2, dt2, a1, a3, b1, b3, fun hpos hlt => ?_, b4⟩
  refine le_antisymm ?_ ((b4 dt1).2 ⟨by linarith, ((a4 dt1).1 le_rfl).2⟩)
  by_contra hn
  have hn' := not_le.1 hn
  have hw := ((b4 dt2).1 le_rfl).2
  have : min dt2 (2 * dt) ≤ dt1 := (a4 _).2 ⟨min_le_right _ _,
    fun bs hbs b hb => le_trans (min_le_left _ _) (hw.block bs hbs b hb), fun h => le_trans (min_le_left _ _) (hw.final h),
    fun hs hr bs hbs b hb => le_trans (min_le_left _ _) (hw.sts hs hr bs hbs b hb)⟩
  rcases min_le_iff.1 this with h | h <;> linarith

/-- **Fixed fluid** (`hydro/active = fixed`): the step is `tlim/nlim`; from time zero `nlim` cycles end exactly at `tlim`, and
every rank agrees. -/
theorem fixed_cycle (hf : c.fixed = true) {n : Nat} {s : Sim K} {t dt : K} (hs : At c n t dt s)
    {blocks : List (List (Blk K))} (hlen : blocks.length = n) (remesh : Bool) :
    ∃ s', cycle c blocks remesh s = some s' ∧ At c n (t + dt) (c.tlim / c.nlim) s' ∧ s'.ncycle = s.ncycle + 1 := by
  set adv := (s.ranks.zip blocks).map fun r => (({ r.1.1 with time := r.1.1.time + r.1.1.dt } : Msh K), r.2) with hadv
  have hl : adv.length = n := by
    rw [hadv, List.length_map, List.length_zip, hs.ranks, hlen, min_self]
  have hag : Agree (t + dt) dt adv := by
    intro r hr
    obtain ⟨q, hq, rfl⟩ := List.mem_map.1 hr
    have := hs.agree q.1 (List.of_mem_zip hq).1
    exact ⟨by show q.1.1.time + q.1.1.dt = _; rw [this.1, this.2], this.2⟩
  have step : ∀ (ranks : List (Msh K × List (Blk K))) (d : K), ranks.length = n → Agree (t + dt) d ranks →
      ∃ ranks', newTimeStep c ranks = some ranks' ∧ ranks'.length = n ∧ Agree (t + dt) (c.tlim / c.nlim) ranks' := by
    intro ranks d h1 h2
    refine ⟨_, by unfold newTimeStep; rw [if_pos hf], by rw [List.length_map, h1], fun r hr => ?_⟩
    obtain ⟨q, hq, rfl⟩ := List.mem_map.1 hr
    exact ⟨(h2 q hq).1, rfl⟩
  obtain ⟨r1, a1, a2, a3⟩ := step adv dt hl hag
  cases remesh
  · exact ⟨⟨r1, s.ncycle + 1⟩, by unfold cycle; simp only [Bool.false_eq_true, if_false, Option.bind_eq_bind, Option.bind_some, ← hadv, a1]; rfl,
      ⟨a2, a3⟩, rfl⟩
  · obtain ⟨r2, b1, b2, b3⟩ := step r1 _ a2 a3
    exact ⟨⟨r2, s.ncycle + 1⟩, by unfold cycle; simp only [if_true, Option.bind_eq_bind, Option.bind_some, ← hadv, a1, b1]; rfl,
      ⟨b2, b3⟩, rfl⟩

theorem fixed_run (hf : c.fixed = true) {n : Nat} (hn : n ≠ 0) (l : List (List (List (Blk K)) × Bool))
    (hl : ∀ q ∈ l, q.1.length = n) {s : Sim K} {t : K} (hs : At c n t (c.tlim / c.nlim) s)
    (hgo : ∀ k : Nat, k < l.length → t + k * (c.tlim / c.nlim) < c.tlim ∧ (c.nlim < 0 ∨ s.ncycle + k < c.nlim)) :
    ∃ s', run c l s = some s' ∧ At c n (t + l.length * (c.tlim / c.nlim)) (c.tlim / c.nlim) s' ∧
      s'.ncycle = s.ncycle + l.length := by
  induction l generalizing s t with
  | nil => exact ⟨s, rfl, by simpa using hs, by simp⟩
  | cons q l ih =>
    unfold run
    obtain ⟨r, rs, hr⟩ : ∃ r rs, s.ranks = r :: rs := by
      cases h : s.ranks with
      | nil => have := hs.ranks; rw [h] at this; exact absurd this.symm hn
      | cons r rs => exact ⟨r, rs, rfl⟩
    have hrt : r.1.time = t := (hs.agree r (by rw [hr]; exact List.mem_cons_self)).1
    have h0 := hgo 0 (by simp)
    simp only [Nat.cast_zero, zero_mul, add_zero] at h0
    rw [hr]
    simp only [hrt]
    rw [if_pos h0]
    obtain ⟨s1, e1, e2, e3⟩ := fixed_cycle hf hs (hl q List.mem_cons_self) q.2
    obtain ⟨s', f1, f2, f3⟩ := ih (fun q hq => hl q (List.mem_cons_of_mem _ hq)) e2 (fun k hk => by
      have := hgo (k + 1) (by simpa using hk)
      push_cast at this
      refine ⟨by linarith [this.1], ?_⟩
      rw [e3]
      rcases this.2 with h | h
      · exact Or.inl h
      · right; omega)
    rw [e1]
    refine ⟨s', f1, ?_, by rw [f3, e3, List.length_cons]; push_cast; ring⟩
    have : t + (q :: l).length * (c.tlim / c.nlim) = t + c.tlim / c.nlim + l.length * (c.tlim / c.nlim) := by
      rw [List.length_cons]; push_cast; ring
    rw [this]
    exact f2

/-- **Fixed fluid, cycle limit given**: started at time zero, `nlim` cycles end exactly at `tlim`. -/
theorem fixed_lands (hf : c.fixed = true) {n : Nat} (hn : n ≠ 0) (l : List (List (List (Blk K)) × Bool))
    (hl : ∀ q ∈ l, q.1.length = n) {s : Sim K} (hs : At c n 0 (c.tlim / c.nlim) s) (hc : s.ncycle = 0) (ht : 0 < c.tlim)
    (hN : (l.length : Int) = c.nlim) (hpos : 0 < c.nlim) :
    ∃ s', run c l s = some s' ∧ At c n c.tlim (c.tlim / c.nlim) s' ∧ s'.ncycle = c.nlim := by
  have hk : (0 : K) < (c.nlim : K) := by exact_mod_cast hpos
  have hN' : ((l.length : Nat) : K) = (c.nlim : K) := by exact_mod_cast congrArg (fun z : Int => (z : K)) hN
  obtain ⟨s', h1, h2, h3⟩ := fixed_run hf hn l hl hs (fun k hkl => by
    have hlt : (k : K) < (c.nlim : K) := by rw [← hN']; exact_mod_cast hkl
    refine ⟨?_, Or.inr (by rw [hc]; omega)⟩
    rw [zero_add, ← mul_div_assoc, div_lt_iff₀ hk, mul_comm]
    exact mul_lt_mul_of_pos_left hlt ht)
  refine ⟨s', h1, ?_, by rw [h3, hc, hN]; ring⟩
  have : (0 : K) + l.length * (c.tlim / c.nlim) = c.tlim := by
    rw [zero_add, hN']
    field_simp
  rw [this] at h2
  exact h2

/-- **Fixed fluid without a cycle limit: the run never ends.** With the default `nlim = -1` the step is `-tlim`: time runs
backwards and the loop condition holds for ever. -/
theorem fixed_never_ends (hf : c.fixed = true) (hneg : c.nlim = -1) {n : Nat} (hn : n ≠ 0)
    (l : List (List (List (Blk K)) × Bool)) (hl : ∀ q ∈ l, q.1.length = n) {s : Sim K} {t : K}
    (hs : At c n t (c.tlim / c.nlim) s) (ht : t < c.tlim) (h0 : 0 < c.tlim) :
    ∃ s', run c l s = some s' ∧ At c n (t - l.length * c.tlim) (-c.tlim) s' ∧ s'.ncycle = s.ncycle + l.length := by
  have hv : c.tlim / (c.nlim : K) = -c.tlim := by rw [hneg]; push_cast; field_simp
  obtain ⟨s', h1, h2, h3⟩ := fixed_run hf hn l hl hs (fun k _ => by
    refine ⟨?_, Or.inl (by rw [hneg]; norm_num)⟩
    rw [hv]
    have : (0 : K) ≤ k := Nat.cast_nonneg k
    nlinarith)
  refine ⟨s', h1, ?_, h3⟩
  rw [hv] at h2
  have : t + l.length * -c.tlim = t - l.length * c.tlim := by ring
  rw [this] at h2
  exact h2

end

/-! ## Concrete cases -/

def exCfg : Cfg ℚ := ⟨false, true, 50, 10, -1⟩
def exBlk (d : ℚ) : Blk ℚ := ⟨d, d, 1, 100⟩

/-- Two ranks at time 1 with step 1/4. -/
def exRanks (ds : List (List ℚ)) : List (Msh ℚ × List (Blk ℚ)) := ds.map fun d => (⟨1, 1/4, 0, 0, 0⟩, d.map exBlk)

def exSim (ds : List (List ℚ)) : Sim ℚ := ⟨exRanks ds, 7⟩

example : Agree 1 (1/4) (exRanks [[3, 1], [2]]) ∧ HasBlocks (exRanks [[3, 1], [2]]) ∧ exRanks [[3, 1], [2]] ≠ [] := by
  unfold Agree HasBlocks; decide +kernel

example : GoodBlocks 2 ([[3, 1], [2]].map fun d => d.map exBlk) :=
  ⟨rfl, by decide +kernel, by decide +kernel⟩

example : At exCfg 2 1 (1/4) (exSim [[3, 1], [2]]) := ⟨rfl, by unfold Agree; decide +kernel⟩

/-- The new step is the doubled one here, a block limit there. -/
example : ((cycle exCfg ([[3, 1], [2]].map fun d => d.map exBlk) false (exSim [[3, 1], [2]])).map
      fun s => s.ranks.map fun r => (r.1.time, r.1.dt)) = some [(5/4, 1/2), (5/4, 1/2)] ∧
    ((cycle exCfg ([[3, 1], [1/3]].map fun d => d.map exBlk) false (exSim [[3, 1], [2]])).map
      fun s => s.ranks.map fun r => (r.1.time, r.1.dt)) = some [(5/4, 1/3), (5/4, 1/3)] := by
  decide +kernel

/-- **The step can grow fourfold in one cycle.** In a cycle that rebuilds the mesh `NewTimeStep` is called twice. -/
theorem remesh_quadruples :
    ((cycle exCfg ([[3, 1], [2]].map fun d => d.map exBlk) true (exSim [[3, 1], [2]])).map
      fun s => s.ranks.map fun r => (r.1.time, r.1.dt)) = some [(5/4, 1), (5/4, 1)] ∧ (1 : ℚ) = 4 * (1/4) := by
  decide +kernel

/-- **A restart changes the step** when the saved step was limited by the doubling: 1/2 is saved, the restarted run takes 1. -/
theorem restart_changes_step :
    ((newTimeStep exCfg (exRanks [[3, 1], [2]])).map fun l => l.map fun r => r.1.dt) = some [1/2, 1/2] ∧
    (((newTimeStep exCfg (exRanks [[3, 1], [2]])).bind (newTimeStep exCfg)).map fun l => l.map fun r => r.1.dt) = some [1, 1] := by
  decide +kernel

/-- Landing on `tlim`: from time 9 with step 1. -/
example : ((run exCfg (List.replicate 3 ([[exBlk 3]], false)) ⟨[(⟨9, 1/2, 0, 0, 0⟩, [exBlk 3])], 3⟩).map
      fun s => (s.ncycle, s.ranks.map fun r => r.1.time)) = some (5, [10]) := by
  decide +kernel

/-- **Fixed fluid with a start time overshoots**: `tlim = 10`, `nlim = 2`, `start_time = 1` ends at 11. -/
theorem fixed_overshoots :
    ((run (⟨true, false, -1, 10, 2⟩ : Cfg ℚ) (List.replicate 2 ([[exBlk 3]], false)) ⟨[(⟨1, 5, 0, 0, 0⟩, [exBlk 3])], 0⟩).map
      fun s => (s.ncycle, s.ranks.map fun r => r.1.time)) = some (2, [11]) := by
  decide +kernel

example : At (⟨true, false, -1, 10, 2⟩ : Cfg ℚ) 1 0 (10 / (2 : Int)) ⟨[(⟨0, 5, 0, 0, 0⟩, [exBlk 3])], 0⟩ :=
  ⟨rfl, by unfold Agree; decide +kernel⟩

end Verif.TimeStep
