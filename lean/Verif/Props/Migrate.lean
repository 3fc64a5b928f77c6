import Verif.Lemmas.MigrateMsg
import Verif.Props.LoadBalance

/-!
# C15: messages moving block data after an adaptation step
-/
namespace Verif.Tree

/-- `x` holds the data of the redistribution that follows an adaptation step from tree `t` to tree
`t'`: the old and new block lists, `newtoold` as written by `GetMeshBlockList` (the gids recorded in
the new tree), the old tree numbered in list order (`numbering_bijective`, C04), and old and new
assignments of blocks to `nranks` processes in intervals (`ranges_partition`, C13; see
`intervals_of_loadBalance`). -/
structure Redistribution (m : Mesh) (nranks : Nat) (t t' : Tree) (x : Regrid) : Prop where
  leaf : x.nleaf = m.nleaf
  old : x.loclist = (meshBlocks m t).map (fun b => (b.1, b.2.1))
  new : x.newloc = (meshBlocks m t').map (fun b => (b.1, b.2.1))
  n2o : x.newtoold.map Int.ofNat = (meshBlocks m t').map (fun b => b.2.2)
  num : (meshBlocks m t).map (fun b => b.2.2) = (List.range (meshBlocks m t).length).map Int.ofNat
  orank : Intervals nranks x.loclist.length x.ranklist x.gids x.nold
  nrank : Intervals nranks x.newloc.length x.newrank x.nslist x.nblist

/-- One adaptation step on a mesh without poles. -/
structure AdaptStep (m : Mesh) (t t' : Tree) : Prop where
  valid : m.Valid
  nopolar : NoPolar m
  noshear : NoShear m
  reach : ∃ c, Reach m ⟨t, c⟩
  step : ∃ parts sort nnew ndel, Flags m t parts ∧ StdSort sort ∧
    updateTree m sort parts t = some (t', nnew, ndel)

/-- The output of `CalculateLoadBalance` assigns intervals. -/
theorem intervals_of_loadBalance {α : Type} (A : LoadBalance.CostOps α) (c : Nat → α) (nb nranks threads : Nat)
    (hn : 0 < nranks) (ht : 0 < threads) {o : LoadBalance.Out}
    (h : LoadBalance.calculateLoadBalance A c nb nranks threads = some o) :
    Intervals nranks nb o.rlist o.slist o.nlist := by
  obtain ⟨h1, h2, h3, h4, h5⟩ := LoadBalance.ranges_partition A c nb nranks threads hn ht h
  refine ⟨?_, ?_⟩
  · intro i hi
    have mono : ∀ k, i + k < nb → o.rlist i ≤ o.rlist (i + k) := by
      intro k
      induction k with
      | zero => intro _; exact Nat.le_refl _
      | succ k ih =>
        intro hk
        exact Nat.le_trans (ih (by omega)) (h4 (i + k) (by omega)).1
    have := mono (nb - 1 - i) (by omega)
    rw [show i + (nb - 1 - i) = nb - 1 by omega, h3] at this
    omega
  · intro r hr i
    obtain ⟨a, b, c⟩ := h5 r hr
    constructor
    · intro hi
      exact ⟨by omega, (c i (by omega)).2 hi⟩
    · rintro ⟨hi, hri⟩
      exact (c i hi).1 hri

section
variable {m : Mesh} {nranks : Nat} {t t' : Tree} {x : Regrid}

theorem Redistribution.segs (ha : AdaptStep m t t') (hx : Redistribution m nranks t t' x) :
    ∃ S, OfSegs m nranks x S := by
  obtain ⟨hm, hnp, hns, ⟨c, hr⟩, parts, sort, nnew, ndel, hf, hs, he⟩ := ha
  obtain ⟨S, hS⟩ := adapt_segs hm hnp hns hr hf hs he
  refine ⟨S, hx.leaf, ?_, hx.old.trans hS.old, hx.new.trans hS.new, ?_, hx.orank, hx.nrank⟩
  · rintro rfl
    have h1 := hS.old
    simp at h1
    have : (0 : Nat) < (meshBlocks m t).length := by
      obtain ⟨j, q, g, h2, -, h3⟩ := exists_leaf_below hm (hr.wf hm) (K := 0) (q := ⟨0, 0, 0⟩)
        ⟨by simp, by simp, by simp⟩ (by rw [Ne, at_null_iff]; simpa using (hr.wf hm).root)
      exact List.length_pos_of_mem ((mem_meshBlocks hm (hr.wf hm)).2 ⟨h2, h3⟩)
    rw [h1] at this; simp at this
  · have := hS.gid 0 (by rw [hx.num, List.range_eq_range'])
    rw [← hx.n2o] at this
    exact List.map_injective_iff.2 (fun a b h => Int.ofNat.inj h) this

theorem Redistribution.sorted (hx : Redistribution m nranks t t' x) :
    x.loclist.Pairwise (fun a b => ZBefore a.1 a.2 b.1 b.2) ∧
    x.newloc.Pairwise (fun a b => ZBefore a.1 a.2 b.1 b.2) := by
  rw [hx.old, hx.new, List.pairwise_map, List.pairwise_map]
  exact ⟨blocks_sorted t 0 ⟨0, 0, 0⟩, blocks_sorted t' 0 ⟨0, 0, 0⟩⟩

/-- **C15** For every adaptation step and all assignments of old and new blocks to processes: the
messages process `r` sends to process `r'` are exactly those `r'` expects from `r`, with the same
tag and the same kind of content (hence length), for the same pair of old and new block. -/
theorem migration_messages_pair (ha : AdaptStep m t t') (hx : Redistribution m nranks t t' x)
    {r r' : Nat} (hr : r < nranks) (hr' : r' < nranks) :
    ((x.sends r).filter (fun a => a.dst = r')).Perm ((x.recvs r').filter (fun a => a.src = r)) := by
  obtain ⟨S, h⟩ := hx.segs ha
  rw [List.perm_ext_iff_of_nodup ((sends_nodup x r).filter _) ((recvs_nodup x r').filter _)]
  intro a
  simp only [List.mem_filter, mem_sends h hr, mem_recvs h hr', decide_eq_true_eq]
  constructor
  · rintro ⟨⟨o, n, s, i, j, hat, h1, h2, rfl⟩, h3⟩
    simp only [mkMsg] at h3
    exact ⟨⟨o, n, s, i, j, hat, h3, by rw [← h3, h1]; exact fun hc => h2 hc.symm, rfl⟩, h1⟩
  · rintro ⟨⟨o, n, s, i, j, hat, h1, h2, rfl⟩, h3⟩
    simp only [mkMsg] at h3
    exact ⟨⟨o, n, s, i, j, hat, h3, by rw [← h3, h1]; exact fun hc => h2 hc.symm, rfl⟩, h1⟩

/-- **C15** Nothing is sent to a process that does not exist, or to the sender itself. -/
theorem migration_ranks (ha : AdaptStep m t t') (hx : Redistribution m nranks t t' x)
    {r : Nat} (hr : r < nranks) :
    (∀ a ∈ x.sends r, a.src = r ∧ a.dst ≠ r ∧ a.dst < nranks) ∧
    (∀ a ∈ x.recvs r, a.dst = r ∧ a.src ≠ r ∧ a.src < nranks) := by
  obtain ⟨S, h⟩ := hx.segs ha
  constructor
  · intro a ha
    obtain ⟨o, n, s, i, j, hat, h1, h2, rfl⟩ := (mem_sends h hr a).1 ha
    exact ⟨h1, h2, h.nrank.lt _ (h.nl_eq hat).2⟩
  · intro a ha
    obtain ⟨o, n, s, i, j, hat, h1, h2, rfl⟩ := (mem_recvs h hr a).1 ha
    exact ⟨h1, h2, h.orank.lt _ (h.ol_eq hat).2⟩

/-- **C15** Data completeness: an old and a new block that share cells are on different processes and
connected by a message to the process of the new block, or on the same process and handled by a local
copy; nothing else is sent or copied. -/
theorem migration_complete (ha : AdaptStep m t t') (hx : Redistribution m nranks t t' x) {o n : Nat}
    (ho : o < x.loclist.length) (hn : n < x.newloc.length) :
    ((∃ a ∈ x.recvs (x.newrank n), a.old = o ∧ a.new = n) ↔
      Overlap (x.ol o) (x.nl n) ∧ x.ranklist o ≠ x.newrank n) ∧
    ((o, n) ∈ x.locals (x.newrank n) ↔ Overlap (x.ol o) (x.nl n) ∧ x.ranklist o = x.newrank n) := by
  obtain ⟨S, h⟩ := hx.segs ha
  have hr := h.nrank.lt _ hn
  have hov := h.overlap_iff hx.sorted.1 hx.sorted.2 ho hn
  rw [mem_locals h hr, hov]
  constructor
  · constructor
    · rintro ⟨a, hmem, h1, h2⟩
      obtain ⟨o', n', s, i, j, hat, h3, h4, rfl⟩ := (mem_recvs h hr a).1 hmem
      simp only [mkMsg] at h1 h2
      subst h1 h2
      exact ⟨⟨s, i, j, hat⟩, h4⟩
    · rintro ⟨⟨s, i, j, hat⟩, h4⟩
      exact ⟨_, (mem_recvs h hr _).2 ⟨o, n, s, i, j, hat, rfl, h4, rfl⟩, rfl, rfl⟩
  · constructor
    · rintro ⟨s, i, j, hat, h1, h2⟩; exact ⟨⟨s, i, j, hat⟩, h2⟩
    · rintro ⟨⟨s, i, j, hat⟩, h2⟩; exact ⟨s, i, j, hat, rfl, h2⟩

/-- **C15** Each message belongs to existing blocks of the right processes, which are the same
location, parent and child, or child and parent, according to the kind of the message. -/
theorem migration_kind (ha : AdaptStep m t t') (hx : Redistribution m nranks t t' x)
    {r : Nat} (hr : r < nranks) {a : Msg} (hmem : a ∈ x.recvs r ∨ a ∈ x.sends r) :
    a.old < x.loclist.length ∧ a.new < x.newloc.length ∧ a.src = x.ranklist a.old ∧ a.dst = x.newrank a.new ∧
    ((a.kind = .same ∧ x.ol a.old = x.nl a.new) ∨
     (a.kind = .c2f ∧ ∃ k : Fin 8, x.nl a.new = ((x.ol a.old).1 + 1, (x.ol a.old).2.child k)) ∨
     (a.kind = .f2c ∧ ∃ k : Fin 8, x.ol a.old = ((x.nl a.new).1 + 1, (x.nl a.new).2.child k))) := by
  obtain ⟨S, h⟩ := hx.segs ha
  have key : ∃ o n s i j, At m S o n s i j ∧ a = mkMsg x o n s := by
    rcases hmem with hmem | hmem
    · obtain ⟨o, n, s, i, j, hat, _, _, e⟩ := (mem_recvs h hr a).1 hmem
      exact ⟨o, n, s, i, j, hat, e⟩
    · obtain ⟨o, n, s, i, j, hat, _, _, e⟩ := (mem_sends h hr a).1 hmem
      exact ⟨o, n, s, i, j, hat, e⟩
  obtain ⟨o, n, s, i, j, hat, rfl⟩ := key
  refine ⟨(h.ol_eq hat).2, (h.nl_eq hat).2, rfl, rfl, ?_⟩
  have hlev := h.levels hat
  cases s with
  | keep b => simp only at hlev; exact .inl ⟨rfl, by simp only [mkMsg]; rw [hlev.1, hlev.2.1]⟩
  | split b =>
    simp only at hlev
    obtain ⟨e1, e2, e3, hj, e4⟩ := hlev
    exact .inr (.inl ⟨rfl, ⟨j, hj⟩, by simp only [mkMsg]; rw [e1, e4]⟩)
  | merge b =>
    simp only at hlev
    obtain ⟨e1, e2, e3, hj, e4⟩ := hlev
    exact .inr (.inr ⟨rfl, ⟨i, hj⟩, by simp only [mkMsg]; rw [e1, e4]⟩)

theorem sum_ite_length {α : Type} (l : List Nat) (p : Nat → Prop) [DecidablePred p] (f : Nat → α) :
    (l.map (fun k => if ¬ p k then 1 else 0)).sum = (l.flatMap (fun k => if p k then [] else [f k])).length := by
  rw [List.length_flatMap]
  congr 1
  apply List.map_congr_left
  intro k _
  by_cases h : p k <;> simp [h]

/-- **C15** The request and buffer arrays have exactly as many entries as messages are posted. -/
theorem migration_counts (x : Regrid) (r : Nat) :
    x.nrecv r = (x.recvs r).length ∧ x.nsend r = (x.sends r).length := by
  constructor
  · unfold Regrid.nrecv Regrid.recvs
    rw [List.length_flatMap]
    congr 1
    apply List.map_congr_left
    intro n _
    simp only
    split
    · exact sum_ite_length _ (fun k => x.ranklist (x.n2o n + k) = r) _
    · by_cases hc : x.ranklist (x.n2o n) = r <;> simp [hc]
  · unfold Regrid.nsend Regrid.sends
    rw [List.length_flatMap]
    congr 1
    apply List.map_congr_left
    intro n _
    simp only
    by_cases h1 : (x.nl (x.o2n n)).1 = (x.ol n).1
    · rw [if_neg (by omega), if_pos h1]
      by_cases hc : x.newrank (x.o2n n) = r <;> simp [hc]
    · rw [if_neg h1]
      by_cases h2 : (x.nl (x.o2n n)).1 > (x.ol n).1
      · rw [if_pos (by omega), if_pos h2]
        exact sum_ite_length _ (fun k => x.newrank (x.o2n n + k) = r) _
      · rw [if_neg (by omega), if_neg h2]
        by_cases hc : x.newrank (x.o2n n) = r <;> simp [hc]

/-! ### Face field correction -/

theorem mem_ffcPairs {m : Mesh} {x : Regrid} {i n d : Nat} : (i, n, d) ∈ x.ffcPairs m ↔
    n ∈ x.refined ∧ (d = 0 ∨ d = 1 ∧ m.f2 = true ∨ d = 2 ∧ m.f3 = true) ∧ x.ffcOuter m n d = some i := by
  unfold Regrid.ffcPairs
  simp only [List.mem_flatMap, List.mem_filterMap, Option.map_eq_some_iff, List.mem_append, List.mem_singleton]
  constructor
  · rintro ⟨n', hn, d', hd, i', hi, he⟩
    simp only [Prod.mk.injEq] at he
    obtain ⟨rfl, rfl, rfl⟩ := he
    refine ⟨hn, ?_, hi⟩
    rcases hd with (hd | hd) | hd
    · exact .inl hd
    · split at hd
      · simp at hd; exact .inr (.inl ⟨hd, ‹_›⟩)
      · simp at hd
    · split at hd
      · simp at hd; exact .inr (.inr ⟨hd, ‹_›⟩)
      · simp at hd
  · rintro ⟨hn, hd, hi⟩
    refine ⟨n, hn, d, ?_, i, hi, rfl⟩
    rcases hd with hd | ⟨hd, hf⟩ | ⟨hd, hf⟩
    · exact .inl (.inl hd)
    · exact .inl (.inr (by simp [hf, hd]))
    · exact .inr (by simp [hf, hd])

theorem par_lt (x : Regrid) (n d : Nat) : x.par n d < 2 := by unfold Regrid.par; omega

theorem face_flip (p d : Nat) (hp : p < 2) (hd : d < 3) : ((p ^^^ 1) + 2 * d) ^^^ 1 = p + 2 * d := by
  have h1 : p = 0 ∨ p = 1 := by omega
  have h2 : d = 0 ∨ d = 1 ∨ d = 2 := by omega
  rcases h1 with rfl | rfl <;> rcases h2 with rfl | rfl | rfl <;> rfl

/-- **C15** (face fields) The face field messages pair in the same way, in the same order. -/
theorem ffc_messages_pair (m : Mesh) (x : Regrid) (r r' : Nat) :
    (x.ffcSends m r).filter (fun a => a.dst = r') = (x.ffcRecvs m r').filter (fun a => a.src = r) := by
  unfold Regrid.ffcSends Regrid.ffcRecvs
  have hl : ∀ e ∈ x.ffcPairs m, e.2.2 < 3 := by
    rintro ⟨i, n, d⟩ he
    obtain ⟨-, hd, -⟩ := mem_ffcPairs.1 he
    simp only; omega
  generalize x.ffcPairs m = l at hl
  induction l with
  | nil => rfl
  | cons e l ih =>
    have ih := ih (fun e he => hl e (by simp [he]))
    obtain ⟨i, n, d⟩ := e
    have hd := hl (i, n, d) (by simp)
    simp only at hd
    have hf := face_flip (x.par n d) d (par_lt x n d) hd
    by_cases h1 : x.ranklist i = r <;> by_cases h2 : x.newrank n = r' <;> by_cases h4 : x.newrank n = r <;>
      by_cases h5 : x.ranklist i = r' <;>
      simp only [List.filter_cons, List.filterMap_cons, h1, h2, h4, h5, decide_true, decide_false, if_true, if_false,
        Bool.false_eq_true, hf, ih] <;> (first | rfl | skip) <;> simp_all

theorem step_zero {per : Prop} {n x y : Nat} (hx : x < n) : Step per n x 0 y ↔ y = x := by
  constructor
  · rintro ⟨h1, -, -, h2⟩
    rcases h2 with h2 | ⟨_, h2 | h2⟩ <;> omega
  · rintro rfl
    exact ⟨hx, by omega, by omega, .inl (by omega)⟩

theorem idxOf?_iff {α : Type} [BEq α] [LawfulBEq α] {l : List α} (hl : l.Nodup) {a : α} {i : Nat} :
    l.idxOf? a = some i ↔ l[i]? = some a := by
  induction l generalizing i with
  | nil => simp
  | cons b l ih =>
    rw [List.nodup_cons] at hl
    rw [List.idxOf?_cons]
    by_cases hb : b = a
    · subst hb
      simp only [beq_self_eq_true, if_true, Option.some.injEq]
      constructor
      · rintro rfl; rfl
      · intro h
        rcases i with _ | i
        · rfl
        · simp only [List.getElem?_cons_succ] at h
          exact absurd (List.mem_of_getElem? h) hl.1
    · rw [if_neg (by simpa using hb), Option.map_eq_some_iff]
      constructor
      · rintro ⟨j, hj, rfl⟩
        simpa using (ih hl.2).1 hj
      · intro h
        rcases i with _ | i
        · simp at h; exact absurd h hb
        · exact ⟨i, (ih hl.2).2 (by simpa using h), rfl⟩

/-- **C15** (face fields) The pairs found are exactly: a new block `n` produced by splitting, and an
old block of the level of `n` beyond an outer face of `n`, through periodic boundaries if necessary. -/
theorem ffc_pairs_exact (ha : AdaptStep m t t') (hx : Redistribution m nranks t t' x) {i n d : Nat} :
    (i, n, d) ∈ x.ffcPairs m ↔
      n < x.newloc.length ∧ (∃ o, o < x.loclist.length ∧ Overlap (x.ol o) (x.nl n) ∧ (x.ol o).1 < (x.nl n).1) ∧
      (d = 0 ∨ d = 1 ∧ m.f2 = true ∨ d = 2 ∧ m.f3 = true) ∧
      i < x.loclist.length ∧ (x.ol i).1 = (x.nl n).1 ∧ OuterFace m (x.nl n).1 (x.nl n).2 d (x.ol i).2 := by
  have hm := ha.valid
  obtain ⟨c, hr⟩ := ha.reach
  obtain ⟨S, h⟩ := hx.segs ha
  have hos : OneStep m t t' := by
    obtain ⟨hm, hnp, hns, ⟨c, hr⟩, parts, sort, nnew, ndel, hf, hs, he⟩ := ha
    exact adapt_oneStep hm hnp hns hr hf hs he
  have hnd : x.loclist.Nodup := hx.sorted.1.imp (fun {a b} hz he => by subst he; exact zBefore_irrefl hz)
  rw [mem_ffcPairs]
  have href : n ∈ x.refined ↔ n < x.newloc.length ∧
      ∃ o, o < x.loclist.length ∧ Overlap (x.ol o) (x.nl n) ∧ (x.ol o).1 < (x.nl n).1 := by
    unfold Regrid.refined
    simp only [List.mem_filter, List.mem_range, decide_eq_true_eq]
    constructor
    · rintro ⟨h1, h2⟩
      obtain ⟨s, j, hat⟩ := h.of_new h1
      have a0 := hat 0 (by have := s.lens m; have := nleaf_ge m; omega)
      have hl := (h.ol_eq a0).2
      simp only [Nat.add_zero] at a0 hl
      exact ⟨h1, _, hl, (h.overlap_iff hx.sorted.1 hx.sorted.2 hl h1).2 ⟨_, _, _, a0⟩, h2⟩
    · rintro ⟨h1, o, ho, hov, hlt⟩
      refine ⟨h1, ?_⟩
      obtain ⟨s, i, j, hat⟩ := (h.overlap_iff hx.sorted.1 hx.sorted.2 ho h1).1 hov
      have hlev := h.levels hat
      have hn2 := h.n2o_eq hat
      have hi := hat.hi
      cases s with
      | keep b => simp only at hlev; rw [hlev.1, hlev.2.1] at hlt; omega
      | merge b =>
        simp only at hlev
        obtain ⟨e1, e2, e3, hj, e4⟩ := hlev
        rw [e1, e4] at hlt; simp only at hlt; omega
      | split b =>
        simp only at hlev
        have : i = 0 := by omega
        subst this
        rw [Nat.add_zero] at hn2
        rw [hn2]; exact hlt
  rw [href, and_assoc]
  refine and_congr_right (fun hn => and_congr_right (fun ho => and_congr_right (fun hd => ?_)))
  -- the location of the new block
  have hmem : x.nl n ∈ x.newloc := by
    unfold Regrid.nl
    rw [List.getD_eq_getElem?_getD, List.getElem?_eq_getElem hn]; exact List.getElem_mem hn
  rw [hx.new] at hmem
  obtain ⟨⟨L', p', g⟩, hb, heq⟩ := List.mem_map.1 hmem
  have hdom : Dom m (x.nl n).1 (x.nl n).2 := by
    rw [← heq]
    exact ((block_iff hm hos.wf').1 hb).1
  have hroot : m.rootLevel ≤ (x.nl n).1 := by
    rw [← heq]
    obtain ⟨h1, h2⟩ := (block_iff hm hos.wf').1 hb
    exact hos.wf'.leaf _ _ _ h1 h2
  obtain ⟨d1, d2, d3⟩ := (dom_iff_ge hroot).1 hdom
  generalize hL : (x.nl n).1 = L at *
  generalize hp : (x.nl n).2 = p at *
  have hol : ∀ q, x.loclist.idxOf? (L, q) = some i ↔ i < x.loclist.length ∧ (x.ol i).1 = L ∧ (x.ol i).2 = q := by
    intro q
    rw [idxOf?_iff hnd]
    unfold Regrid.ol
    rw [List.getD_eq_getElem?_getD]
    constructor
    · intro h
      have := (List.getElem?_eq_some_iff.1 h).1
      rw [h]; exact ⟨this, rfl, rfl⟩
    · rintro ⟨h1, h2, h3⟩
      rw [List.getElem?_eq_getElem h1] at h2 h3 ⊢
      simp only [Option.getD_some] at h2 h3
      rw [← h2, ← h3]
  have z2 : ∀ {o y}, m.f2 = false → o = 0 → (Step (m.ix2 = .periodic) (m.nmax2 L) p.x2 o y ↔ y = p.x2) := by
    rintro o y _ rfl; exact step_zero d2
  unfold Regrid.ffcOuter OuterFace
  simp only [hL, hp]
  have hw : ∀ (a b : BFlag) (nx c : Nat), (if ((c : Int) + (2 * ((c % 2 : Nat) : Int) - 1)) < 0 then
        (if a = .periodic then some (nx - 1) else none)
      else if ((c : Int) + (2 * ((c % 2 : Nat) : Int) - 1)) ≥ nx then (if b = .periodic then some 0 else none)
      else some ((c : Int) + (2 * ((c % 2 : Nat) : Int) - 1)).toNat) = wrapDim a b nx (c + (2 * ((c % 2 : Nat) : Int) - 1)) :=
    fun a b nx c => rfl
  have cast : ∀ nx : Nat, (nx : Int) * 2 ^ (L - m.rootLevel) = ((nx * 2 ^ (L - m.rootLevel) : Nat) : Int) := by
    intro nx; push_cast; rfl
  simp only [cast, hw]
  rcases hd with rfl | ⟨rfl, hf⟩ | ⟨rfl, hf⟩
  · simp only [if_true, Nat.zero_ne_one, if_false, Option.bind_eq_some_iff, Option.map_eq_some_iff, hol]
    rw [if_neg (by omega : ¬ (0 = 2))]
    constructor
    · rintro ⟨q, ⟨y, hy, rfl⟩, h1, h2, h3⟩
      refine ⟨h1, h2, fun _ => rfl, fun _ => rfl, ?_, ?_, ?_⟩
      · rw [h3]; exact (wrapDim_iff hm.per1 d1 (by omega) (by omega)).1 hy
      · rw [h3]; exact (step_zero d2).2 rfl
      · rw [h3]; exact (step_zero d3).2 rfl
    · rintro ⟨h1, h2, hs⟩
      refine ⟨(x.ol i).2, ⟨_, (wrapDim_iff hm.per1 d1 (by omega) (by omega)).2 hs.s1, ?_⟩, h1, h2, rfl⟩
      apply Pos.ext'
      · rfl
      · exact ((step_zero d2).1 hs.s2).symm
      · exact ((step_zero d3).1 hs.s3).symm
  · have e2 : m.nrbx2 * 2 ^ (L - m.rootLevel) = m.nmax2 L := by simp [Mesh.nmax2, hf]
    simp only [Nat.one_ne_zero, if_true, if_false, Option.bind_eq_some_iff, Option.map_eq_some_iff, hol, e2]
    rw [if_neg (by omega : ¬ (1 = 2))]
    constructor
    · rintro ⟨q, ⟨y, hy, rfl⟩, h1, h2, h3⟩
      refine ⟨h1, h2, fun hc => ?_, fun _ => rfl, ?_, ?_, ?_⟩
      · rw [hf] at hc; simp at hc
      · rw [h3]; exact (step_zero d1).2 rfl
      · rw [h3]; exact (wrapDim_iff (hm.per2 hf) d2 (by omega) (by omega)).1 hy
      · rw [h3]; exact (step_zero d3).2 rfl
    · rintro ⟨h1, h2, hs⟩
      refine ⟨(x.ol i).2, ⟨_, (wrapDim_iff (hm.per2 hf) d2 (by omega) (by omega)).2 hs.s2, ?_⟩, h1, h2, rfl⟩
      apply Pos.ext'
      · exact ((step_zero d1).1 hs.s1).symm
      · rfl
      · exact ((step_zero d3).1 hs.s3).symm
  · have e3 : m.nrbx3 * 2 ^ (L - m.rootLevel) = m.nmax3 L := by simp [Mesh.nmax3, hf]
    rw [if_neg (by omega : ¬ (2 = 0)), if_neg (by omega : ¬ (2 = 1)), if_neg (by omega : ¬ (2 = 0)),
      if_neg (by omega : ¬ (2 = 1))]
    simp only [if_true, Option.bind_eq_some_iff, Option.map_eq_some_iff, hol, e3]
    constructor
    · rintro ⟨q, ⟨y, hy, rfl⟩, h1, h2, h3⟩
      refine ⟨h1, h2, fun _ => rfl, fun hc => ?_, ?_, ?_, ?_⟩
      · rw [hf] at hc; simp at hc
      · rw [h3]; exact (step_zero d1).2 rfl
      · rw [h3]; exact (step_zero d2).2 rfl
      · rw [h3]; exact (wrapDim_iff (hm.per3 hf) d3 (by omega) (by omega)).1 hy
    · rintro ⟨h1, h2, hs⟩
      refine ⟨(x.ol i).2, ⟨_, (wrapDim_iff (hm.per3 hf) d3 (by omega) (by omega)).2 hs.s3, ?_⟩, h1, h2, rfl⟩
      apply Pos.ext'
      · exact ((step_zero d1).1 hs.s1).symm
      · exact ((step_zero d2).1 hs.s2).symm
      · rfl

theorem ffcPairs_keys (m : Mesh) (x : Regrid) : ((x.ffcPairs m).map (·.2)).Nodup := by
  unfold Regrid.ffcPairs
  rw [List.map_flatMap]
  refine nodup_flatMap_key (key := Prod.fst) (List.nodup_range.filter _) ?_ ?_
  · intro n _
    rw [List.Nodup, List.pairwise_map]
    have hnd : (([0] ++ (if m.f2 then [1] else []) ++ (if m.f3 then [2] else [])) : List Nat).Nodup := by
      cases m.f2 <;> cases m.f3 <;> decide
    refine List.Pairwise.filterMap _ ?_ hnd
    intro a a' hne b hb b' hb' he
    simp only [Option.map_eq_some_iff] at hb hb'
    obtain ⟨i, _, rfl⟩ := hb
    obtain ⟨i', _, rfl⟩ := hb'
    simp at he
    exact hne he
  · intro n _ a ha
    simp only [List.mem_map, List.mem_filterMap, Option.map_eq_some_iff] at ha
    obtain ⟨e, ⟨d, _, i, _, rfl⟩, rfl⟩ := ha
    rfl

/-- **C15** All receives posted by a process, for block data and for face fields together, have
different tags; so no two messages between the same two processes can be confused. -/
theorem migration_tags_unique (ha : AdaptStep m t t') (hx : Redistribution m nranks t t' x)
    {r : Nat} (hr : r < nranks) : ((x.recvs r ++ x.ffcRecvs m r).map Msg.tag).Nodup := by
  obtain ⟨S, h⟩ := hx.segs ha
  rw [List.map_append, List.nodup_append]
  have hffc : ∀ a ∈ x.ffcRecvs m r, ∃ i n d, (i, n, d) ∈ x.ffcPairs m ∧ x.newrank n = r ∧
      a.tag = (n - x.nslist r) * 256 + (x.par n d + 2 * d) * 32 + 1 := by
    intro a ha
    unfold Regrid.ffcRecvs at ha
    simp only [List.mem_filterMap, List.mem_filter, decide_eq_true_eq] at ha
    obtain ⟨⟨i, n, d⟩, ⟨h1, h2⟩, h3⟩ := ha
    simp only at h2 h3
    split at h3
    · simp at h3
    · simp only [Option.some.injEq] at h3
      refine ⟨i, n, d, h1, h2, ?_⟩
      have hd := (mem_ffcPairs.1 h1).2.1
      have := par_lt x n d
      rw [← h3, ffcTag_eq _ _ (by omega), h2]
  refine ⟨?_, ?_, ?_⟩
  · refine List.Nodup.map_on ?_ (recvs_nodup x r)
    intro a ha b hb htag
    obtain ⟨o, n, s, i, j, hat, h1, h2, rfl⟩ := (mem_recvs h hr a).1 ha
    obtain ⟨o', n', s', i', j', hat', h1', h2', rfl⟩ := (mem_recvs h hr b).1 hb
    simp only [mkMsg, amrTag_eq, h1, h1'] at htag
    have g1 := ((h.nrank.iff r hr n).2 ⟨(h.nl_eq hat).2, h1⟩).1
    have g2 := ((h.nrank.iff r hr n').2 ⟨(h.nl_eq hat').2, h1'⟩).1
    have hnn : n = n' := by omega
    subst hnn
    obtain ⟨rfl, rfl, e⟩ := hat.new_unique hat'
    have hii : i = i' := by
      have l1 := h.levels hat
      have l2 := h.levels hat'
      have := hat.hi
      have := hat'.hi
      cases s with
      | keep b => simp only at l1; omega
      | split b => simp only at l1; omega
      | merge b =>
        simp only at l1 l2 htag
        obtain ⟨-, -, -, hi, e4⟩ := l1
        obtain ⟨-, -, -, hi', e4'⟩ := l2
        rw [e4, e4'] at htag
        have e0 : ∀ a c : Nat, (2 * a + c % 2) % 2 = c % 2 := by intro a c; omega
        simp only [Pos.child, e0] at htag
        have b1 : i % 2 = i' % 2 := by omega
        have b2 : i / 2 % 2 = i' / 2 % 2 := by omega
        have b3 : i / 4 % 2 = i' / 4 % 2 := by omega
        clear htag
        omega
    have : o = o' := by omega
    subst this
    rfl
  · unfold Regrid.ffcRecvs
    rw [List.Nodup, List.pairwise_map]
    have hk := ffcPairs_keys m x
    rw [List.Nodup, List.pairwise_map] at hk
    have hk2 := List.Pairwise.imp_of_mem (R := fun a b => a.2 ≠ b.2)
      (S := fun a b => a ∈ x.ffcPairs m ∧ b ∈ x.ffcPairs m ∧ x.newrank a.2.1 = r ∧ x.newrank b.2.1 = r ∧ a.2 ≠ b.2)
      (l := (x.ffcPairs m).filter (fun e => x.newrank e.2.1 = r)) (by
        intro a b ha hb hab
        simp only [List.mem_filter, decide_eq_true_eq] at ha hb
        exact ⟨ha.1, hb.1, ha.2, hb.2, hab⟩) (hk.filter _)
    refine List.Pairwise.filterMap _ ?_ hk2
    rintro ⟨i, n, d⟩ ⟨i', n', d'⟩ ⟨m1, m2, q1, q2, hne⟩ b hb b' hb' he
    simp only at hb hb' q1 q2
    split at hb
    · simp at hb
    · split at hb'
      · simp at hb'
      · simp only [Option.some.injEq] at hb hb'
        subst hb hb'
        have hd := (mem_ffcPairs.1 m1).2.1
        have hd' := (mem_ffcPairs.1 m2).2.1
        have := par_lt x n d
        have := par_lt x n' d'
        simp only at he
        rw [ffcTag_eq _ _ (by omega), ffcTag_eq _ _ (by omega), q1, q2] at he
        have n1 := (mem_ffcPairs.1 m1).1
        have n2 := (mem_ffcPairs.1 m2).1
        unfold Regrid.refined at n1 n2
        simp only [List.mem_filter, List.mem_range] at n1 n2
        have g1 := ((h.nrank.iff r hr n).2 ⟨n1.1, q1⟩).1
        have g2 := ((h.nrank.iff r hr n').2 ⟨n2.1, q2⟩).1
        apply hne
        simp only [Prod.mk.injEq]
        omega
  · intro a ha b hb
    simp only [List.mem_map] at ha hb
    obtain ⟨c, hc, rfl⟩ := ha
    obtain ⟨c', hc', rfl⟩ := hb
    obtain ⟨o, n, s, i, j, hat, h1, h2, rfl⟩ := (mem_recvs h hr c).1 hc
    obtain ⟨i', n', d', -, -, h3⟩ := hffc c' hc'
    rw [h3]
    simp only [mkMsg, amrTag_eq]
    intro he
    omega

end

/-! ## Example -/

def exParts2 : List (List FBlock) :=
  [[(2, ⟨0, 0, 0⟩, 1), (2, ⟨1, 0, 0⟩, 0), (3, ⟨4, 0, 0⟩, -1)], [(3, ⟨5, 0, 0⟩, -1), (2, ⟨3, 0, 0⟩, 0)]]

/-- Five blocks before and after: one split, one merger. Old blocks 0-2 and new block 0 on process 0,
the others on process 1. -/
def exRegrid : Regrid where
  nleaf := 2
  loclist := [(2, ⟨0, 0, 0⟩), (2, ⟨1, 0, 0⟩), (3, ⟨4, 0, 0⟩), (3, ⟨5, 0, 0⟩), (2, ⟨3, 0, 0⟩)]
  newloc := [(3, ⟨0, 0, 0⟩), (3, ⟨1, 0, 0⟩), (2, ⟨1, 0, 0⟩), (2, ⟨2, 0, 0⟩), (2, ⟨3, 0, 0⟩)]
  newtoold := [0, 0, 1, 2, 4]
  ranklist := fun i => if i < 3 then 0 else 1
  newrank := fun i => if i < 1 then 0 else 1
  gids := fun r => if r = 0 then 0 else 3
  nold := fun r => if r = 0 then 3 else 2
  nslist := fun r => if r = 0 then 0 else 1
  nblist := fun r => if r = 0 then 1 else 4

theorem exRegrid_facts :
    (exAdd.map (fun s => meshBlocks exMesh1 (s.tree.number exMesh1 0).1)) =
      some ((exRegrid.loclist.zipIdx 0).map (fun b => (b.1.1, b.1.2, Int.ofNat b.2))) ∧
    ((exAdd.bind (fun s => updateTree exMesh1 exSort exParts2 (s.tree.number exMesh1 0).1)).map
      (fun r => (meshBlocks exMesh1 r.1, r.2))) =
      some ((exRegrid.newloc.zip exRegrid.newtoold).map (fun b => (b.1.1, b.1.2, Int.ofNat b.2)), 1, 1) := by
  decide +kernel

/-- The hypotheses of the theorems hold, and messages of all three kinds are sent. -/
theorem exRegrid_ok : ∃ t t', AdaptStep exMesh1 t t' ∧ Redistribution exMesh1 2 t t' exRegrid ∧
    (exRegrid.sends 0).map Msg.kind = [.c2f, .same, .f2c] ∧ exRegrid.recvs 1 = exRegrid.sends 0 := by
  obtain ⟨s, hs, hr, -⟩ := exAdd_reach
  have hf := exRegrid_facts
  rw [hs] at hf
  simp only [Option.map_some, Option.bind_some, Option.some.injEq] at hf
  obtain ⟨h1, h2⟩ := hf
  rcases hu : updateTree exMesh1 exSort exParts2 (s.tree.number exMesh1 0).1 with _ | ⟨t', nn, nd⟩
  · rw [hu] at h2; simp at h2
  · rw [hu] at h2
    simp only [Option.map_some, Option.some.injEq, Prod.mk.injEq] at h2
    obtain ⟨h2, -⟩ := h2
    refine ⟨(s.tree.number exMesh1 0).1, t', ⟨exMesh1_valid, exMesh1_noPolar, exMesh1_noShear,
      ⟨0, .number 0 hr⟩, exParts2, exSort, nn, nd, ⟨?_, ?_⟩, exSort_std, hu⟩, ?_, by decide, by decide⟩
    · rw [h1]; decide
    · intro L p hm
      simp [exParts2] at hm
      simp only [exMesh1]; omega
    · refine ⟨rfl, by rw [h1]; decide, by rw [h2]; decide, by rw [h2]; decide, by rw [h1]; decide, ?_, ?_⟩
      · refine ⟨?_, ?_⟩
        · intro i _; simp only [exRegrid]; split <;> omega
        · intro r hr i
          have : r = 0 ∨ r = 1 := by omega
          rcases this with rfl | rfl <;> simp only [exRegrid] <;> simp <;> omega
      · refine ⟨?_, ?_⟩
        · intro i _; simp only [exRegrid]; split <;> omega
        · intro r hr i
          have : r = 0 ∨ r = 1 := by omega
          rcases this with rfl | rfl <;> simp only [exRegrid] <;> simp <;> omega

end Verif.Tree
