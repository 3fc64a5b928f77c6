import Verif.Lemmas.Migrate
import Verif.Spec.Migrate

/-! # Indices into the old and new lists -/
namespace Verif.Tree

theorem flatMap_index {α β : Type} (f : α → List β) (S : List α) (n : Nat) (h : n < (S.flatMap f).length) :
    ∃ pre s post j, S = pre ++ s :: post ∧ j < (f s).length ∧ n = (pre.flatMap f).length + j := by
  induction S generalizing n with
  | nil => simp at h
  | cons s r ih =>
    simp only [List.flatMap_cons, List.length_append] at h
    rcases Nat.lt_or_ge n (f s).length with h1 | h1
    · exact ⟨[], s, r, n, rfl, h1, by simp⟩
    · obtain ⟨pre, s', post, j, e, hj, hn⟩ := ih (n - (f s).length) (by omega)
      exact ⟨s :: pre, s', post, j, by simp [e], hj, by simp only [List.flatMap_cons, List.length_append]; omega⟩

theorem flatMap_get {α β : Type} (f : α → List β) (pre post : List α) (s : α) (j : Nat) (d : β)
    (hj : j < (f s).length) :
    ((pre ++ s :: post).flatMap f).getD ((pre.flatMap f).length + j) d = (f s).getD j d := by
  rw [List.flatMap_append, List.flatMap_cons]
  simp only [List.getD_eq_getElem?_getD]
  rw [List.getElem?_append_right (by omega), List.getElem?_append_left (by omega)]
  congr 2; omega

theorem len_flatMap_old (m : Mesh) (S : List Seg) : (S.flatMap (Seg.old m)).length = (S.map (Seg.olen m)).sum := by
  simp only [List.length_flatMap]; rfl
theorem len_flatMap_new (m : Mesh) (S : List Seg) : (S.flatMap (Seg.new m)).length = (S.map (Seg.nlen m)).sum := by
  simp only [List.length_flatMap]; rfl

theorem segN2o_append (m : Mesh) (A B : List Seg) (a : Nat) :
    segN2o m (A ++ B) a = segN2o m A a ++ segN2o m B (a + (A.map (Seg.olen m)).sum) := by
  induction A generalizing a with
  | nil => simp [segN2o]
  | cons s r ih => simp [segN2o, ih, Nat.add_assoc]

theorem segO2n_append (m : Mesh) (A B : List Seg) (a : Nat) :
    segO2n m (A ++ B) a = segO2n m A a ++ segO2n m B (a + (A.map (Seg.nlen m)).sum) := by
  induction A generalizing a with
  | nil => simp [segO2n]
  | cons s r ih => simp [segO2n, ih, Nat.add_assoc]

theorem segN2o_get (m : Mesh) (pre post : List Seg) (s : Seg) (j : Nat) (hj : j < s.nlen m) :
    (segN2o m (pre ++ s :: post) 0).getD ((pre.flatMap (Seg.new m)).length + j) 0
      = (pre.flatMap (Seg.old m)).length := by
  rw [segN2o_append, len_flatMap_new, len_flatMap_old]
  simp only [List.getD_eq_getElem?_getD, segN2o, Nat.zero_add]
  rw [List.getElem?_append_right (by rw [segN2o_length]; omega), List.getElem?_append_left (by
    rw [segN2o_length]; simp; omega)]
  rw [segN2o_length, List.getElem?_replicate, if_pos (by omega)]
  rfl

theorem segO2n_get (m : Mesh) (pre post : List Seg) (s : Seg) (i : Nat) (hi : i < s.olen m) :
    (segO2n m (pre ++ s :: post) 0).getD ((pre.flatMap (Seg.old m)).length + i) 0
      = (pre.flatMap (Seg.new m)).length := by
  rw [segO2n_append, len_flatMap_new, len_flatMap_old]
  simp only [List.getD_eq_getElem?_getD, segO2n, Nat.zero_add]
  rw [List.getElem?_append_right (by rw [segO2n_length]; omega), List.getElem?_append_left (by
    rw [segO2n_length]; simp; omega)]
  rw [segO2n_length, List.getElem?_replicate, if_pos (by omega)]
  rfl

/-- The data of a redistribution belong to a sequence of kept, split and merged blocks, and the block
numbers of each process form an interval. -/
structure OfSegs (m : Mesh) (nranks : Nat) (x : Regrid) (S : List Seg) : Prop where
  leaf : x.nleaf = m.nleaf
  ne : S ≠ []
  old : x.loclist = S.flatMap (Seg.old m)
  new : x.newloc = S.flatMap (Seg.new m)
  n2o : x.newtoold = segN2o m S 0
  orank : Intervals nranks x.loclist.length x.ranklist x.gids x.nold
  nrank : Intervals nranks x.newloc.length x.newrank x.nslist x.nblist

/-- Old block number `i` and new block number `j` of a segment. -/
structure At (m : Mesh) (S : List Seg) (o n : Nat) (s : Seg) (i j : Nat) : Prop where
  ex : ∃ pre post, S = pre ++ s :: post ∧ o = (pre.flatMap (Seg.old m)).length + i ∧
    n = (pre.flatMap (Seg.new m)).length + j
  hi : i < s.olen m
  hj : j < s.nlen m

section
variable {m : Mesh} {nranks : Nat} {x : Regrid} {S : List Seg} (h : OfSegs m nranks x S)
include h

theorem OfSegs.of_new {n : Nat} (hn : n < x.newloc.length) :
    ∃ s j, ∀ i < s.olen m, At m S (x.n2o n + i) n s i j := by
  rw [h.new] at hn
  obtain ⟨pre, s, post, j, e, hj, e2⟩ := flatMap_index _ _ _ hn
  refine ⟨s, j, fun i hi => ⟨⟨pre, post, e, ?_, e2⟩, hi, hj⟩⟩
  have := segN2o_get m pre post s j hj
  rw [← e, ← e2, ← h.n2o] at this
  unfold Regrid.n2o; rw [this]

theorem OfSegs.of_old {o : Nat} (ho : o < x.loclist.length) :
    ∃ s i, ∀ j < s.nlen m, At m S o (x.o2n o + j) s i j := by
  have hl := ho
  rw [h.old] at ho
  obtain ⟨pre, s, post, i, e, hi, e2⟩ := flatMap_index _ _ _ ho
  refine ⟨s, i, fun j hj => ⟨⟨pre, post, e, e2, ?_⟩, hi, hj⟩⟩
  have := segO2n_get m pre post s i hi
  rw [← e, ← e2] at this
  unfold Regrid.o2n
  rw [h.leaf, h.n2o, h.old, len_flatMap_old, oldToNew_segs m S h.ne, this]

theorem OfSegs.n2o_eq {o n : Nat} {s : Seg} {i j : Nat} (a : At m S o n s i j) : x.n2o n + i = o := by
  obtain ⟨⟨pre, post, e, e1, e2⟩, hi, hj⟩ := a
  have := segN2o_get m pre post s j hj
  rw [← e, ← e2, ← h.n2o] at this
  unfold Regrid.n2o; rw [this, e1]

theorem OfSegs.o2n_eq {o n : Nat} {s : Seg} {i j : Nat} (a : At m S o n s i j) : x.o2n o + j = n := by
  obtain ⟨⟨pre, post, e, e1, e2⟩, hi, hj⟩ := a
  have := segO2n_get m pre post s i hi
  rw [← e, ← e1] at this
  unfold Regrid.o2n
  rw [h.leaf, h.n2o, h.old, len_flatMap_old, oldToNew_segs m S h.ne, this, e2]

theorem OfSegs.ol_eq {o n : Nat} {s : Seg} {i j : Nat} (a : At m S o n s i j) :
    x.ol o = (s.old m).getD i (0, ⟨0, 0, 0⟩) ∧ o < x.loclist.length := by
  obtain ⟨⟨pre, post, e, e1, e2⟩, hi, hj⟩ := a
  unfold Regrid.ol
  rw [h.old, e, e1, flatMap_get _ _ _ _ _ _ hi]
  refine ⟨rfl, ?_⟩
  rw [List.flatMap_append, List.flatMap_cons]
  simp only [List.length_append]
  unfold Seg.olen at hi; omega

theorem OfSegs.nl_eq {o n : Nat} {s : Seg} {i j : Nat} (a : At m S o n s i j) :
    x.nl n = (s.new m).getD j (0, ⟨0, 0, 0⟩) ∧ n < x.newloc.length := by
  obtain ⟨⟨pre, post, e, e1, e2⟩, hi, hj⟩ := a
  unfold Regrid.nl
  rw [h.new, e, e2, flatMap_get _ _ _ _ _ _ hj]
  refine ⟨rfl, ?_⟩
  rw [List.flatMap_append, List.flatMap_cons]
  simp only [List.length_append]
  unfold Seg.nlen at hj; omega

end

theorem kids_getD (m : Mesh) (b : Nat × Pos) (i : Nat) (hi : i < m.nleaf) :
    (m.kids.map (fun n => (b.1 + 1, b.2.child n))).getD i (0, ⟨0, 0, 0⟩) =
      (b.1 + 1, b.2.child ⟨i, by have := m.nleaf_le; omega⟩) := by
  have hl : i < m.kids.length := by rw [kids_length]; exact hi
  rw [List.getD_eq_getElem?_getD, List.getElem?_map, List.getElem?_eq_getElem hl]
  simp only [Option.map_some, Option.getD_some]
  congr 2
  apply Fin.ext
  have := kids_range m
  have h2 : (m.kids.map (·.val))[i]'(by simpa using hl) = i := by
    simp only [this]; simp
  simpa using h2

/-- Levels in a segment. -/
theorem OfSegs.levels {m : Mesh} {nranks : Nat} {x : Regrid} {S : List Seg} (h : OfSegs m nranks x S) {o n : Nat} {s : Seg} {i j : Nat}
    (a : At m S o n s i j) :
    match s with
    | .keep b => x.ol o = b ∧ x.nl n = b ∧ s.olen m = 1 ∧ s.nlen m = 1
    | .split b => x.ol o = b ∧ s.olen m = 1 ∧ s.nlen m = m.nleaf ∧
        ∃ hj : j < 8, x.nl n = (b.1 + 1, b.2.child ⟨j, hj⟩)
    | .merge b => x.nl n = b ∧ s.nlen m = 1 ∧ s.olen m = m.nleaf ∧
        ∃ hi : i < 8, x.ol o = (b.1 + 1, b.2.child ⟨i, hi⟩) := by
  have h1 := (h.ol_eq a).1
  have h2 := (h.nl_eq a).1
  have hi := a.hi
  have hj := a.hj
  cases s with
  | keep b =>
    simp only [Seg.olen, Seg.nlen, Seg.old, Seg.new, List.length_singleton] at *
    have : i = 0 := by omega
    have : j = 0 := by omega
    subst i j
    exact ⟨h1, h2, trivial, trivial⟩
  | split b =>
    simp only [Seg.olen, Seg.nlen, Seg.old, Seg.new, List.length_singleton, List.length_map, kids_length] at *
    have : i = 0 := by omega
    subst i
    refine ⟨h1, trivial, trivial, by have := m.nleaf_le; omega, ?_⟩
    rw [h2, kids_getD m b j hj]
  | merge b =>
    simp only [Seg.olen, Seg.nlen, Seg.old, Seg.new, List.length_singleton, List.length_map, kids_length] at *
    have : j = 0 := by omega
    subst j
    refine ⟨h2, trivial, trivial, by have := m.nleaf_le; omega, ?_⟩
    rw [h1, kids_getD m b i hi]

/-- The message carrying old block `o` to new block `n`. -/
def mkMsg (x : Regrid) (o n : Nat) (s : Seg) : Msg :=
  ⟨x.ranklist o, x.newrank n,
    amrTag (n - x.nslist (x.newrank n)) (match s with | .merge _ => (x.ol o).2 | _ => ⟨0, 0, 0⟩),
    (match s with | .keep _ => .same | .split _ => .c2f | .merge _ => .f2c), o, n⟩

theorem mem_recvs {m : Mesh} {nranks : Nat} {x : Regrid} {S : List Seg} (h : OfSegs m nranks x S) {my : Nat} (hmy : my < nranks) (msg : Msg) :
    msg ∈ x.recvs my ↔ ∃ o n s i j, At m S o n s i j ∧ x.newrank n = my ∧ x.ranklist o ≠ my ∧
      msg = mkMsg x o n s := by
  unfold Regrid.recvs
  simp only [List.mem_flatMap, List.mem_range'_1]
  constructor
  · rintro ⟨n, hn, hmem⟩
    obtain ⟨hn1, hn2⟩ := (h.nrank.iff my hmy n).1 hn
    obtain ⟨s, j, ha⟩ := h.of_new hn1
    have a0 := ha 0 (by have := s.lens m; have := nleaf_ge m; omega)
    have hlev := h.levels a0
    simp only [Nat.add_zero] at hlev
    cases s with
    | keep b =>
      simp only at hlev
      rw [hlev.1, hlev.2.1, if_neg (by omega)] at hmem
      split at hmem
      · simp at hmem
      · rename_i hr
        simp only [List.mem_singleton] at hmem
        exact ⟨_, n, _, 0, j, a0, hn2, by simpa using hr, by simp [hmem, mkMsg, hn2]⟩
    | split b =>
      simp only at hlev
      obtain ⟨e1, e2, e3, hj, e4⟩ := hlev
      rw [e1, e4, if_neg (by simp only; omega)] at hmem
      split at hmem
      · simp at hmem
      · rename_i hr
        simp only [List.mem_singleton] at hmem
        exact ⟨_, n, _, 0, j, a0, hn2, by simpa using hr, by simp [hmem, mkMsg, hn2]⟩
    | merge b =>
      simp only at hlev
      obtain ⟨e1, e2, e3, hi, e4⟩ := hlev
      rw [e1, e4, if_pos (by simp only; omega)] at hmem
      simp only [List.mem_flatMap, List.mem_range] at hmem
      obtain ⟨l, hl, hmem⟩ := hmem
      split at hmem
      · simp at hmem
      · rename_i hr
        simp only [List.mem_singleton] at hmem
        rw [h.leaf] at hl
        exact ⟨_, n, _, l, j, ha l (by omega), hn2, by simpa using hr, by simp [hmem, mkMsg, hn2]⟩
  · rintro ⟨o, n, s, i, j, a, hn2, hr, rfl⟩
    have hn1 := (h.nl_eq a).2
    refine ⟨n, (h.nrank.iff my hmy n).2 ⟨hn1, hn2⟩, ?_⟩
    have hlev := h.levels a
    have ho := h.n2o_eq a
    have hi := a.hi
    cases s with
    | keep b =>
      simp only at hlev
      have : i = 0 := by omega
      subst this
      simp only [Nat.add_zero] at ho
      rw [ho, hlev.1, hlev.2.1, if_neg (by omega), if_neg hr]
      simp [mkMsg, hn2]
    | split b =>
      simp only at hlev
      obtain ⟨e1, e2, e3, hj, e4⟩ := hlev
      have : i = 0 := by omega
      subst this
      simp only [Nat.add_zero] at ho
      rw [ho, e1, e4, if_neg (by simp only; omega), if_neg hr]
      simp [mkMsg, hn2]
    | merge b =>
      simp only at hlev
      obtain ⟨e1, e2, e3, hi8, e4⟩ := hlev
      obtain ⟨s0, j0, ha⟩ := h.of_new hn1
      have a0 : At m S (x.n2o n) n (.merge b) 0 j := by
        obtain ⟨⟨pre, post, p1, p2, p3⟩, q1, q2⟩ := a
        exact ⟨⟨pre, post, p1, by omega, p3⟩, by omega, q2⟩
      have hl0 := h.levels a0
      simp only at hl0
      obtain ⟨-, -, -, hi0, f4⟩ := hl0
      rw [e1, f4, if_pos (by simp only; omega)]
      simp only [List.mem_flatMap, List.mem_range]
      refine ⟨i, by rw [h.leaf]; omega, ?_⟩
      rw [ho, if_neg hr]
      simp [mkMsg, hn2]

theorem mem_sends {m : Mesh} {nranks : Nat} {x : Regrid} {S : List Seg} (h : OfSegs m nranks x S) {my : Nat} (hmy : my < nranks) (msg : Msg) :
    msg ∈ x.sends my ↔ ∃ o n s i j, At m S o n s i j ∧ x.ranklist o = my ∧ x.newrank n ≠ my ∧
      msg = mkMsg x o n s := by
  unfold Regrid.sends
  simp only [List.mem_flatMap, List.mem_range'_1]
  constructor
  · rintro ⟨o, hn, hmem⟩
    obtain ⟨ho1, ho2⟩ := (h.orank.iff my hmy o).1 hn
    obtain ⟨s, i, ha⟩ := h.of_old ho1
    have a0 := ha 0 (by have := s.lens m; have := nleaf_ge m; omega)
    have hlev := h.levels a0
    simp only [Nat.add_zero] at hlev a0
    cases s with
    | keep b =>
      simp only at hlev
      rw [hlev.1, hlev.2.1, if_pos rfl] at hmem
      split at hmem
      · simp at hmem
      · rename_i hr
        simp only [List.mem_singleton] at hmem
        exact ⟨o, _, _, i, 0, a0, ho2, by simpa using hr, by simp [hmem, mkMsg, ho2]⟩
    | split b =>
      simp only at hlev
      obtain ⟨e1, e2, e3, hj, e4⟩ := hlev
      rw [e1, e4, if_neg (by simp only; omega), if_pos (by simp only; omega)] at hmem
      simp only [List.mem_flatMap, List.mem_range] at hmem
      obtain ⟨l, hl, hmem⟩ := hmem
      split at hmem
      · simp at hmem
      · rename_i hr
        simp only [List.mem_singleton] at hmem
        rw [h.leaf] at hl
        exact ⟨o, _, _, i, l, ha l (by omega), ho2, by simpa using hr, by simp [hmem, mkMsg, ho2]⟩
    | merge b =>
      simp only at hlev
      obtain ⟨e1, e2, e3, hi, e4⟩ := hlev
      rw [e1, e4, if_neg (by simp only; omega), if_neg (by simp only; omega)] at hmem
      split at hmem
      · simp at hmem
      · rename_i hr
        simp only [List.mem_singleton] at hmem
        exact ⟨o, _, _, i, 0, a0, ho2, by simpa using hr, by simp [hmem, mkMsg, ho2, e4]⟩
  · rintro ⟨o, n, s, i, j, a, ho2, hr, rfl⟩
    have ho1 := (h.ol_eq a).2
    refine ⟨o, (h.orank.iff my hmy o).2 ⟨ho1, ho2⟩, ?_⟩
    have hlev := h.levels a
    have hn := h.o2n_eq a
    have hj := a.hj
    cases s with
    | keep b =>
      simp only at hlev
      have : j = 0 := by omega
      subst this
      simp only [Nat.add_zero] at hn
      rw [hn, hlev.1, hlev.2.1, if_pos rfl, if_neg hr]
      simp [mkMsg, ho2]
    | split b =>
      simp only at hlev
      obtain ⟨e1, e2, e3, hj8, e4⟩ := hlev
      have a0 : At m S o (x.o2n o) (.split b) i 0 := by
        obtain ⟨⟨pre, post, p1, p2, p3⟩, q1, q2⟩ := a
        exact ⟨⟨pre, post, p1, p2, by omega⟩, q1, by omega⟩
      have hl0 := h.levels a0
      simp only at hl0
      obtain ⟨-, -, -, hi0, f4⟩ := hl0
      rw [e1, f4, if_neg (by simp only; omega), if_pos (by simp only; omega)]
      simp only [List.mem_flatMap, List.mem_range]
      refine ⟨j, by rw [h.leaf]; omega, ?_⟩
      rw [hn, if_neg hr]
      simp [mkMsg, ho2]
    | merge b =>
      simp only at hlev
      obtain ⟨e1, e2, e3, hi8, e4⟩ := hlev
      have : j = 0 := by omega
      subst this
      simp only [Nat.add_zero] at hn
      rw [hn, e1, e4, if_neg (by simp only; omega), if_neg (by simp only; omega), if_neg hr]
      simp [mkMsg, ho2, e4]

end Verif.Tree
