import Verif.Lemmas.MigrateTree
import Mathlib.Data.Nat.Bitwise

/-! # Messages of the redistribution -/
namespace Verif.Tree

theorem mem_locals {m : Mesh} {nranks : Nat} {x : Regrid} {S : List Seg} (h : OfSegs m nranks x S) {my : Nat}
    (hmy : my < nranks) (o n : Nat) :
    (o, n) ∈ x.locals my ↔ ∃ s i j, At m S o n s i j ∧ x.newrank n = my ∧ x.ranklist o = my := by
  unfold Regrid.locals
  simp only [List.mem_flatMap, List.mem_range'_1]
  constructor
  · rintro ⟨n', hn, hmem⟩
    obtain ⟨hn1, hn2⟩ := (h.nrank.iff my hmy n').1 hn
    obtain ⟨s, j, ha⟩ := h.of_new hn1
    have a0 := ha 0 (by have := s.lens m; have := nleaf_ge m; omega)
    have hlev := h.levels a0
    simp only [Nat.add_zero] at hlev a0
    cases s with
    | keep b =>
      simp only at hlev
      rw [hlev.1, hlev.2.1, if_neg (by omega : ¬ b.1 > b.1)] at hmem
      split at hmem
      · rename_i hr
        simp only [List.mem_singleton, Prod.mk.injEq] at hmem
        obtain ⟨rfl, rfl⟩ := hmem
        exact ⟨_, 0, j, a0, hn2, hr.1⟩
      · rw [if_neg (by omega)] at hmem; simp at hmem
    | split b =>
      simp only at hlev
      obtain ⟨e1, e2, e3, hj, e4⟩ := hlev
      rw [e1, e4, if_neg (by simp only; omega), if_neg (by simp only; omega)] at hmem
      split at hmem
      · rename_i hr
        simp only [List.mem_singleton, Prod.mk.injEq] at hmem
        obtain ⟨rfl, rfl⟩ := hmem
        exact ⟨_, 0, j, a0, hn2, hr.2⟩
      · simp at hmem
    | merge b =>
      simp only at hlev
      obtain ⟨e1, e2, e3, hi, e4⟩ := hlev
      rw [e1, e4, if_neg (by simp only; omega), if_pos (by simp only; omega)] at hmem
      simp only [List.mem_flatMap, List.mem_range] at hmem
      obtain ⟨l, hl, hmem⟩ := hmem
      split at hmem
      · simp at hmem
      · rename_i hr
        simp only [List.mem_singleton, Prod.mk.injEq] at hmem
        obtain ⟨rfl, rfl⟩ := hmem
        rw [h.leaf] at hl
        exact ⟨_, l, j, ha l (by omega), hn2, by simpa using hr⟩
  · rintro ⟨s, i, j, a, hn2, hr⟩
    have hn1 := (h.nl_eq a).2
    refine ⟨n, (h.nrank.iff my hmy n).2 ⟨hn1, hn2⟩, ?_⟩
    have hlev := h.levels a
    have ho := h.n2o_eq a
    have hi := a.hi
    cases s with
    | keep b =>
      simp only at hlev
      have : i = 0 := by omega
      subst this
      simp only [Nat.add_zero] at ho
      rw [ho, hlev.1, hlev.2.1, if_pos ⟨hr, rfl⟩]
      simp
    | split b =>
      simp only at hlev
      obtain ⟨e1, e2, e3, hj, e4⟩ := hlev
      have : i = 0 := by omega
      subst this
      simp only [Nat.add_zero] at ho
      rw [ho, e1, e4, if_neg (by simp only; omega), if_neg (by simp only; omega), if_pos ⟨by simp only; omega, hr⟩]
      simp
    | merge b =>
      simp only at hlev
      obtain ⟨e1, e2, e3, hi8, e4⟩ := hlev
      have a0 : At m S (x.n2o n) n (.merge b) 0 j := by
        obtain ⟨⟨pre, post, p1, p2, p3⟩, q1, q2⟩ := a
        exact ⟨⟨pre, post, p1, by omega, p3⟩, by omega, q2⟩
      have hl0 := h.levels a0
      simp only at hl0
      obtain ⟨-, -, -, hi0, f4⟩ := hl0
      rw [e1, f4, if_neg (by simp only; omega), if_pos (by simp only; omega)]
      simp only [List.mem_flatMap, List.mem_range]
      refine ⟨i, by rw [h.leaf]; omega, ?_⟩
      rw [ho, if_neg (by simp [hr])]
      simp

/-! ## No duplicates -/

theorem nodup_flatMap_key {α : Type} {f : Nat → List α} {key : α → Nat} {l : List Nat} (hl : l.Nodup)
    (h1 : ∀ n ∈ l, (f n).Nodup) (hk : ∀ n ∈ l, ∀ a ∈ f n, key a = n) : (l.flatMap f).Nodup := by
  rw [List.nodup_flatMap]
  refine ⟨h1, ?_⟩
  rw [List.Nodup] at hl
  refine List.Pairwise.imp_of_mem ?_ hl
  intro a b ha hb hab c hca hcb
  exact hab ((hk a ha c hca).symm.trans (hk b hb c hcb))

theorem nodup_ite_singleton {α : Type} (p : Prop) [Decidable p] (a : α) :
    (if p then [] else [a]).Nodup := by split <;> simp

theorem recvs_nodup (x : Regrid) (my : Nat) : (x.recvs my).Nodup := by
  unfold Regrid.recvs
  refine nodup_flatMap_key (key := Msg.new) (List.nodup_range' (step := 1)) ?_ ?_
  · intro n _
    simp only
    split
    · refine nodup_flatMap_key (key := fun a => a.old - x.n2o n) List.nodup_range ?_ ?_
      · intro l _; exact nodup_ite_singleton _ _
      · intro l _ a ha
        split at ha
        · simp at ha
        · simp at ha; simp [ha]
    · exact nodup_ite_singleton _ _
  · intro n _ a ha
    simp only at ha
    split at ha
    · simp only [List.mem_flatMap] at ha
      obtain ⟨l, _, ha⟩ := ha
      split at ha
      · simp at ha
      · simp at ha; simp [ha]
    · split at ha
      · simp at ha
      · simp at ha; simp [ha]

theorem sends_nodup (x : Regrid) (my : Nat) : (x.sends my).Nodup := by
  unfold Regrid.sends
  refine nodup_flatMap_key (key := Msg.old) (List.nodup_range' (step := 1)) ?_ ?_
  · intro n _
    simp only
    split
    · exact nodup_ite_singleton _ _
    · split
      · refine nodup_flatMap_key (key := fun a => a.new - x.o2n n) List.nodup_range ?_ ?_
        · intro l _; exact nodup_ite_singleton _ _
        · intro l _ a ha
          split at ha
          · simp at ha
          · simp at ha; simp [ha]
      · exact nodup_ite_singleton _ _
  · intro n _ a ha
    simp only at ha
    split at ha
    · split at ha
      · simp at ha
      · simp at ha; simp [ha]
    · split at ha
      · simp only [List.mem_flatMap] at ha
        obtain ⟨l, _, ha⟩ := ha
        split at ha
        · simp at ha
        · simp at ha; simp [ha]
      · split at ha
        · simp at ha
        · simp at ha; simp [ha]

/-! ## Tags -/

theorem amrTag_eq (lid : Nat) (o : Pos) :
    amrTag lid o = lid * 256 + (o.x1 % 2) * 128 + (o.x2 % 2) * 64 + (o.x3 % 2) * 32 := by
  unfold amrTag
  rw [Nat.or_assoc, Nat.or_assoc]
  have e3 : (o.x3 % 2) <<< 5 = (o.x3 % 2) * 32 := by simp [Nat.shiftLeft_eq]
  have h2 : (o.x2 % 2) <<< 6 ||| (o.x3 % 2) <<< 5 = (o.x2 % 2) * 64 + (o.x3 % 2) * 32 := by
    rw [← Nat.shiftLeft_add_eq_or_of_lt (by rw [e3]; omega)]; simp [Nat.shiftLeft_eq]
  have h1 : (o.x1 % 2) <<< 7 ||| ((o.x2 % 2) <<< 6 ||| (o.x3 % 2) <<< 5) =
      (o.x1 % 2) * 128 + ((o.x2 % 2) * 64 + (o.x3 % 2) * 32) := by
    rw [h2, ← Nat.shiftLeft_add_eq_or_of_lt (by omega)]; simp [Nat.shiftLeft_eq]
  rw [h1, ← Nat.shiftLeft_add_eq_or_of_lt (by omega)]
  simp [Nat.shiftLeft_eq]; omega

theorem ffcTag_eq (lid face : Nat) (hf : face < 8) : ffcTag lid face = lid * 256 + face * 32 + 1 := by
  unfold ffcTag
  rw [Nat.or_assoc]
  have h1 : face <<< 5 ||| 1 = face * 32 + 1 := by
    rw [← Nat.shiftLeft_add_eq_or_of_lt (by omega)]; simp [Nat.shiftLeft_eq]
  rw [h1, ← Nat.shiftLeft_add_eq_or_of_lt (by omega)]
  simp [Nat.shiftLeft_eq]; omega

/-! ## Which segment -/

theorem split_cases {α : Type} {pre pre' post post' : List α} {s s' : α}
    (h : pre ++ s :: post = pre' ++ s' :: post') :
    (pre = pre' ∧ s = s') ∨ (∃ mid, pre' = pre ++ s :: mid) ∨ (∃ mid, pre = pre' ++ s' :: mid) := by
  rcases List.append_eq_append_iff.1 h with ⟨a, h1, h2⟩ | ⟨a, h1, h2⟩
  · rcases a with _ | ⟨b, a⟩
    · simp at h1 h2; exact .inl ⟨h1.symm, h2.1⟩
    · simp at h2; right; left; exact ⟨a, by rw [h1, h2.1]⟩
  · rcases a with _ | ⟨b, a⟩
    · simp at h1 h2; exact .inl ⟨h1, h2.1.symm⟩
    · simp at h2; right; right; exact ⟨a, by rw [h1, h2.1]⟩

theorem flatMap_index_unique {α β : Type} (f : α → List β) {pre pre' post post' : List α} {s s' : α} {j j' : Nat}
    (h : pre ++ s :: post = pre' ++ s' :: post') (hj : j < (f s).length) (hj' : j' < (f s').length)
    (he : (pre.flatMap f).length + j = (pre'.flatMap f).length + j') : pre = pre' ∧ s = s' ∧ j = j' := by
  rcases split_cases h with ⟨rfl, rfl⟩ | ⟨mid, rfl⟩ | ⟨mid, rfl⟩
  · exact ⟨rfl, rfl, by omega⟩
  · exfalso; simp at he; omega
  · exfalso; simp at he; omega

theorem At.new_unique {m : Mesh} {S : List Seg} {o o' n : Nat} {s s' : Seg} {i i' j j' : Nat}
    (h : At m S o n s i j) (h' : At m S o' n s' i' j') : s = s' ∧ j = j' ∧ o + i' = o' + i := by
  obtain ⟨⟨pre, post, e1, e2, e3⟩, hi, hj⟩ := h
  obtain ⟨⟨pre', post', f1, f2, f3⟩, hi', hj'⟩ := h'
  obtain ⟨rfl, rfl, rfl⟩ := flatMap_index_unique (Seg.new m) (e1.symm.trans f1) hj hj' (by omega)
  exact ⟨rfl, rfl, by omega⟩

theorem flatMap_pairwise {α β : Type} {f : α → List β} {R : β → β → Prop} {pre mid post : List α} {s s' : α}
    (h : ((pre ++ s :: mid ++ s' :: post).flatMap f).Pairwise R) {a b : β} (ha : a ∈ f s) (hb : b ∈ f s') : R a b := by
  rw [List.flatMap_append, List.pairwise_append] at h
  refine h.2.2 a ?_ b ?_
  · simp only [List.mem_flatMap]; exact ⟨s, by simp, ha⟩
  · simp only [List.mem_flatMap]; exact ⟨s', by simp, hb⟩

theorem Overlap.symm {a b : Nat × Pos} (h : Overlap a b) : Overlap b a := Or.symm h

theorem zBefore_not_overlap {a b : Nat × Pos} (h : ZBefore a.1 a.2 b.1 b.2) : ¬ Overlap a b := by
  obtain ⟨L, p⟩ := a
  obtain ⟨K, q⟩ := b
  unfold ZBefore at h
  simp only at h
  rintro (hc | hc)
  · rw [covers_iff] at hc
    obtain ⟨h1, h2⟩ := hc
    simp only at h1 h2
    obtain ⟨j, rfl⟩ : ∃ j, K = L + j := ⟨K - L, by omega⟩
    rw [show L + j - L = j by omega] at h2
    have := (morton_shr L j q).2
    rw [h2] at this
    have h3 : (morton L p + 1) * 8 ^ (L + j) = 8 ^ j * (morton L p + 1) * 8 ^ L := by ring
    rw [h3] at h
    have := Nat.le_of_mul_le_mul_right h (Nat.pow_pos (by omega))
    omega
  · rw [covers_iff] at hc
    obtain ⟨h1, h2⟩ := hc
    simp only at h1 h2
    obtain ⟨j, rfl⟩ : ∃ j, L = K + j := ⟨L - K, by omega⟩
    rw [show K + j - K = j by omega] at h2
    have := (morton_shr K j p).1
    rw [h2] at this
    have h3 : morton K q * 8 ^ (K + j) = 8 ^ j * morton K q * 8 ^ K := by ring
    rw [h3] at h
    have := Nat.le_of_mul_le_mul_right h (Nat.pow_pos (by omega))
    omega

def Seg.base : Seg → Nat × Pos
  | .keep b => b
  | .split b => b
  | .merge b => b

theorem covers_refl (b : Nat × Pos) : Covers b.1 b.2 b.1 b.2 := by rw [covers_iff]; simp

theorem covers_child (b : Nat × Pos) (n : Fin 8) : Covers b.1 b.2 (b.1 + 1) (b.2.child n) := by
  rw [covers_iff]; simp [Pos.shr_one]

theorem Covers.trans {L M N : Nat} {p q r : Pos} (h : Covers L p M q) (h' : Covers M q N r) : Covers L p N r := by
  rw [covers_iff] at *
  obtain ⟨h1, h2⟩ := h
  obtain ⟨h3, h4⟩ := h'
  refine ⟨by omega, ?_⟩
  rw [show N - L = (N - M) + (M - L) by omega, ← Pos.shr_shr, h4, h2]

theorem Seg.base_old {m : Mesh} {s : Seg} {a : Nat × Pos} (h : a ∈ s.old m) : Covers s.base.1 s.base.2 a.1 a.2 := by
  cases s with
  | keep b => simp [Seg.old] at h; subst h; exact covers_refl _
  | split b => simp [Seg.old] at h; subst h; exact covers_refl _
  | merge b =>
    simp [Seg.old] at h
    obtain ⟨n, _, rfl⟩ := h
    exact covers_child b n

theorem Seg.base_new {m : Mesh} {s : Seg} {a : Nat × Pos} (h : a ∈ s.new m) : Covers s.base.1 s.base.2 a.1 a.2 := by
  cases s with
  | keep b => simp [Seg.new] at h; subst h; exact covers_refl _
  | merge b => simp [Seg.new] at h; subst h; exact covers_refl _
  | split b =>
    simp [Seg.new] at h
    obtain ⟨n, _, rfl⟩ := h
    exact covers_child b n

theorem covers_chain {a b : Nat × Pos} {M : Nat} {r : Pos} (h : Covers a.1 a.2 M r) (h' : Covers b.1 b.2 M r) :
    Overlap a b := by
  unfold Overlap
  rw [covers_iff] at *
  rw [covers_iff]
  obtain ⟨h1, h2⟩ := h
  obtain ⟨h3, h4⟩ := h'
  rcases Nat.le_total a.1 b.1 with h | h
  · left
    refine ⟨h, ?_⟩
    rw [← h4, Pos.shr_shr, ← h2]; congr 1; omega
  · right
    refine ⟨h, ?_⟩
    rw [← h2, Pos.shr_shr, ← h4]; congr 1; omega

/-- Blocks of different segments do not overlap. -/
theorem segs_disjoint {m : Mesh} {S : List Seg}
    (ho : (S.flatMap (Seg.old m)).Pairwise (fun a b => ZBefore a.1 a.2 b.1 b.2))
    (hn : (S.flatMap (Seg.new m)).Pairwise (fun a b => ZBefore a.1 a.2 b.1 b.2))
    {pre mid post : List Seg} {s s' : Seg} (hS : S = pre ++ s :: mid ++ s' :: post) :
    ¬ Overlap s.base s'.base := by
  have key : ∀ a b, (a ∈ s.old m ∧ b ∈ s'.old m) ∨ (a ∈ s.new m ∧ b ∈ s'.new m) → ¬ Overlap a b := by
    rintro a b (⟨h1, h2⟩ | ⟨h1, h2⟩)
    · rw [hS] at ho; exact zBefore_not_overlap (flatMap_pairwise ho h1 h2)
    · rw [hS] at hn; exact zBefore_not_overlap (flatMap_pairwise hn h1 h2)
  have ne_old : ∀ s : Seg, ∃ a, a ∈ s.old m := fun s => by
    have := s.lens m; have := nleaf_ge m
    have h : 0 < (s.old m).length := by unfold Seg.olen at *; omega
    exact ⟨_, List.getElem_mem h⟩
  have ne_new : ∀ s : Seg, ∃ a, a ∈ s.new m := fun s => by
    have := s.lens m; have := nleaf_ge m
    have h : 0 < (s.new m).length := by unfold Seg.nlen at *; omega
    exact ⟨_, List.getElem_mem h⟩
  have self : ∀ s : Seg, s.base ∈ s.old m ∨ s.base ∈ s.new m := by
    intro s; cases s <;> simp [Seg.base, Seg.old, Seg.new]
  rintro (h | h)
  · rcases self s with h1 | h1
    · obtain ⟨b, hb⟩ := ne_old s'
      exact key _ b (.inl ⟨h1, hb⟩) (.inl (h.trans (Seg.base_old hb)))
    · obtain ⟨b, hb⟩ := ne_new s'
      exact key _ b (.inr ⟨h1, hb⟩) (.inl (h.trans (Seg.base_new hb)))
  · rcases self s' with h1 | h1
    · obtain ⟨b, hb⟩ := ne_old s
      exact key b _ (.inl ⟨hb, h1⟩) (.inr (h.trans (Seg.base_old hb)))
    · obtain ⟨b, hb⟩ := ne_new s
      exact key b _ (.inr ⟨hb, h1⟩) (.inr (h.trans (Seg.base_new hb)))

/-- Old and new block share cells exactly if they belong to the same segment. -/
theorem OfSegs.overlap_iff {m : Mesh} {nranks : Nat} {x : Regrid} {S : List Seg} (h : OfSegs m nranks x S)
    (ho : x.loclist.Pairwise (fun a b => ZBefore a.1 a.2 b.1 b.2))
    (hn : x.newloc.Pairwise (fun a b => ZBefore a.1 a.2 b.1 b.2)) {o n : Nat}
    (hol : o < x.loclist.length) (hnl : n < x.newloc.length) :
    Overlap (x.ol o) (x.nl n) ↔ ∃ s i j, At m S o n s i j := by
  constructor
  · intro hov
    rw [h.old] at hol
    rw [h.new] at hnl
    obtain ⟨pre, s, post, i, e, hi, e2⟩ := flatMap_index _ _ _ hol
    obtain ⟨pre', s', post', j, f, hj, f2⟩ := flatMap_index _ _ _ hnl
    have m1 : x.ol o ∈ s.old m := by
      unfold Regrid.ol
      rw [h.old, e, e2, flatMap_get _ _ _ _ _ _ hi, List.getD_eq_getElem?_getD, List.getElem?_eq_getElem hi]
      exact List.getElem_mem hi
    have m2 : x.nl n ∈ s'.new m := by
      unfold Regrid.nl
      rw [h.new, f, f2, flatMap_get _ _ _ _ _ _ hj, List.getD_eq_getElem?_getD, List.getElem?_eq_getElem hj]
      exact List.getElem_mem hj
    have hb : Overlap s.base s'.base := by
      rcases hov with hov | hov
      · exact covers_chain ((Seg.base_old m1).trans hov) (Seg.base_new m2)
      · exact covers_chain (Seg.base_old m1) ((Seg.base_new m2).trans hov)
    rw [h.old] at ho
    rw [h.new] at hn
    rcases split_cases (e.symm.trans f) with ⟨rfl, rfl⟩ | ⟨mid, rfl⟩ | ⟨mid, rfl⟩
    · exact ⟨s, i, j, ⟨pre, post, e, e2, f2⟩, hi, hj⟩
    · exact absurd hb (segs_disjoint ho hn f)
    · exact absurd hb.symm (segs_disjoint ho hn e)
  · rintro ⟨s, i, j, a⟩
    have hlev := h.levels a
    cases s with
    | keep b => simp only at hlev; rw [hlev.1, hlev.2.1]; exact .inl (covers_refl _)
    | split b =>
      simp only at hlev
      obtain ⟨e1, e2, e3, hj, e4⟩ := hlev
      rw [e1, e4]; exact .inl (covers_child _ _)
    | merge b =>
      simp only at hlev
      obtain ⟨e1, e2, e3, hj, e4⟩ := hlev
      rw [e1, e4]; exact .inr (covers_child _ _)

end Verif.Tree
