import Verif.Lemmas.Ghost

/-! Ghost-zone messages: sizes, and which cells they fill. -/
namespace Verif.Ghost
open Verif.Grid Verif.Tree

theorem slot_core : ∀ f2 f3 ml : Bool, (f3 = true → f2 = true) →
    ∀ a ∈ dirsB true, ∀ b ∈ dirsB f2, ∀ c ∈ dirsB f3, ¬ (a = 0 ∧ b = 0 ∧ c = 0) →
    ∀ n : Fin 8, n.val < nleafB f2 f3 → (ml = false → n = 0) →
      (niList f2 f3 ml)[(findBufferID f2 f3 ml ⟨a, b, c,
        (trans a b c (n.val % 2) (n.val / 2 % 2) (n.val / 4 % 2)).1,
        (trans a b c (n.val % 2) (n.val / 2 % 2) (n.val / 4 % 2)).2⟩).toNat]? =
      some ⟨a, b, c, (trans a b c (n.val % 2) (n.val / 2 % 2) (n.val / 4 % 2)).1,
        (trans a b c (n.val % 2) (n.val / 2 % 2) (n.val / 4 % 2)).2⟩ := by
  decide +kernel

section
variable {m : Mesh} (hm : m.Valid) {t : Tree} (hw : WF m t) {ml : Bool} {L : Nat} {p : Pos} {g : Int}

include hm hw in
theorem listed_facts
    (hml : ml = true ∨ ∀ K q g, Dom m K q → t.at K q = .leaf g → K = m.rootLevel) (hp : Dom m L p)
    (hl : t.at L p = .leaf g) {e : Entry} (h : Listed m ml t L p e) :
    Dir m e.ni.ox1 e.ni.ox2 e.ni.ox3 ∧ ¬ (e.ni.ox1 = 0 ∧ e.ni.ox2 = 0 ∧ e.ni.ox3 = 0) ∧
      (niList m.f2 m.f3 ml)[e.bufid]? = some e.ni ∧ (e.level ≠ L → ml = true) := by
  have hL := hw.leaf L p g hp hl
  cases h with
  | @same o1 o2 o3 q g i h0 hs hl hi hlt =>
    have hd := hs.dir
    have := slot_core m.f2 m.f3 ml hm.dim o1 (dirsB_mem hd.o1) o2 (dirsB_mem hd.o2) o3
      (dirsB_mem hd.o3) h0 0 (nleaf_pos' m) (fun _ => rfl)
    simp only [Fin.val_zero, Nat.zero_mod, Nat.zero_div, trans_zero, hi, Int.toNat_natCast] at this
    exact ⟨hd, h0, this, by simp⟩
  | @fine o1 o2 o3 q g i n h0 hs hn hf hl' hi hlt =>
    have hd := hs.dir
    have ht : ml = true := by
      rcases hml with h | h
      · exact h
      · have a := h _ _ _ ((hs.dom hL).child hm hL hn) hl'
        omega
    have := slot_core m.f2 m.f3 ml hm.dim o1 (dirsB_mem hd.o1) o2 (dirsB_mem hd.o2) o3
      (dirsB_mem hd.o3) h0 n hn (by simp [ht])
    simp only [hi, Int.toNat_natCast] at this
    exact ⟨hd, h0, this, by simp [ht]⟩
  | @coarse o1 o2 o3 K q g i h0 hK hs hl' hok hi hlt =>
    have hd := hs.dir
    have := slot_core m.f2 m.f3 ml hm.dim o1 (dirsB_mem hd.o1) o2 (dirsB_mem hd.o2) o3
      (dirsB_mem hd.o3) h0 0 (nleaf_pos' m) (fun _ => rfl)
    simp only [Fin.val_zero, Nat.zero_mod, Nat.zero_div, trans_zero, hi, Int.toNat_natCast] at this
    refine ⟨hd, h0, this, ?_⟩
    intro _
    rcases hml with h | h
    · exact h
    · subst hK
      have a := h _ _ _ (hs.dom hL).half hl'
      have b := h _ _ _ hp hl
      omega

end

theorem listed_bufid {m : Mesh} {t : Tree} {ml : Bool} {L : Nat} {p : Pos} {e : Entry}
    (h : Listed m ml t L p e) : findBufferID m.f2 m.f3 ml e.ni = e.bufid := by
  cases h <;> assumption

theorem MessageOk.mk' {m : Mesh} {ml : Bool} {d : Dims} (nv : Int) (hnv : 0 ≤ nv) {L K : Nat} {p q : Pos} {e e' : NI}
    (hm : m.Valid) (hd : SizesOk m ml d) (hL : m.rootLevel ≤ L) (hK : m.rootLevel ≤ K)
    (hml : K ≠ L → ml = true) (hp : Dom m L p) (hq : Dom m K q) (hdir : Dir m e.ox1 e.ox2 e.ox3)
    (h0 : ¬ (e.ox1 = 0 ∧ e.ox2 = 0 ∧ e.ox3 = 0)) (h1 : e'.ox1 = -e.ox1) (h2 : e'.ox2 = -e.ox2)
    (h3 : e'.ox3 = -e.ox3) (hg : Geo m L p K q e e') :
    MessageOk m ml d nv L p e K q e' (loadBox d L K e) (setBox d K q L e') := by
  obtain ⟨f1, f2, f3⟩ := geo_fits hm hd hL hK hml hp hq h0 h1 h2 h3 hg
  obtain ⟨d1, d2, d3⟩ := hdir
  rw [mem_offs] at d1 d2 d3
  have o2 : m.f2 = false → e.ox2 = 0 := d2.2
  have o3 : m.f3 = false → e.ox3 = 0 := d3.2
  obtain ⟨x1, x2, x3⟩ := load_ext hd hml o2 o3
  obtain ⟨p1, p2, p3⟩ := ext_pos hd (L := L) (K := K) e.ox1 e.ox2 e.ox3
  have hin := load_in hd hml o2 o3
  have hset := set_in hd (L := K) (K := L) (fun h => hml h.symm) q (e := e')
    (fun h => by rw [h2, o2 h]; rfl) (fun h => by rw [h3, o3 h]; rfl)
  have hcount : (loadBox d L K e).count = ext L K d.nx3 d.ng (cnghost d) m.f3 e.ox3 *
    ext L K d.nx2 d.ng (cnghost d) m.f2 e.ox2 * ext L K d.nx1 d.ng (cnghost d) true e.ox1 := by
    unfold Box.count; rw [x1, x2, x3]
  have c2 : d.nx2 > 1 ↔ m.f2 = true := by
    cases h : m.f2
    · have := hd.o2 h; simp; omega
    · have := (hd.n2 h).2; simp; omega
  have c3 : d.nx3 > 1 ↔ m.f3 = true := by
    cases h : m.f3
    · have := hd.o3 h; simp; omega
    · have := (hd.n3 h).2; simp; omega
  have m2 : e.ox2 ≠ 0 → m.f2 = true := fun h => by
    cases h' : m.f2
    · exact absurd (o2 h') h
    · rfl
  have m3 : e.ox3 ≠ 0 → m.f3 = true := fun h => by
    cases h' : m.f3
    · exact absurd (o3 h') h
    · rfl
  have w2 : (if e.ox2 = 0 then (d.nx2 + 1) / 2 + cnghost d * (if m.f2 = true then 1 else 0)
      else cnghost d * (if m.f2 = true then 1 else 0)) =
      if e.ox2 = 0 then (d.nx2 + 1) / 2 + (if m.f2 = true then cnghost d else 0) else cnghost d := by
    by_cases h : e.ox2 = 0
    · simp [h]
    · simp [h, m2 h]
  have w3 : (if e.ox3 = 0 then (d.nx3 + 1) / 2 + cnghost d * (if m.f3 = true then 1 else 0)
      else cnghost d * (if m.f3 = true then 1 else 0)) =
      if e.ox3 = 0 then (d.nx3 + 1) / 2 + (if m.f3 = true then cnghost d else 0) else cnghost d := by
    by_cases h : e.ox3 = 0
    · simp [h]
    · simp [h, m3 h]
  have hs : (mpiSizes d m.f2 m.f3 nv L K e).1 = nv * (loadBox d L K e).count := by
    rw [hcount]
    unfold mpiSizes ext
    simp only [w2, w3, if_true]
    by_cases a : K = L
    · simp only [a, if_true]; ring
    · by_cases b : K < L
      · simp only [a, b, if_true, if_false]; ring
      · simp only [a, b, if_false]; ring
  have hr : (mpiSizes d m.f2 m.f3 nv K L e').2 = nv * (loadBox d L K e).count := by
    rw [← hs]
    unfold mpiSizes
    simp only [h1, h2, h3, neg_eq_zero]
    rcases lt_trichotomy K L with a | a | a
    · simp only [a, a.ne, a.ne', a.not_gt, if_true, if_false]
    · simp only [a, if_true]
    · simp only [a, a.ne, a.ne', a.not_gt, if_true, if_false]
  have hb : nv * (loadBox d L K e).count ≤ bufSize d ml nv e := by
    have v : ∀ on : Bool, cnghost d * (if on = true then (1 : Int) else 0) = if on = true then cnghost d else 0 := by
      intro on; cases on <;> simp
    rw [hcount]
    unfold bufSize ext
    simp only [c2, c3, v, if_true]
    rw [mul_comm nv]
    refine mul_le_mul_of_nonneg_right ?_ hnv
    rcases lt_trichotomy K L with a | a | a
    · simp only [a, a.ne, hml a.ne, if_true, if_false]
      exact le_of_eq_of_le (by ring) (le_max_right _ _)
    · cases ml
      · simp only [a, if_true, Bool.false_eq_true, if_false]
        exact le_of_eq (by ring)
      · simp only [a, if_true]
        exact le_of_eq_of_le (by ring) (le_trans (le_max_left _ _) (le_max_left _ _))
    · simp only [a.ne', a.not_gt, hml a.ne', if_true, if_false]
      exact le_of_eq_of_le (by ring) (le_trans (le_max_right _ _) (le_max_left _ _))
  have hb' : bufSize d ml nv e' = bufSize d ml nv e := by
    unfold bufSize; simp only [h1, h2, h3, neg_eq_zero]
  refine ⟨f1.1, f2.1, f3.1, ?_, ?_, ?_, ?_, ?_, hs, hr, hb, hb' ▸ hb⟩
  · intro k j i _
    exact ⟨f1.2 i, f2.2 j, f3.2 k⟩
  · refine ⟨?_, ?_, ?_⟩ <;> omega
  · rintro k j i ⟨a1, a2, a3, a4, a5, a6⟩
    obtain ⟨⟨b1, b2⟩, ⟨b3, b4⟩, b5, b6⟩ := hin
    exact ⟨by omega, by omega, by omega, by omega, by omega, by omega⟩
  · rintro k j i ⟨a1, a2, a3, a4, a5, a6⟩
    obtain ⟨⟨⟨b1, b2⟩, _⟩, ⟨⟨b3, b4⟩, _⟩, ⟨b5, b6⟩, _⟩ := hset
    exact ⟨by omega, by omega, by omega, by omega, by omega, by omega⟩
  · rintro k j i ⟨a1, a2, a3, a4, a5, a6⟩ ⟨c1, c2, c3, c4, c5, c6⟩
    obtain ⟨⟨_, b1, b2⟩, ⟨_, b3, b4⟩, _, b5, b6⟩ := hset
    apply h0
    refine ⟨?_, ?_, ?_⟩
    · rcases lt_trichotomy e'.ox1 0 with h | h | h
      · have := b1 h; omega
      · omega
      · have := b2 h; omega
    · rcases lt_trichotomy e'.ox2 0 with h | h | h
      · have := b3 h; omega
      · omega
      · have := b4 h; omega
    · rcases lt_trichotomy e'.ox3 0 with h | h | h
      · have := b5 h; omega
      · omega
      · have := b6 h; omega

/-! ## The ghost cells of a block -/

theorem has_same {s n g i x o : Int} (hg : 1 ≤ g) (hn : 1 ≤ n) (hi : s - g ≤ i ∧ i ≤ s + n - 1 + g)
    (hx : -1 ≤ x ∧ x ≤ 1)
    (hb : (i < s ∧ o = -1) ∨ ((s ≤ i ∧ i ≤ s + n - 1) ∧ o = 0) ∨ (s + n - 1 < i ∧ o = 1)) :
    ((if x = 0 then s else if x > 0 then s + n - 1 + 1 else s - g) ≤ i ∧
      i ≤ (if x = 0 then s + n - 1 else if x > 0 then s + n - 1 + g else s - 1)) ↔ x = o := by
  obtain rfl | rfl | rfl : x = -1 ∨ x = 0 ∨ x = 1 := by omega
  all_goals simp
  all_goals omega

theorem has_fine {s n g i x o : Int} {f : Nat} (hg : 1 ≤ g) (hn : 1 ≤ n) (he : n % 2 = 0)
    (hi : s - g ≤ i ∧ i ≤ s + n - 1 + g) (hx : -1 ≤ x ∧ x ≤ 1)
    (hb : (i < s ∧ o = -1) ∨ ((s ≤ i ∧ i ≤ s + n - 1) ∧ o = 0) ∨ (s + n - 1 < i ∧ o = 1)) :
    ((if x = 0 then s + (if f = 1 then n / 2 else 0) else if x > 0 then s + n - 1 + 1 else s - g) ≤ i ∧
      i ≤ (if x = 0 then s + n - 1 - (if f = 1 then 0 else n / 2) else if x > 0 then s + n - 1 + g else s - 1)) ↔
      x = o ∧ (o = 0 → (f = 1 ↔ s + n / 2 ≤ i)) := by
  obtain ⟨h, rfl⟩ : ∃ h, n = 2 * h := ⟨n / 2, by omega⟩
  rw [show 2 * h / 2 = h by omega]
  by_cases hf : f = 1
  · obtain rfl | rfl | rfl : x = -1 ∨ x = 0 ∨ x = 1 := by omega
    all_goals simp [hf]
    all_goals omega
  · obtain rfl | rfl | rfl : x = -1 ∨ x = 0 ∨ x = 1 := by omega
    all_goals simp [hf]
    all_goals omega

theorem set_has {m : Mesh} {ml : Bool} {d : Dims} (hd : SizesOk m ml d) {L K : Nat} (hLK : L ≤ K)
    (hml : K ≠ L → ml = true) (p : Pos) {e : NI} (hdir : Dir m e.ox1 e.ox2 e.ox3) {k j i o1 o2 o3 : Int}
    (ha : (arrayBox d L L).Has k j i) (hb : Beyond d k j i o1 o2 o3) :
    (setBox d L p K e).Has k j i ↔ (e.ox1 = o1 ∧ e.ox2 = o2 ∧ e.ox3 = o3) ∧
      (K ≠ L → (o1 = 0 → (e.fi1 = 1 ↔ d.is + d.nx1 / 2 ≤ i)) ∧
        (o2 = 0 → m.f2 = true → (sel2 e = 1 ↔ d.js + d.nx2 / 2 ≤ j)) ∧
        (o3 = 0 → m.f3 = true → (sel3 e = 1 ↔ d.ks + d.nx3 / 2 ≤ k))) := by
  obtain ⟨d1, d2, d3⟩ := hdir
  rw [mem_offs] at d1 d2 d3
  obtain ⟨b1, b2, b3⟩ := hb
  have H2 := hd.dir2 d2.2
  have H3 := hd.dir3 d3.2
  have := hd.ng
  have := hd.n1
  have e1 := fun h => hd.even1 (hml h)
  have E2 := fun h => hd.even2 (hml h)
  have E3 := fun h => hd.even3 (hml h)
  unfold arrayBox at ha
  obtain ⟨a1, a2, a3, a4, a5, a6⟩ := ha
  simp only [lt_irrefl, if_false] at a1 a2 a3 a4 a5 a6
  have hi : d.is - d.ng ≤ i ∧ i ≤ d.is + d.nx1 - 1 + d.ng := by simp only [Dims.is]; omega
  have hj : d.js - d.ng ≤ j ∧ j ≤ d.js + d.nx2 - 1 + d.ng := by simp only [Dims.js]; split_ifs at * <;> omega
  have hk : d.ks - d.ng ≤ k ∧ k ≤ d.ks + d.nx3 - 1 + d.ng := by simp only [Dims.ks]; split_ifs at * <;> omega
  have p2 : 1 ≤ d.nx2 := by omega
  have p3 : 1 ≤ d.nx3 := by omega
  have je : d.je = d.js + d.nx2 - 1 := by simp only [Dims.je, Dims.js]; split_ifs <;> omega
  have ke : d.ke = d.ks + d.nx3 - 1 := by simp only [Dims.ke, Dims.ks]; split_ifs <;> omega
  rw [je] at b2
  rw [ke] at b3
  have k1 : ((setBox d L p K e).si ≤ i ∧ i ≤ (setBox d L p K e).ei) ↔
      (e.ox1 = o1 ∧ (K ≠ L → (o1 = 0 → (e.fi1 = 1 ↔ d.is + d.nx1 / 2 ≤ i)))) := by
    have hs := has_same (x := e.ox1) (o := o1) hd.ng (by omega) hi d1.1 b1
    unfold setBox
    by_cases h : K = L
    · simp only [h, if_true, setSame, je, ke, ne_eq, not_true_eq_false, false_imp_iff, and_true]
      exact hs
    · simp only [h, if_false, show ¬ K < L by omega, setFromFiner, je, ke, ne_eq, not_false_eq_true, forall_const]
      exact has_fine hd.ng (by omega) (e1 h) hi d1.1 b1
  have k2 : ((setBox d L p K e).sj ≤ j ∧ j ≤ (setBox d L p K e).ej) ↔
      (e.ox2 = o2 ∧ (K ≠ L → (o2 = 0 → m.f2 = true → (sel2 e = 1 ↔ d.js + d.nx2 / 2 ≤ j)))) := by
    have hs := has_same (x := e.ox2) (o := o2) hd.ng p2 hj d2.1 b2
    unfold setBox
    by_cases h : K = L
    · simp only [h, if_true, setSame, je, ke, ne_eq, not_true_eq_false, false_imp_iff, and_true]
      exact hs
    · simp only [h, if_false, show ¬ K < L by omega, setFromFiner, je, ke, ne_eq, not_false_eq_true, forall_const]
      rcases H2 with ⟨hf, H⟩ | ⟨hf, H⟩
      · simp only [show ¬ d.nx2 > 1 by omega, hf, if_false, Bool.false_eq_true, false_imp_iff, imp_true_iff,
          and_true, add_zero, sub_zero]
        exact hs
      · simp only [show d.nx2 > 1 by omega, hf, if_true, forall_const]
        exact has_fine hd.ng p2 (E2 h hf) hj d2.1 b2
  have k3 : ((setBox d L p K e).sk ≤ k ∧ k ≤ (setBox d L p K e).ek) ↔
      (e.ox3 = o3 ∧ (K ≠ L → (o3 = 0 → m.f3 = true → (sel3 e = 1 ↔ d.ks + d.nx3 / 2 ≤ k)))) := by
    have hs := has_same (x := e.ox3) (o := o3) hd.ng p3 hk d3.1 b3
    unfold setBox
    by_cases h : K = L
    · simp only [h, if_true, setSame, je, ke, ne_eq, not_true_eq_false, false_imp_iff, and_true]
      exact hs
    · simp only [h, if_false, show ¬ K < L by omega, setFromFiner, je, ke, ne_eq, not_false_eq_true, forall_const]
      rcases H3 with ⟨hf, H⟩ | ⟨hf, H⟩
      · simp only [show ¬ d.nx3 > 1 by omega, hf, if_false, Bool.false_eq_true, false_imp_iff, imp_true_iff,
          and_true, add_zero, sub_zero]
        exact hs
      · simp only [show d.nx3 > 1 by omega, hf, if_true, forall_const]
        exact has_fine hd.ng p3 (E3 h hf) hk d3.1 b3
  constructor
  · rintro ⟨h1, h2, h3, h4, h5, h6⟩
    obtain ⟨c1, c2⟩ := k1.1 ⟨h1, h2⟩
    obtain ⟨c3, c4⟩ := k2.1 ⟨h3, h4⟩
    obtain ⟨c5, c6⟩ := k3.1 ⟨h5, h6⟩
    exact ⟨⟨c1, c3, c5⟩, fun h => ⟨c2 h, c4 h, c6 h⟩⟩
  · rintro ⟨⟨c1, c3, c5⟩, h⟩
    obtain ⟨h1, h2⟩ := k1.2 ⟨c1, fun a => (h a).1⟩
    obtain ⟨h3, h4⟩ := k2.2 ⟨c3, fun a => (h a).2.1⟩
    obtain ⟨h5, h6⟩ := k3.2 ⟨c5, fun a => (h a).2.2⟩
    exact ⟨h1, h2, h3, h4, h5, h6⟩

theorem trans_sel' {o1 o2 o3 : Int} (h0 : ¬ (o1 = 0 ∧ o2 = 0 ∧ o3 = 0)) (a b c : Nat) :
    (o1 = 0 → (trans o1 o2 o3 a b c).1 = a) ∧
    (o2 = 0 → sel2 ⟨o1, o2, o3, (trans o1 o2 o3 a b c).1, (trans o1 o2 o3 a b c).2⟩ = b) ∧
    (o3 = 0 → sel3 ⟨o1, o2, o3, (trans o1 o2 o3 a b c).1, (trans o1 o2 o3 a b c).2⟩ = c) :=
  trans_sel h0 rfl

theorem bit_eq {a b : Nat} {o : Int} {P : Prop} (ha : a < 2) (hb : b < 2) (lo : -1 ≤ o) (hi : o ≤ 1)
    (a1 : o = -1 → a = 1) (a2 : o = 1 → a = 0) (b1 : o = -1 → b = 1) (b2 : o = 1 → b = 0)
    (a3 : o = 0 → (a = 1 ↔ P)) (b3 : o = 0 → (b = 1 ↔ P)) : a = b := by
  obtain h | h | h : o = -1 ∨ o = 0 ∨ o = 1 := by omega
  · rw [a1 h, b1 h]
  · have := (a3 h).trans (b3 h).symm
    omega
  · rw [a2 h, b2 h]

theorem Facing.at {m : Mesh} (hm : m.Valid) {t : Tree} (hw : WF m t) {L : Nat} {p : Pos} {o1 o2 o3 : Int}
    (h : Facing m t L p o1 o2 o3) : ∃ q, Shift m L p o1 o2 o3 q ∧ t.at L q ≠ .null := by
  obtain ⟨q, hs, K, r, g, hb, hle, h1, h2, h3⟩ := h
  refine ⟨q, hs, ?_⟩
  obtain ⟨_, hl⟩ := (block_iff hm hw).1 hb
  have := exists_anc (t := t) (L := L) (j := K - L) (p := r) (by
    rw [show L + (K - L) = K by omega, hl]; simp)
  have hq : r.shr (K - L) = q := Pos.ext' h1 h2 h3
  rwa [hq] at this

section
variable {m : Mesh} (hm : m.Valid) (hnp : NoPolar m) {t : Tree} (hi : Inv m t) {ml : Bool} {d : Dims}
  (hd : SizesOk m ml d) {L : Nat} {p : Pos} {g : Int}

include hm hi hd in
theorem listed_box
    (hml : ml = true ∨ ∀ K q g, Dom m K q → t.at K q = .leaf g → K = m.rootLevel) (hp : Dom m L p)
    (hl : t.at L p = .leaf g) {k j i o1 o2 o3 : Int} (ha : (arrayBox d L L).Has k j i)
    (hb : Beyond d k j i o1 o2 o3) {e : Entry} (he : Listed m ml t L p e) (hle : L ≤ e.level)
    (hh : (setBox d L p e.level e.ni).Has k j i) : ∃ q, Shift m L p o1 o2 o3 q ∧
      ((t.at L q = .leaf e.gid ∧ e.level = L ∧ e.ni = ⟨o1, o2, o3, 0, 0⟩) ∨
       (∃ n : Fin 8, n.val < m.nleaf ∧ Face o1 o2 o3 n ∧ t.at (L + 1) (q.child n) = .leaf e.gid ∧
        e.level = L + 1 ∧
        e.ni = ⟨o1, o2, o3, (trans o1 o2 o3 (n.val % 2) (n.val / 2 % 2) (n.val / 4 % 2)).1,
          (trans o1 o2 o3 (n.val % 2) (n.val / 2 % 2) (n.val / 4 % 2)).2⟩ ∧
        (o1 = 0 → (n.val % 2 = 1 ↔ d.is + d.nx1 / 2 ≤ i)) ∧
        (o2 = 0 → m.f2 = true → (n.val / 2 % 2 = 1 ↔ d.js + d.nx2 / 2 ≤ j)) ∧
        (o3 = 0 → m.f3 = true → (n.val / 4 % 2 = 1 ↔ d.ks + d.nx3 / 2 ≤ k)))) := by
  obtain ⟨h1, h0, _, h3⟩ := listed_facts hm hi.wf hml hp hl he
  obtain ⟨⟨k1, k2, k3⟩, k4⟩ := (set_has hd hle h3 p h1 ha hb).1 hh
  cases he with
  | @same o1' o2' o3' q g' i' _ hs hl' hi' hlt =>
    simp only at k1 k2 k3
    subst k1; subst k2; subst k3
    exact ⟨q, hs, .inl ⟨hl', rfl, rfl⟩⟩
  | @fine o1' o2' o3' q g' i' n _ hs hn hf hl' hi' hlt =>
    simp only at k1 k2 k3 k4 h0
    subst k1; subst k2; subst k3
    obtain ⟨c1, c2, c3⟩ := k4 (by simp)
    obtain ⟨d1, d2, d3⟩ := trans_sel' h0 (n.val % 2) (n.val / 2 % 2) (n.val / 4 % 2)
    refine ⟨q, hs, .inr ⟨n, hn, hf, hl', rfl, rfl, ?_, ?_, ?_⟩⟩
    · intro h; rw [← c1 h, d1 h]
    · intro h h'; rw [← c2 h h', d2 h]
    · intro h h'; rw [← c3 h h', d3 h]
  | @coarse o1' o2' o3' K q g' i' _ hK hs hl' hok hi' hlt =>
    simp only at hle
    omega

include hm hi hd in
theorem listed_once
    (hml : ml = true ∨ ∀ K q g, Dom m K q → t.at K q = .leaf g → K = m.rootLevel) (hp : Dom m L p)
    (hl : t.at L p = .leaf g) {k j i o1 o2 o3 : Int} (ha : (arrayBox d L L).Has k j i)
    (hb : Beyond d k j i o1 o2 o3) {e e' : Entry} (he : Listed m ml t L p e) (hle : L ≤ e.level)
    (hh : (setBox d L p e.level e.ni).Has k j i) (he' : Listed m ml t L p e') (hle' : L ≤ e'.level)
    (hh' : (setBox d L p e'.level e'.ni).Has k j i) : e.ni = e'.ni := by
  have hL := hi.wf.leaf L p g hp hl
  obtain ⟨q, hs, h⟩ := listed_box hm hi hd hml hp hl ha hb he hle hh
  obtain ⟨q', hs', h'⟩ := listed_box hm hi hd hml hp hl ha hb he' hle' hh'
  obtain rfl := hs.unique hL hp hs'
  rcases h with ⟨a, b, c⟩ | ⟨n, hn, hf, a, b, c, d1, d2, d3⟩
  · rcases h' with ⟨_, _, c'⟩ | ⟨n, _, _, a', _⟩
    · rw [c, c']
    · obtain ⟨g', hg'⟩ := parent_node (t := t) (L := L) (p := q.child n) (by rw [a']; simp)
      rw [Pos.half_child, a] at hg'
      simp at hg'
  · rcases h' with ⟨a', _, _⟩ | ⟨n', hn', hf', a', b', c', d1', d2', d3'⟩
    · obtain ⟨g', hg'⟩ := parent_node (t := t) (L := L) (p := q.child n) (by rw [a]; simp)
      rw [Pos.half_child, a'] at hg'
      simp at hg'
    · have hn1 : n = n' := by
        obtain ⟨f1, f2, f3, f4, f5, f6⟩ := hf
        obtain ⟨g1, g2, g3, g4, g5, g6⟩ := hf'
        have e1 : n.val % 2 = n'.val % 2 :=
          bit_eq (by omega) (by omega) hs.s1.lo hs.s1.hi f1 f2 g1 g2 d1 d1'
        have e2 : n.val / 2 % 2 = n'.val / 2 % 2 := by
          cases h : m.f2
          · have h3 : m.f3 = false := by
              cases h3 : m.f3
              · rfl
              · rw [hm.dim h3] at h; simp at h
            simp only [Mesh.nleaf, h, h3, Bool.false_eq_true, if_false] at hn hn'
            omega
          · exact bit_eq (by omega) (by omega) hs.s2.lo hs.s2.hi f3 f4 g3 g4 (d2 · h) (d2' · h)
        have e3 : n.val / 4 % 2 = n'.val / 4 % 2 := by
          cases h : m.f3
          · simp only [Mesh.nleaf, h, Bool.false_eq_true, if_false] at hn hn'
            split_ifs at hn hn' <;> omega
          · exact bit_eq (by omega) (by omega) hs.s3.lo hs.s3.hi f5 f6 g5 g6 (d3 · h) (d3' · h)
        apply Fin.ext
        omega
      subst hn1
      rw [c, c']

include hm hnp hi hd in
theorem facing_listed
    (hml : ml = true ∨ ∀ K q g, Dom m K q → t.at K q = .leaf g → K = m.rootLevel) (hp : Dom m L p)
    (hl : t.at L p = .leaf g) {k j i o1 o2 o3 : Int} (h0 : ¬ (o1 = 0 ∧ o2 = 0 ∧ o3 = 0))
    (ha : (arrayBox d L L).Has k j i)
    (hb : Beyond d k j i o1 o2 o3) {q : Pos} (hs : Shift m L p o1 o2 o3 q) (hq : t.at L q ≠ .null) :
    ∃ e, Listed m ml t L p e ∧ L ≤ e.level ∧ (setBox d L p e.level e.ni).Has k j i := by
  have hL := hi.wf.leaf L p g hp hl
  have hdir := hs.dir
  rcases kind_cases (t.at L q) with h1 | ⟨g1, h1⟩ | ⟨g1, h1⟩
  · exact absurd h1 hq
  · obtain ⟨i', hi', hlt⟩ := slot_exists_zero hm (ml := ml) hdir h0
    refine ⟨_, .same h0 hs h1 hi' hlt, le_refl _, ?_⟩
    exact (set_has hd (le_refl _) (by simp) p hdir ha hb).2 ⟨⟨rfl, rfl, rfl⟩, by simp⟩
  · obtain ⟨b1, c1, r1⟩ : ∃ b < 2, (o1 = -1 → b = 1) ∧ (o1 = 1 → b = 0) ∧
        (o1 = 0 → (b = 1 ↔ d.is + d.nx1 / 2 ≤ i)) := by
      by_cases h : (o1 = -1 ∨ o1 = 0 ∧ d.is + d.nx1 / 2 ≤ i)
      · exact ⟨1, by omega, by omega, by omega, by omega⟩
      · exact ⟨0, by omega, by omega, by omega, by omega⟩
    obtain ⟨b2, c2, r2⟩ : ∃ b < 2, (o2 = -1 → b = 1) ∧ (o2 = 1 → b = 0) ∧
        (o2 = 0 → m.f2 = true → (b = 1 ↔ d.js + d.nx2 / 2 ≤ j)) ∧ (m.f2 = false → b = 0) := by
      cases hf : m.f2
      · have := hs.off2 hf
        exact ⟨0, by omega, by omega, by omega, by simp, by simp⟩
      · by_cases h : (o2 = -1 ∨ o2 = 0 ∧ d.js + d.nx2 / 2 ≤ j)
        · exact ⟨1, by omega, by omega, by omega, by intro _ _; omega, by simp⟩
        · exact ⟨0, by omega, by omega, by omega, by intro _ _; omega, by simp⟩
    obtain ⟨b3, c3, r3⟩ : ∃ b < 2, (o3 = -1 → b = 1) ∧ (o3 = 1 → b = 0) ∧
        (o3 = 0 → m.f3 = true → (b = 1 ↔ d.ks + d.nx3 / 2 ≤ k)) ∧ (m.f3 = false → b = 0) := by
      cases hf : m.f3
      · have := hs.off3 hf
        exact ⟨0, by omega, by omega, by omega, by simp, by simp⟩
      · by_cases h : (o3 = -1 ∨ o3 = 0 ∧ d.ks + d.nx3 / 2 ≤ k)
        · exact ⟨1, by omega, by omega, by omega, by intro _ _; omega, by simp⟩
        · exact ⟨0, by omega, by omega, by omega, by intro _ _; omega, by simp⟩
    let n : Fin 8 := ⟨b1 + 2 * b2 + 4 * b3, by omega⟩
    have n1 : n.val % 2 = b1 := by simp only [n]; omega
    have n2 : n.val / 2 % 2 = b2 := by simp only [n]; omega
    have n3 : n.val / 4 % 2 = b3 := by simp only [n]; omega
    have hf : Face o1 o2 o3 n := ⟨by omega, by omega, by omega, by omega, by omega, by omega⟩
    have hn : n.val < m.nleaf := by
      simp only [Mesh.nleaf, n]
      cases h2 : m.f2
      · have h3 : m.f3 = false := by
          cases h3 : m.f3
          · rfl
          · rw [hm.dim h3] at h2; simp at h2
        have := r2.2.2.2 h2
        have := r3.2.2.2 h3
        simp [h3]; omega
      · cases h3 : m.f3
        · have := r3.2.2.2 h3
          simp; omega
        · simp; omega
    obtain ⟨g2, h2⟩ := facing_leaf hm hnp hi hp hl h0 hs h1 hn hf
    have ht : ml = true := by
      rcases hml with h | h
      · exact h
      · have a := h _ _ _ ((hs.dom hL).child hm hL hn) h2
        omega
    obtain ⟨i', hi', hlt⟩ := slot_exists hm (ml := ml) hdir h0 hn (by simp [ht])
    refine ⟨_, .fine h0 hs hn hf h2 hi' hlt, by simp, ?_⟩
    refine (set_has hd (by simp) (by simp [ht]) p hdir ha hb).2 ⟨⟨rfl, rfl, rfl⟩, fun _ => ?_⟩
    obtain ⟨d1, d2, d3⟩ := trans_sel' h0 (n.val % 2) (n.val / 2 % 2) (n.val / 4 % 2)
    refine ⟨?_, ?_, ?_⟩
    · intro h; rw [← r1.2.2 h, d1 h, n1]
    · intro h h'; rw [← r2.2.2.1 h h', d2 h, n2]
    · intro h h'; rw [← r3.2.2.1 h h', d3 h, n3]

end

end Verif.Ghost
