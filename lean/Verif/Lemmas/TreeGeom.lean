import Verif.Lemmas.TreeRoot

/-! # Adjacency of locations away from the poles -/
namespace Verif.Tree

theorem Step.symm {per : Prop} {n x y : Nat} {o : Int} (hx : x < n) (h : Step per n x o y) :
    Step per n y (-o) x := by
  obtain ⟨h1, h2, h3, h4⟩ := h
  refine ⟨hx, by omega, by omega, ?_⟩
  rcases h4 with h4 | ⟨hp, h4 | h4⟩
  · left; omega
  · right; exact ⟨hp, by omega⟩
  · right; exact ⟨hp, by omega⟩

theorem Step.unique {per : Prop} {n x y y' : Nat} {o : Int} (_hx : x < n) (h : Step per n x o y)
    (h' : Step per n x o y') : y = y' := by
  obtain ⟨h1, h2, h3, h4⟩ := h
  obtain ⟨h1', h2', h3', h4'⟩ := h'
  rcases h4 with h4 | ⟨hp, h4 | h4⟩ <;> rcases h4' with h4' | ⟨hp', h4' | h4'⟩ <;> omega

/-- A step between children induces a step between their parents; if the parents differ by a
nonzero offset, the children are on the facing sides. -/
theorem Step.half {per : Prop} {n x y : Nat} {o : Int} (hx : x < 2 * n) (h : Step per (2 * n) x o y) :
    ∃ o', Step per n (x / 2) o' (y / 2) ∧
      ((o' = 0 ∧ (o = 0 → x = y)) ∨ (o' = o ∧ (o = -1 → x % 2 = 0 ∧ y % 2 = 1) ∧
        (o = 1 → x % 2 = 1 ∧ y % 2 = 0))) := by
  obtain ⟨h1, h2, h3, h4⟩ := h
  have ho : o = -1 ∨ o = 0 ∨ o = 1 := by omega
  by_cases ha : o = -1 ∧ x % 2 = 0
  · refine ⟨-1, ⟨by omega, by omega, by omega, ?_⟩, .inr ⟨by omega, fun _ => ?_, by omega⟩⟩
    · rcases h4 with h4 | ⟨hp, h4 | h4⟩
      · left; omega
      · right; exact ⟨hp, by omega⟩
      · right; exact ⟨hp, by omega⟩
    · rcases h4 with h4 | ⟨hp, h4 | h4⟩ <;> omega
  · by_cases hb : o = 1 ∧ x % 2 = 1
    · refine ⟨1, ⟨by omega, by omega, by omega, ?_⟩, .inr ⟨by omega, by omega, fun _ => ?_⟩⟩
      · rcases h4 with h4 | ⟨hp, h4 | h4⟩
        · left; omega
        · right; exact ⟨hp, by omega⟩
        · right; exact ⟨hp, by omega⟩
      · rcases h4 with h4 | ⟨hp, h4 | h4⟩ <;> omega
    · refine ⟨0, ⟨by omega, by omega, by omega, ?_⟩, .inl ⟨rfl, ?_⟩⟩
      · rcases h4 with h4 | ⟨hp, h4 | h4⟩
        · left; omega
        · right; exact ⟨hp, by omega⟩
        · right; exact ⟨hp, by omega⟩
      · intro h0
        rcases h4 with h4 | ⟨hp, h4 | h4⟩ <;> omega

theorem wrapDim_iff {i o : BFlag} (hio : i = .periodic ↔ o = .periodic) {n x y : Nat} {d : Int}
    (hx : x < n) (h1 : -1 ≤ d) (h2 : d ≤ 1) :
    wrapDim i o n (x + d) = some y ↔ Step (i = .periodic) n x d y := by
  unfold wrapDim
  constructor
  · intro h
    split at h
    · split at h
      · simp at h; exact ⟨by omega, h1, h2, .inr ⟨‹_›, by omega⟩⟩
      · simp at h
    · split at h
      · split at h
        · rename_i hp; simp at h; exact ⟨by omega, h1, h2, .inr ⟨hio.2 hp, by omega⟩⟩
        · simp at h
      · simp at h; exact ⟨by omega, h1, h2, .inl (by omega)⟩
  · rintro ⟨a1, a2, a3, a4⟩
    rcases a4 with a4 | ⟨hp, a4 | a4⟩
    · rw [if_neg (by omega), if_neg (by omega)]; simp; omega
    · rw [if_pos (by omega), if_pos hp]; simp; omega
    · rw [if_neg (by omega), if_pos (by omega), if_pos (hio.1 hp)]; simp; omega

theorem wrapDim2_eq {i o : BFlag} {n : Nat} {x : Int} (h : i ≠ .polar ∧ o ≠ .polar) :
    wrapDim2 i o n x = (wrapDim i o n x).map (fun y => (y, false)) := by
  unfold wrapDim2 wrapDim
  rw [if_neg h.1, if_neg h.2]
  repeat' split
  all_goals simp_all

theorem wrapDim2_inside {i o : BFlag} {n : Nat} {x : Int} (h : 0 ≤ x ∧ x < n) :
    wrapDim2 i o n x = (wrapDim i o n x).map (fun y => (y, false)) := by
  unfold wrapDim2 wrapDim
  rw [if_neg (by omega), if_neg (by omega), if_neg (by omega), if_neg (by omega)]; rfl

theorem mem_offs {on : Bool} {o : Int} : o ∈ offs on ↔ (-1 ≤ o ∧ o ≤ 1) ∧ (on = false → o = 0) := by
  cases on <;> simp [offs] <;> omega

/-- Same-level neighbours. -/
def Adj (m : Mesh) (L : Nat) (p q : Pos) : Prop :=
  ∃ o1 o2 o3, ¬ (o1 = 0 ∧ o2 = 0 ∧ o3 = 0) ∧ Shift m L p o1 o2 o3 q

theorem Shift.symm {m : Mesh} {L : Nat} {p q : Pos} {o1 o2 o3 : Int} (hL : m.rootLevel ≤ L)
    (hp : Dom m L p) (h : Shift m L p o1 o2 o3 q) : Shift m L q (-o1) (-o2) (-o3) p := by
  rw [dom_iff_ge hL] at hp
  exact ⟨fun hf => by have := h.off2 hf; omega, fun hf => by have := h.off3 hf; omega,
    h.s1.symm hp.1, h.s2.symm hp.2.1, h.s3.symm hp.2.2⟩

theorem Adj.symm {m : Mesh} {L : Nat} {p q : Pos} (hL : m.rootLevel ≤ L)
    (hp : Dom m L p) (h : Adj m L p q) : Adj m L q p := by
  obtain ⟨o1, o2, o3, h0, hs⟩ := h
  exact ⟨-o1, -o2, -o3, by omega, hs.symm hL hp⟩

theorem Shift.dom {m : Mesh} {L : Nat} {p q : Pos} {o1 o2 o3 : Int} (hL : m.rootLevel ≤ L)
    (h : Shift m L p o1 o2 o3 q) : Dom m L q :=
  (dom_iff_ge hL).2 ⟨h.s1.lt, h.s2.lt, h.s3.lt⟩

theorem Shift.unique {m : Mesh} {L : Nat} {p q q' : Pos} {o1 o2 o3 : Int} (hL : m.rootLevel ≤ L)
    (hp : Dom m L p) (h : Shift m L p o1 o2 o3 q) (h' : Shift m L p o1 o2 o3 q') : q = q' := by
  rw [dom_iff_ge hL] at hp
  exact Pos.ext' (h.s1.unique hp.1 h'.s1) (h.s2.unique hp.2.1 h'.s2) (h.s3.unique hp.2.2 h'.s3)

/-- Offset between the parents of two locations related by an offset. -/
theorem Shift.half {m : Mesh} {L : Nat} {p q : Pos} {o1 o2 o3 : Int} (hL : m.rootLevel ≤ L)
    (hp : Dom m (L + 1) p) (h : Shift m (L + 1) p o1 o2 o3 q) :
    ∃ c1 c2 c3, Shift m L p.half c1 c2 c3 q.half ∧
      (c1 = 0 ∨ (c1 = o1 ∧ (o1 = -1 → p.x1 % 2 = 0 ∧ q.x1 % 2 = 1) ∧ (o1 = 1 → p.x1 % 2 = 1 ∧ q.x1 % 2 = 0))) ∧
      (c2 = 0 ∨ (c2 = o2 ∧ (o2 = -1 → p.x2 % 2 = 0 ∧ q.x2 % 2 = 1) ∧ (o2 = 1 → p.x2 % 2 = 1 ∧ q.x2 % 2 = 0))) ∧
      (c3 = 0 ∨ (c3 = o3 ∧ (o3 = -1 → p.x3 % 2 = 0 ∧ q.x3 % 2 = 1) ∧ (o3 = 1 → p.x3 % 2 = 1 ∧ q.x3 % 2 = 0))) := by
  obtain ⟨e1, e2, e3⟩ := nmax_succ hL
  have h1 := h.s1; rw [e1] at h1
  have hpr := (dom_iff_ge (by omega)).1 hp
  obtain ⟨c1, t1, u1⟩ := h1.half (e1 ▸ hpr.1)
  have d2 : ∃ c2, (m.f2 = false → c2 = 0) ∧ Step (m.ix2 = .periodic) (m.nmax2 L) p.half.x2 c2 q.half.x2 ∧
      (c2 = 0 ∨ (c2 = o2 ∧ (o2 = -1 → p.x2 % 2 = 0 ∧ q.x2 % 2 = 1) ∧ (o2 = 1 → p.x2 % 2 = 1 ∧ q.x2 % 2 = 0))) := by
    rcases hf : m.f2
    · have n1 : m.nmax2 (L + 1) = 1 := by simp [Mesh.nmax2, hf]
      have n2 : m.nmax2 L = 1 := by simp [Mesh.nmax2, hf]
      have a1 := h.s2.lt
      refine ⟨0, by simp, ⟨by simp only [Pos.half]; omega, by omega, by omega, .inl ?_⟩, .inl rfl⟩
      simp only [Pos.half]; omega
    · have h2 := h.s2; rw [e2 hf] at h2
      obtain ⟨c2, t2, u2⟩ := h2.half (e2 hf ▸ hpr.2.1)
      exact ⟨c2, by simp, t2, u2.imp (fun h => h.1) id⟩
  have d3 : ∃ c3, (m.f3 = false → c3 = 0) ∧ Step (m.ix3 = .periodic) (m.nmax3 L) p.half.x3 c3 q.half.x3 ∧
      (c3 = 0 ∨ (c3 = o3 ∧ (o3 = -1 → p.x3 % 2 = 0 ∧ q.x3 % 2 = 1) ∧ (o3 = 1 → p.x3 % 2 = 1 ∧ q.x3 % 2 = 0))) := by
    rcases hf : m.f3
    · have n1 : m.nmax3 (L + 1) = 1 := by simp [Mesh.nmax3, hf]
      have n2 : m.nmax3 L = 1 := by simp [Mesh.nmax3, hf]
      have a1 := h.s3.lt
      refine ⟨0, by simp, ⟨by simp only [Pos.half]; omega, by omega, by omega, .inl ?_⟩, .inl rfl⟩
      simp only [Pos.half]; omega
    · have h3 := h.s3; rw [e3 hf] at h3
      obtain ⟨c3, t3, u3⟩ := h3.half (e3 hf ▸ hpr.2.2)
      exact ⟨c3, by simp, t3, u3.imp (fun h => h.1) id⟩
  obtain ⟨c2, f2, t2, u2⟩ := d2
  obtain ⟨c3, f3, t3, u3⟩ := d3
  exact ⟨c1, c2, c3, ⟨f2, f3, t1, t2, t3⟩, u1.imp (fun h => h.1) id, u2, u3⟩

theorem per2_iff {m : Mesh} (hm : m.Valid) {L x : Nat} {d : Int} (hnp : NoPolar m)
    (hx : x < m.nmax2 L) (hd : d ∈ offs m.f2) (y : Nat) :
    wrapDim2 m.ix2 m.ox2 (m.nmax2 L) (x + d) = some (y, false) ↔
      Step (m.ix2 = .periodic) (m.nmax2 L) x d y := by
  rw [mem_offs] at hd
  rcases hf : m.f2
  · have h0 := hd.2 hf
    have n1 : m.nmax2 L = 1 := by simp [Mesh.nmax2, hf]
    subst h0
    rw [wrapDim2_inside (by omega)]
    have : wrapDim m.ix2 m.ox2 (m.nmax2 L) (x + 0) = some x := by
      unfold wrapDim; rw [if_neg (by omega), if_neg (by omega)]; simp
    rw [this]
    simp only [Option.map_some, Option.some.injEq, Prod.mk.injEq, and_true]
    constructor
    · rintro rfl; exact ⟨hx, by omega, by omega, .inl (by omega)⟩
    · rintro ⟨a, _, _, _⟩; omega
  · rw [wrapDim2_eq (hnp hf)]
    simp only [Option.map_eq_some_iff, Prod.mk.injEq, and_true, exists_eq_right]
    exact wrapDim_iff (hm.per2 hf) hx hd.1.1 hd.1.2

theorem wrapDim2_false {m : Mesh} {L x : Nat} {d : Int} (hnp : NoPolar m)
    (hx : x < m.nmax2 L) (hd : d ∈ offs m.f2) {y : Nat} {b : Bool}
    (h : wrapDim2 m.ix2 m.ox2 (m.nmax2 L) (x + d) = some (y, b)) : b = false := by
  rw [mem_offs] at hd
  have key : wrapDim2 m.ix2 m.ox2 (m.nmax2 L) (x + d) =
      (wrapDim m.ix2 m.ox2 (m.nmax2 L) (x + d)).map (fun y => (y, false)) := by
    rcases hf : m.f2
    · have h0 := hd.2 hf
      exact wrapDim2_inside (by omega)
    · exact wrapDim2_eq (hnp hf)
  rw [key] at h
  simp only [Option.map_eq_some_iff, Prod.mk.injEq] at h
  obtain ⟨_, _, _, h⟩ := h
  exact h.symm

theorem per3_iff {m : Mesh} (hm : m.Valid) {L x : Nat} {d : Int}
    (hx : x < m.nmax3 L) (hd : d ∈ offs m.f3) (y : Nat) :
    wrapDim m.ix3 m.ox3 (m.nmax3 L) (x + d) = some y ↔
      Step (m.ix3 = .periodic) (m.nmax3 L) x d y := by
  rw [mem_offs] at hd
  rcases hf : m.f3
  · have h0 := hd.2 hf
    have n1 : m.nmax3 L = 1 := by simp [Mesh.nmax3, hf]
    subst h0
    have : wrapDim m.ix3 m.ox3 (m.nmax3 L) (x + 0) = some x := by
      unfold wrapDim; rw [if_neg (by omega), if_neg (by omega)]; simp
    rw [this]
    simp only [Option.some.injEq]
    constructor
    · rintro rfl; exact ⟨hx, by omega, by omega, .inl (by omega)⟩
    · rintro ⟨a, _, _, _⟩; omega
  · exact wrapDim_iff (hm.per3 hf) hx hd.1.1 hd.1.2

theorem mem_refineRow {m : Mesh} (hm : m.Valid) {L : Nat} {p : Pos} {oy oz : Int} {y z : Nat}
    (hx : p.x1 < m.nmax1 L) {q : Pos} : q ∈ refineRow m L p oy oz y z ↔
      q.x2 = y ∧ q.x3 = z ∧ ∃ ox, ¬ (ox = 0 ∧ oy = 0 ∧ oz = 0) ∧
        Step (m.ix1 = .periodic) (m.nmax1 L) p.x1 ox q.x1 := by
  simp only [refineRow, List.mem_filterMap]
  constructor
  · rintro ⟨ox, ho, h⟩
    rw [mem_offs] at ho
    split at h
    · simp at h
    · simp only [Option.map_eq_some_iff] at h
      obtain ⟨x, hx', rfl⟩ := h
      exact ⟨rfl, rfl, ox, ‹_›, (wrapDim_iff hm.per1 hx ho.1.1 ho.1.2).1 hx'⟩
  · rintro ⟨rfl, rfl, ox, h0, hs⟩
    refine ⟨ox, mem_offs.2 ⟨⟨hs.lo, hs.hi⟩, by simp⟩, ?_⟩
    rw [if_neg h0, (wrapDim_iff hm.per1 hx hs.lo hs.hi).2 hs]
    rfl

theorem mem_refineCols {m : Mesh} (hm : m.Valid) (hnp : NoPolar m) {L : Nat} {p : Pos} {oz : Int}
    (hx : p.x1 < m.nmax1 L) (hy : p.x2 < m.nmax2 L) {q : Pos} (l : List Int)
    (hl : ∀ o ∈ l, o ∈ offs m.f2) (z : Nat) :
    q ∈ refineCols m L p oz l z ↔
      q.x3 = z ∧ ∃ ox oy, oy ∈ l ∧ ¬ (ox = 0 ∧ oy = 0 ∧ oz = 0) ∧
        Step (m.ix1 = .periodic) (m.nmax1 L) p.x1 ox q.x1 ∧
        Step (m.ix2 = .periodic) (m.nmax2 L) p.x2 oy q.x2 := by
  induction l generalizing z with
  | nil => simp [refineCols]
  | cons oy l ih =>
    have ih' := ih (fun o h => hl o (by simp [h])) z
    have hoy := hl oy (by simp)
    unfold refineCols
    split
    · rename_i hnone
      rw [ih']
      constructor
      · rintro ⟨h1, ox, oy', h2, h3⟩; exact ⟨h1, ox, oy', by simp [h2], h3⟩
      · rintro ⟨h1, ox, oy', h2, h3, h4, h5⟩
        rcases List.mem_cons.1 h2 with rfl | h2
        · rw [(per2_iff hm hnp hy hoy _).2 h5] at hnone; simp at hnone
        · exact ⟨h1, ox, oy', h2, h3, h4, h5⟩
    · rename_i y polar hsome
      have hb := wrapDim2_false hnp hy hoy hsome
      subst hb
      have hs := (per2_iff hm hnp hy hoy _).1 hsome
      simp only [Bool.false_eq_true, if_false, List.mem_append, mem_refineRow hm hx, ih']
      constructor
      · rintro (⟨rfl, rfl, ox, h3, h4⟩ | ⟨h1, ox, oy', h2, h3⟩)
        · exact ⟨rfl, ox, oy, by simp, h3, h4, hs⟩
        · exact ⟨h1, ox, oy', by simp [h2], h3⟩
      · rintro ⟨h1, ox, oy', h2, h3, h4, h5⟩
        rcases List.mem_cons.1 h2 with rfl | h2
        · left
          exact ⟨h5.unique hy hs, h1, ox, h3, h4⟩
        · right; exact ⟨h1, ox, oy', h2, h3, h4, h5⟩

/-- Away from the poles the locations visited by `Refine` are exactly the same-level neighbours. -/
theorem mem_refineNbrs {m : Mesh} (hm : m.Valid) (hnp : NoPolar m) {L : Nat}
    (hL : m.rootLevel ≤ L) {p q : Pos} (hp : Dom m L p) :
    q ∈ refineNbrs m L p ↔ Adj m L p q := by
  obtain ⟨p1, p2, p3⟩ := (dom_iff_ge hL).1 hp
  unfold refineNbrs
  simp only [List.mem_flatMap]
  constructor
  · rintro ⟨oz, hoz, h⟩
    split at h
    · simp at h
    · rename_i z hz
      rw [mem_refineCols hm hnp p1 p2 _ (fun _ h => h)] at h
      obtain ⟨rfl, ox, oy, hoy, h0, hs1, hs2⟩ := h
      have hs3 := (per3_iff hm p3 hoz _).1 hz
      exact ⟨ox, oy, oz, h0, ⟨(mem_offs.1 hoy).2, (mem_offs.1 hoz).2, hs1, hs2, hs3⟩⟩
  · rintro ⟨ox, oy, oz, h0, hs⟩
    have hoz : oz ∈ offs m.f3 := mem_offs.2 ⟨⟨hs.s3.lo, hs.s3.hi⟩, hs.off3⟩
    have hoy : oy ∈ offs m.f2 := mem_offs.2 ⟨⟨hs.s2.lo, hs.s2.hi⟩, hs.off2⟩
    refine ⟨oz, hoz, ?_⟩
    rw [(per3_iff hm p3 hoz _).2 hs.s3]
    simp only
    rw [mem_refineCols hm hnp p1 p2 _ (fun _ h => h)]
    exact ⟨rfl, ox, oy, hoy, h0, hs.s1, hs.s2⟩

end Verif.Tree
