import Verif.Props.TreeNeighbor
import Verif.Spec.Smr
import Mathlib.Tactic.Linarith
import Mathlib.Algebra.Order.Field.Rat
import Mathlib.Tactic.Positivity
import Mathlib.Tactic.FieldSimp

/-! # Static refinement regions (C12) -/
namespace Verif.Tree

theorem scan_spec (f : Nat → Bool) (fuel i : Nat) :
    i ≤ scan f fuel i ∧ scan f fuel i ≤ i + fuel ∧
    (∀ j, i ≤ j → j < scan f fuel i → f (j + 1) = false) ∧
    (scan f fuel i < i + fuel → f (scan f fuel i + 1) = true) := by
  induction fuel generalizing i with
  | zero => simp [scan]; omega
  | succ n ih =>
    unfold scan
    split
    · rename_i h
      exact ⟨by omega, by omega, by intro j h1 h2; omega, fun _ => h⟩
    · rename_i h
      obtain ⟨a, b, c, d⟩ := ih (i + 1)
      refine ⟨by omega, by omega, ?_, fun h' => d (by omega)⟩
      intro j h1 h2
      rcases Nat.eq_or_lt_of_le h1 with rfl | h3
      · simpa using h
      · exact c j (by omega) h2

theorem faces_lift {α : Type} [LinearOrder α] {X : Nat → Nat → α} (hX : Faces X) (L d i : Nat) :
    X (L + d) (i * 2 ^ d) = X L i := by
  induction d generalizing i with
  | zero => simp
  | succ d ih =>
    rw [show i * 2 ^ (d + 1) = 2 * (i * 2 ^ d) by rw [Nat.pow_succ]; rw [← Nat.mul_assoc, Nat.mul_comm],
      ← Nat.add_assoc, hX.refine, ih]

theorem mem_visited {r : Nat × Nat} {i : Nat} (h1 : r.1 ≤ i) (h2 : i ≤ r.2) : 2 * (i / 2) ∈ visited r := by
  unfold visited
  simp only [List.mem_map, List.mem_range]
  refine ⟨i / 2 - r.1 / 2, ?_, ?_⟩
  · split <;> split <;> omega
  · split <;> omega

theorem visited_lt {r : Nat × Nat} {n i : Nat} (hn : n % 2 = 0) (h : r.2 < n) (hr : r.1 ≤ r.2)
    (hi : i ∈ visited r) : i < n := by
  unfold visited at hi
  simp only [List.mem_map, List.mem_range] at hi
  obtain ⟨k, hk, rfl⟩ := hi
  split at hk <;> split at hk <;> split <;> omega

/-- The range found by the search: inside the mesh. -/
theorem range_inside {α : Type} [LinearOrder α] {X : Nat → Nat → α} (hX : Faces X) {root n L : Nat}
    (hL : root < L) (hn : 0 < n) {lo hi : α} (hb : BoundsOk X root n lo hi) :
    (rawRange (X L) (n * 2 ^ (L - root)) lo hi).1 ≤ (rawRange (X L) (n * 2 ^ (L - root)) lo hi).2 ∧
    (rawRange (X L) (n * 2 ^ (L - root)) lo hi).2 < n * 2 ^ (L - root) := by
  have hN : X L (n * 2 ^ (L - root)) = X root n := by
    have := faces_lift hX root (L - root) n
    rwa [show root + (L - root) = L by omega] at this
  have hpos : 0 < n * 2 ^ (L - root) := Nat.mul_pos hn (Nat.pow_pos (by omega))
  generalize n * 2 ^ (L - root) = N at *
  unfold rawRange
  obtain ⟨a1, a2, a3, a4⟩ := scan_spec (fun i => decide (lo < X L i)) N 0
  simp only
  generalize scan (fun i => decide (lo < X L i)) N 0 = a at *
  have ha : a < N := by
    rcases Nat.lt_or_ge a N with h | h
    · exact h
    · have := a3 (N - 1) (by omega) (by omega)
      rw [show N - 1 + 1 = N by omega] at this
      simp only [decide_eq_false_iff_not, not_lt] at this
      rw [hN] at this
      exact absurd hb.lt (not_lt.2 this)
  obtain ⟨b1, b2, b3, b4⟩ := scan_spec (fun i => decide (hi ≤ X L i)) (N - a) a
  generalize scan (fun i => decide (hi ≤ X L i)) (N - a) a = b at *
  refine ⟨b1, ?_⟩
  rcases Nat.lt_or_ge b N with h | h
  · exact h
  · have := b3 (N - 1) (by omega) (by omega)
    rw [show N - 1 + 1 = N by omega] at this
    simp only [decide_eq_false_iff_not, not_le] at this
    rw [hN] at this
    exact absurd hb.hi (not_le.2 this)

/-- A coarse interval that overlaps the region contains a fine location inside the range. -/
theorem range_covers {α : Type} [LinearOrder α] {X : Nat → Nat → α} (hX : Faces X) {root n L K x : Nat}
    (hL : root ≤ K) (hK : K < L) (hx : x < n * 2 ^ (K - root)) {lo hi : α} (hb : BoundsOk X root n lo hi)
    (h1 : X K x < hi) (h2 : lo < X K (x + 1)) :
    ∃ i ∈ visited (rawRange (X L) (n * 2 ^ (L - root)) lo hi), i / 2 ^ (L - K) = x := by
  obtain ⟨d, rfl⟩ : ∃ d, L = K + (d + 1) := ⟨L - K - 1, by omega⟩
  rw [show K + (d + 1) - K = d + 1 by omega]
  have hn : 0 < n := by
    rcases Nat.eq_zero_or_pos n with h | h
    · subst h; simp at hx
    · exact h
  obtain ⟨hr1, hr2⟩ := range_inside hX (L := K + (d + 1)) (by omega) hn hb
  rw [← faces_lift hX K (d + 1)] at h1 h2
  have hmono := hX.mono (K + (d + 1))
  have hxN : (x + 1) * 2 ^ (d + 1) ≤ n * 2 ^ (K + (d + 1) - root) := by
    have e : n * 2 ^ (K + (d + 1) - root) = n * 2 ^ (K - root) * 2 ^ (d + 1) := by
      rw [show K + (d + 1) - root = (K - root) + (d + 1) by omega, Nat.pow_add (m := K - root), ← Nat.mul_assoc]
    rw [e]
    exact Nat.mul_le_mul_right _ hx
  have hw : 0 < 2 ^ d := Nat.pow_pos (by omega)
  have e1 : x * 2 ^ (d + 1) = 2 * (x * 2 ^ d) := by rw [Nat.pow_succ, ← Nat.mul_assoc, Nat.mul_comm]
  have e2 : (x + 1) * 2 ^ (d + 1) = 2 * (x * 2 ^ d) + 2 * 2 ^ d := by
    rw [Nat.add_mul, e1, Nat.pow_succ]; omega
  have hdiv : ∀ c, 2 * (x * 2 ^ d) ≤ c → c < 2 * (x * 2 ^ d) + 2 * 2 ^ d → c / 2 ^ (d + 1) = x := by
    intro c hc1 hc2
    apply Nat.div_eq_of_lt_le
    · omega
    · omega
  rw [e1] at h1
  rw [e2] at h2 hxN
  generalize X (K + (d + 1)) = Y at *
  generalize n * 2 ^ (K + (d + 1) - root) = N at *
  generalize x * 2 ^ d = a at *
  generalize 2 ^ d = w at *
  -- the search
  unfold rawRange at *
  obtain ⟨a1, a2, a3, a4⟩ := scan_spec (fun i => decide (lo < Y i)) N 0
  simp only at *
  generalize scan (fun i => decide (lo < Y i)) N 0 = la at *
  obtain ⟨b1, b2, b3, b4⟩ := scan_spec (fun i => decide (hi ≤ Y i)) (N - la) la
  generalize scan (fun i => decide (hi ≤ Y i)) (N - la) la = lb at *
  -- the first index is not beyond the interval
  have hla : la < 2 * a + 2 * w := by
    by_contra h
    have := a3 (2 * a + 2 * w - 1) (by omega) (by omega)
    rw [show 2 * a + 2 * w - 1 + 1 = 2 * a + 2 * w by omega] at this
    simp only [decide_eq_false_iff_not, not_lt] at this
    exact absurd h2 (not_lt.2 this)
  by_cases hc : 2 * a ≤ la
  · exact ⟨2 * (la / 2), mem_visited (r := (la, lb)) (by simp) (by simpa using b1), hdiv _ (by omega) (by omega)⟩
  · refine ⟨2 * ((2 * a) / 2), mem_visited (r := (la, lb)) (by simp; omega) ?_, hdiv _ (by omega) (by omega)⟩
    show 2 * a ≤ lb
    by_contra h
    have hlt : lb < la + (N - la) := by omega
    have := b4 hlt
    simp only [decide_eq_true_eq] at this
    have h3 := hmono (lb + 1) (2 * a) (by omega)
    exact absurd (lt_of_le_of_lt (le_trans this h3) h1) (lt_irrefl _)

theorem mem_regionLocs {α : Type} [LinearOrder α] {m : Mesh} {X1 X2 X3 : Nat → Nat → α} {r : Region α}
    {q : Pos} : q ∈ regionLocs m X1 X2 X3 r ↔
      q.x1 ∈ visited (rawRange (X1 r.lev) (m.nmax1 r.lev) r.lo1 r.hi1) ∧
      q.x2 ∈ (if m.f2 then visited (rawRange (X2 r.lev) (m.nmax2 r.lev) r.lo2 r.hi2) else [0]) ∧
      q.x3 ∈ (if m.f3 then visited (rawRange (X3 r.lev) (m.nmax3 r.lev) r.lo3 r.hi3) else [0]) := by
  unfold regionLocs
  simp only [List.mem_flatMap, List.mem_map]
  constructor
  · rintro ⟨k, hk, j, hj, i, hi, rfl⟩; exact ⟨hi, hj, hk⟩
  · rintro ⟨h1, h2, h3⟩; exact ⟨q.x3, h3, q.x2, h2, q.x1, h1, rfl⟩

theorem even_pow {n root L : Nat} (h : root < L) : n * 2 ^ (L - root) % 2 = 0 := by
  rw [show L - root = (L - root - 1) + 1 by omega, Nat.pow_succ, ← Nat.mul_assoc]
  omega

theorem regionLocs_dom {α : Type} [LinearOrder α] {m : Mesh} (hm : m.Valid) {X1 X2 X3 : Nat → Nat → α}
    (f1 : Faces X1) (f2 : Faces X2) (f3 : Faces X3) {r : Region α} (hr : RegionOk m X1 X2 X3 r)
    {q : Pos} (hq : q ∈ regionLocs m X1 X2 X3 r) : Dom m r.lev q := by
  obtain ⟨h1, h2, h3⟩ := mem_regionLocs.1 hq
  have hl := hr.lev
  rw [dom_iff_ge (by omega)]
  refine ⟨?_, ?_, ?_⟩
  · have := range_inside f1 hl hm.pos1 hr.b1
    exact visited_lt (even_pow hl) this.2 this.1 h1
  · unfold Mesh.nmax2 at h2 ⊢
    rcases hf : m.f2
    · simp [hf] at h2; simp [h2]
    · simp only [hf, if_true] at h2 ⊢
      have := range_inside f2 hl hm.pos2 (hr.b2 hf)
      exact visited_lt (even_pow hl) this.2 this.1 h2
  · unfold Mesh.nmax3 at h3 ⊢
    rcases hf : m.f3
    · simp [hf] at h3; simp [h3]
    · simp only [hf, if_true] at h3 ⊢
      have := range_inside f3 hl hm.pos3 (hr.b3 hf)
      exact visited_lt (even_pow hl) this.2 this.1 h3

/-- A sequence of requests inside the mesh. -/
theorem foldlM_add {m : Mesh} (hm : m.Valid) {L : Nat} (l : List Pos) {s : St} (h : Reach m s)
    (hd : ∀ q ∈ l, Dom m L q) : ∃ s', l.foldlM (fun s q => addMeshBlock m L q s) s = some s' ∧
      Reach m s' ∧ (∀ q ∈ l, s'.tree.get L q ≠ .null) ∧
      (∀ K q, InRange K q → s.tree.get K q ≠ .null → s'.tree.get K q ≠ .null) := by
  induction l generalizing s with
  | nil => exact ⟨s, rfl, h, by simp, fun _ _ _ h => h⟩
  | cons q l ih =>
    obtain ⟨s1, e1, x1, _, k1, _⟩ := add_block_honoured hm h (hd q (by simp))
    obtain ⟨s2, e2, r2, x2, k2⟩ := ih (.add h (hd q (by simp)) e1) (fun q' h' => hd q' (by simp [h']))
    refine ⟨s2, by simp [List.foldlM_cons, e1, e2], r2, ?_, fun K q' hq' h' => k2 K q' hq' (k1 K q' hq' h')⟩
    intro q' hq'
    rcases List.mem_cons.1 hq' with rfl | h'
    · exact k2 _ _ ((hd _ (by simp)).inRange hm) x1
    · exact x2 q' h'

/-- If the requested locations exist, no coarser block overlaps the region. -/
theorem overlap_level {α : Type} [LinearOrder α] {m : Mesh} (hm : m.Valid) {X1 X2 X3 : Nat → Nat → α}
    (f1 : Faces X1) (f2 : Faces X2) (f3 : Faces X3) {r : Region α} (hr : RegionOk m X1 X2 X3 r) {s : St}
    (h : Reach m s) (hx : ∀ q ∈ regionLocs m X1 X2 X3 r, s.tree.get r.lev q ≠ .null) {K : Nat} {p : Pos}
    {g : Int} (hb : (K, p, g) ∈ meshBlocks m s.tree) (ho : Overlaps m X1 X2 X3 r K p) : r.lev ≤ K := by
  by_contra hlt
  have hw := h.wf hm
  obtain ⟨hp, hl⟩ := (block_iff hm hw).1 hb
  have hK := hw.leaf K p g hp hl
  obtain ⟨p1, p2, p3⟩ := (dom_iff_ge hK).1 hp
  obtain ⟨i, hi, ei⟩ := range_covers f1 hK (by omega) p1 hr.b1 ho.o1.1 ho.o1.2 (L := r.lev)
  have H2 : ∃ j, j ∈ (if m.f2 then visited (rawRange (X2 r.lev) (m.nmax2 r.lev) r.lo2 r.hi2) else [0]) ∧
      j / 2 ^ (r.lev - K) = p.x2 := by
    unfold Mesh.nmax2 at p2 ⊢
    rcases hf : m.f2
    · simp [hf] at p2; exact ⟨0, by simp, by simp [p2]⟩
    · simp only [hf, if_true] at p2 ⊢
      obtain ⟨j, a, b⟩ := range_covers f2 hK (by omega) p2 (hr.b2 hf) (ho.o2 hf).1 (ho.o2 hf).2 (L := r.lev)
      exact ⟨j, a, b⟩
  have H3 : ∃ j, j ∈ (if m.f3 then visited (rawRange (X3 r.lev) (m.nmax3 r.lev) r.lo3 r.hi3) else [0]) ∧
      j / 2 ^ (r.lev - K) = p.x3 := by
    unfold Mesh.nmax3 at p3 ⊢
    rcases hf : m.f3
    · simp [hf] at p3; exact ⟨0, by simp, by simp [p3]⟩
    · simp only [hf, if_true] at p3 ⊢
      obtain ⟨j, a, b⟩ := range_covers f3 hK (by omega) p3 (hr.b3 hf) (ho.o3 hf).1 (ho.o3 hf).2 (L := r.lev)
      exact ⟨j, a, b⟩
  obtain ⟨j, hj, ej⟩ := H2
  obtain ⟨k, hk, ek⟩ := H3
  have hex := hx ⟨i, j, k⟩ (mem_regionLocs.2 ⟨hi, hj, hk⟩)
  have hlev : r.lev = K + (r.lev - K) := by omega
  rw [hlev, Ne, ← at_null_iff] at hex
  obtain ⟨g', hn⟩ := node_anc hex (by omega)
  have : (⟨i, j, k⟩ : Pos).shr (r.lev - K) = p := Pos.ext' ei ej ek
  rw [this, hl] at hn
  simp at hn

/-- **C12** For every list of refinement regions that pass the checks of the constructor (and do not
degenerate to the upper edge of the mesh), the mesh is built without error and every block of the
final mesh that overlaps a region has at least the level requested for that region. -/
theorem regions_resolved {α : Type} [LinearOrder α] {m : Mesh} (hm : m.Valid) {X1 X2 X3 : Nat → Nat → α}
    (f1 : Faces X1) (f2 : Faces X2) (f3 : Faces X3) (rs : List (Region α))
    (hr : ∀ r ∈ rs, RegionOk m X1 X2 X3 r) {s : St} (h : Reach m s) :
    ∃ s', addRegions m X1 X2 X3 rs s = some s' ∧ Reach m s' ∧
      ∀ r ∈ rs, ∀ K p g, (K, p, g) ∈ meshBlocks m s'.tree → Overlaps m X1 X2 X3 r K p → r.lev ≤ K := by
  have key : ∃ s', addRegions m X1 X2 X3 rs s = some s' ∧ Reach m s' ∧
      (∀ r ∈ rs, ∀ q ∈ regionLocs m X1 X2 X3 r, s'.tree.get r.lev q ≠ .null) ∧
      (∀ K q, InRange K q → s.tree.get K q ≠ .null → s'.tree.get K q ≠ .null) := by
    induction rs generalizing s with
    | nil => exact ⟨s, rfl, h, by simp, fun _ _ _ h => h⟩
    | cons r rs ih =>
      have hdom := fun q (hq : q ∈ regionLocs m X1 X2 X3 r) =>
        regionLocs_dom hm f1 f2 f3 (hr r (by simp)) hq
      obtain ⟨s1, e1, r1, x1, k1⟩ := foldlM_add hm (regionLocs m X1 X2 X3 r) h hdom
      obtain ⟨s2, e2, r2, x2, k2⟩ := ih (fun r' h' => hr r' (by simp [h'])) r1
      refine ⟨s2, ?_, r2, ?_, fun K q hq h' => k2 K q hq (k1 K q hq h')⟩
      · unfold addRegions at e2 ⊢
        rw [List.foldlM_cons]
        have e1' : addRegion m X1 X2 X3 r s = some s1 := e1
        rw [e1']
        exact e2
      · intro r' hr' q hq
        rcases List.mem_cons.1 hr' with rfl | h'
        · exact k2 _ _ ((hdom q hq).inRange hm) (x1 q hq)
        · exact x2 r' h' q hq
  obtain ⟨s', e, hr', hx, _⟩ := key
  exact ⟨s', e, hr', fun r hrm K p g hb ho => overlap_level hm f1 f2 f3 (hr r hrm) hr' (hx r hrm) hb ho⟩

/-- Uniform spacing in units of the tree length: face `i` of level `L` is at `i / 2^L`. -/
def exFaces (L i : Nat) : Rat := (i : Rat) / 2 ^ L

theorem exFaces_ok : Faces exFaces := by
  constructor
  · intro L i j h
    unfold exFaces
    have : (i : Rat) ≤ j := by exact_mod_cast h
    gcongr
  · intro L i
    unfold exFaces
    push_cast
    rw [pow_succ]
    field_simp

example : RegionOk exMesh exFaces exFaces exFaces ⟨4, 1/10, 3/10, 1/5, 1/5, 0, 0⟩ := by
  constructor
  · decide
  · constructor <;> norm_num [exFaces, exMesh]
  · intro _; constructor <;> norm_num [exFaces, exMesh]
  · intro h; simp [exMesh] at h

/-- **C12 (negation without the extra hypothesis)** A region of zero width at the upper edge of the
mesh passes the checks of the constructor, but `AddMeshBlock` is then called with a location outside
the mesh, which dereferences a null pointer. -/
theorem region_at_upper_edge_fails : ∃ (m : Mesh) (X : Nat → Nat → Rat) (r : Region Rat),
    m.Valid ∧ Faces X ∧ m.rootLevel < r.lev ∧ r.lo1 ≤ r.hi1 ∧ X m.rootLevel 0 ≤ r.lo1 ∧
      r.hi1 ≤ X m.rootLevel m.nrbx1 ∧
      (∃ q ∈ regionLocs m X X X r, ¬ Dom m r.lev q) ∧
      addRegion m X X X r ⟨rootGrid m, 0⟩ = none := by
  refine ⟨⟨3, 1, 1, 2, false, false, .outflow, .outflow, .outflow, .outflow, .outflow, .outflow⟩,
    exFaces, ⟨3, 3/4, 3/4, 0, 0, 0, 0⟩, by constructor <;> decide, exFaces_ok, by decide, by norm_num,
    by norm_num [exFaces], by norm_num [exFaces], ?_, ?_⟩
  · refine ⟨⟨6, 0, 0⟩, by decide +kernel, ?_⟩
    intro h
    have := h.d1
    unfold DomDim at this
    revert this
    decide
  · have h : (addRegion ⟨3, 1, 1, 2, false, false, .outflow, .outflow, .outflow, .outflow, .outflow, .outflow⟩
      exFaces exFaces exFaces ⟨3, 3/4, 3/4, 0, 0, 0, 0⟩ ⟨rootGrid ⟨3, 1, 1, 2, false, false, .outflow,
        .outflow, .outflow, .outflow, .outflow, .outflow⟩, 0⟩).isNone = true := by decide +kernel
    simpa using h

end Verif.Tree
