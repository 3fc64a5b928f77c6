import Verif.Lemmas.TreeFind

/-! # Depth-first list and numbering of the leaves -/
namespace Verif.Tree

theorem mem_blocks {m : Mesh} (t : Tree) (L : Nat) (p : Pos) (K : Nat) (q : Pos) (g : Int) :
    (K, q, g) ∈ t.blocks m L p ↔
      ∃ j, K = L + j ∧ q.shr j = p ∧ t.get j q = .leaf g ∧
        ∀ sh, sh < j → (q.bitIdx sh).val < m.nleaf := by
  induction t generalizing L p with
  | null => simp [Tree.blocks]
  | leaf g' =>
    simp only [Tree.blocks, List.mem_singleton, Prod.mk.injEq]
    constructor
    · rintro ⟨rfl, rfl, rfl⟩
      exact ⟨0, by omega, by simp, by simp, by omega⟩
    · rintro ⟨j, rfl, h1, h2, _⟩
      rcases j with _ | j
      · simp at h1 h2; exact ⟨by omega, h1, h2.symm⟩
      · rw [get_leaf_succ] at h2; simp at h2
  | node g' k ih =>
    simp only [Tree.blocks, List.mem_flatMap]
    constructor
    · rintro ⟨n, hn, h⟩
      obtain ⟨j, rfl, h1, h2, h3⟩ := (ih n _ _).1 h
      have hb : q.bitIdx j = n := by
        have := Pos.bitIdx_shr q j 0
        rw [h1] at this; simpa using this.symm
      refine ⟨j + 1, by omega, ?_, ?_, ?_⟩
      · rw [← Pos.shr_half, h1]; simp
      · rw [get_succ_top, hb]; exact h2
      · intro sh hs
        rcases Nat.lt_or_ge sh j with h4 | h4
        · exact h3 sh h4
        · obtain rfl : sh = j := by omega
          rw [hb]; exact mem_kids.1 hn
    · rintro ⟨j, rfl, h1, h2, h3⟩
      rcases j with _ | j
      · simp at h2
      · rw [get_succ_top] at h2
        refine ⟨q.bitIdx j, mem_kids.2 (h3 j (by omega)), (ih _ _ _).2 ⟨j, by omega, ?_, h2,
          fun sh hs => h3 sh (by omega)⟩⟩
        rw [← Pos.shr_half] at h1
        rw [← h1]
        have := Pos.child_half (q.shr j)
        rw [Pos.bitIdx_shr] at this
        simpa using this.symm

/-- The list contains exactly the leaves. -/
theorem mem_meshBlocks {m : Mesh} (hm : m.Valid) {t : Tree} (hw : WF m t) {K : Nat} {q : Pos}
    {g : Int} : (K, q, g) ∈ meshBlocks m t ↔ InRange K q ∧ t.at K q = .leaf g := by
  unfold meshBlocks
  rw [mem_blocks]
  constructor
  · rintro ⟨j, rfl, h1, h2, _⟩
    simp only [Nat.zero_add]
    refine ⟨?_, at_leaf_iff.2 h2⟩
    have hp : 0 < 2 ^ j := Nat.pow_pos (by omega)
    simp only [Pos.shr, Pos.mk.injEq] at h1
    refine ⟨?_, ?_, ?_⟩
    · exact (Nat.div_eq_zero_iff_lt hp).1 h1.1
    · exact (Nat.div_eq_zero_iff_lt hp).1 h1.2.1
    · exact (Nat.div_eq_zero_iff_lt hp).1 h1.2.2
  · rintro ⟨hr, h⟩
    refine ⟨K, by omega, ?_, at_leaf_iff.1 h, ?_⟩
    · simp only [Pos.shr, Nat.div_eq_of_lt hr.1, Nat.div_eq_of_lt hr.2.1, Nat.div_eq_of_lt hr.2.2]
    · exact (hw.dom hm hr (by rw [h]; simp)).bits hm

/-! ## Z-order -/

theorem morton_shr (L j : Nat) (q : Pos) :
    8 ^ j * morton L (q.shr j) ≤ morton (L + j) q ∧
      morton (L + j) q + 1 ≤ 8 ^ j * (morton L (q.shr j) + 1) := by
  induction j generalizing q with
  | zero => simp
  | succ j ih =>
    have := ih q.half
    rw [Pos.shr_succ, ← Nat.add_assoc, Nat.pow_succ]
    have e : morton (L + j + 1) q = 8 * morton (L + j) q.half + 4 * (q.x3 % 2) + 2 * (q.x2 % 2) + q.x1 % 2 := rfl
    rw [e]
    generalize morton (L + j) q.half = a at *
    generalize morton L (q.half.shr j) = b at *
    rw [Nat.mul_comm (8 ^ j) 8, Nat.mul_assoc, Nat.mul_assoc]
    omega

theorem morton_child (L : Nat) (p : Pos) (n : Fin 8) :
    morton (L + 1) (p.child n) = 8 * morton L p + n.val := by
  have e : morton (L + 1) (p.child n) = 8 * morton L (p.child n).half + 4 * ((p.child n).x3 % 2)
    + 2 * ((p.child n).x2 % 2) + (p.child n).x1 % 2 := rfl
  rw [e, Pos.half_child]
  simp only [Pos.child]
  omega

theorem blocks_bounds {m : Mesh} {t : Tree} {L : Nat} {p : Pos} {K : Nat} {q : Pos} {g : Int}
    (h : (K, q, g) ∈ t.blocks m L p) :
    morton L p * 8 ^ K ≤ morton K q * 8 ^ L ∧ (morton K q + 1) * 8 ^ L ≤ (morton L p + 1) * 8 ^ K := by
  obtain ⟨j, rfl, h1, _, _⟩ := (mem_blocks t L p K q g).1 h
  obtain ⟨a, b⟩ := morton_shr L j q
  rw [h1] at a b
  rw [Nat.pow_add]
  constructor
  · calc _ = (8 ^ j * morton L p) * 8 ^ L := by ring
      _ ≤ _ := Nat.mul_le_mul_right _ a
  · calc _ ≤ (8 ^ j * (morton L p + 1)) * 8 ^ L := Nat.mul_le_mul_right _ b
      _ = _ := by ring

theorem zBefore_of {A B L K K' a b c : Nat} (h1 : (A + 1) * 8 ^ L ≤ (c + 1) * 8 ^ K)
    (h2 : b * 8 ^ K' ≤ B * 8 ^ L) (h3 : c + 1 ≤ b) (_ : a = a) : (A + 1) * 8 ^ K' ≤ B * 8 ^ K := by
  have hp : 0 < 8 ^ L := Nat.pow_pos (by omega)
  refine Nat.le_of_mul_le_mul_right ?_ hp
  calc (A + 1) * 8 ^ K' * 8 ^ L = (A + 1) * 8 ^ L * 8 ^ K' := by ring
    _ ≤ (c + 1) * 8 ^ K * 8 ^ K' := Nat.mul_le_mul_right _ h1
    _ ≤ b * 8 ^ K * 8 ^ K' := Nat.mul_le_mul_right _ (Nat.mul_le_mul_right _ h3)
    _ = b * 8 ^ K' * 8 ^ K := by ring
    _ ≤ B * 8 ^ L * 8 ^ K := Nat.mul_le_mul_right _ h2
    _ = B * 8 ^ K * 8 ^ L := by ring

theorem kids_sorted (m : Mesh) : m.kids.Pairwise (· < ·) := by
  unfold Mesh.kids Mesh.nleaf
  rcases m.f2 <;> rcases m.f3 <;> decide

theorem blocks_sorted {m : Mesh} (t : Tree) (L : Nat) (p : Pos) :
    (t.blocks m L p).Pairwise (fun a b => ZBefore a.1 a.2.1 b.1 b.2.1) := by
  induction t generalizing L p with
  | null => simp [Tree.blocks]
  | leaf g => simp [Tree.blocks]
  | node g k ih =>
    simp only [Tree.blocks]
    rw [List.pairwise_flatMap]
    refine ⟨fun n _ => ih n _ _, (kids_sorted m).imp ?_⟩
    intro n n' hnn x hx y hy
    have h1 := (blocks_bounds hx).2
    have h2 := (blocks_bounds hy).1
    rw [morton_child] at h1 h2
    exact zBefore_of (a := 0) h1 h2 (by have : n.val < n'.val := hnn; omega) rfl

theorem zBefore_irrefl {L : Nat} {p : Pos} : ¬ ZBefore L p L p := by
  unfold ZBefore
  rw [Nat.add_mul]
  have : 0 < 8 ^ L := Nat.pow_pos (by omega)
  omega

theorem count_eq_length {m : Mesh} (t : Tree) (L : Nat) (p : Pos) :
    t.count m = (t.blocks m L p).length := by
  induction t generalizing L p with
  | null => rfl
  | leaf g => rfl
  | node g k ih =>
    simp only [Tree.count, Tree.blocks, List.length_flatMap]
    congr 1
    apply List.map_congr_left
    intro n _
    exact ih n _ _

/-! ## Numbering -/

/-- Replace the gids of a block list by consecutive numbers. -/
def renum (c : Nat) (l : List (Nat × Pos × Int)) : List (Nat × Pos × Int) :=
  (l.zipIdx c).map (fun x => (x.1.1, x.1.2.1, (x.2 : Int)))

theorem renum_append (c : Nat) (a b : List (Nat × Pos × Int)) :
    renum c (a ++ b) = renum c a ++ renum (c + a.length) b := by
  simp [renum, List.zipIdx_append]

theorem number_spec {m : Mesh} (t : Tree) (c L : Nat) (p : Pos) :
    (t.number m c).2 = c + t.count m ∧ (t.number m c).1.blocks m L p = renum c (t.blocks m L p) := by
  induction t generalizing c L p with
  | null => simp [Tree.number, Tree.count, Tree.blocks, renum]
  | leaf g => simp [Tree.number, Tree.count, Tree.blocks, renum]
  | node g k ih =>
    have key : ∀ (l : List (Fin 8)), l.Nodup → ∀ (f : Fin 8 → Tree) (c : Nat),
        let r := l.foldl (fun (a : (Fin 8 → Tree) × Nat) n =>
          (fun i => if i = n then ((k n).number m a.2).1 else a.1 i, ((k n).number m a.2).2)) (f, c)
        r.2 = c + (l.map (fun n => (k n).count m)).sum ∧
        (∀ n, n ∉ l → r.1 n = f n) ∧
        l.flatMap (fun n => (r.1 n).blocks m (L + 1) (p.child n)) =
          renum c (l.flatMap (fun n => (k n).blocks m (L + 1) (p.child n))) := by
      intro l
      induction l with
      | nil => intro _ f c; simp [renum]
      | cons a l ihl =>
        intro hnd f c
        rw [List.nodup_cons] at hnd
        simp only [List.foldl_cons]
        obtain ⟨r1, r2, r3⟩ := ihl hnd.2 (fun i => if i = a then ((k a).number m c).1 else f i)
          ((k a).number m c).2
        obtain ⟨i1, i2⟩ := ih a c (L + 1) (p.child a)
        refine ⟨?_, ?_, ?_⟩
        · rw [r1, i1]; simp; omega
        · intro n hn
          rw [r2 n (fun h => hn (by simp [h])), if_neg (fun h => hn (by simp [h]))]
        · rw [List.flatMap_cons, List.flatMap_cons, r3, r2 a hnd.1, if_pos rfl, i2, renum_append, i1,
            count_eq_length (k a) (L + 1) (p.child a)]
    obtain ⟨k1, _, k3⟩ := key m.kids (kids_nodup m) k c
    exact ⟨k1, k3⟩

/-- Contents of the numbered tree, leaf gids ignored. -/
def Kind.shape : Kind → Kind
  | .leaf _ => .leaf 0
  | k => k

theorem number_shape {m : Mesh} (t : Tree) (c : Nat) (K : Nat) (q : Pos) :
    ((t.number m c).1.at K q).shape = (t.at K q).shape := by
  induction t generalizing c K with
  | null => rfl
  | leaf g =>
    rcases K with _ | K
    · rfl
    · simp [Tree.number, Tree.at, get_leaf_succ]
  | node g k ih =>
    rcases K with _ | K
    · rfl
    · have key : ∀ (l : List (Fin 8)) (f : Fin 8 → Tree) (c : Nat),
        (∀ i, ((f i).at K q).shape = ((k i).at K q).shape) →
        ∀ i, (((l.foldl (fun (a : (Fin 8 → Tree) × Nat) n =>
          (fun i => if i = n then ((k n).number m a.2).1 else a.1 i, ((k n).number m a.2).2)) (f, c)).1 i).at K q).shape
          = ((k i).at K q).shape := by
        intro l
        induction l with
        | nil => intro f c h i; exact h i
        | cons a l ihl =>
          intro f c h i
          rw [List.foldl_cons]
          apply ihl
          intro i
          simp only
          split
          · rename_i h'; subst h'; exact ih _ _ _
          · exact h i
      have := key m.kids k c (fun _ => rfl) (q.bitIdx K)
      unfold Tree.at at *
      rw [get_succ_top, get_succ_top]
      exact this

theorem shape_null {a b : Kind} (h : a.shape = b.shape) : a = .null ↔ b = .null := by
  cases a <;> cases b <;> simp [Kind.shape] at h ⊢
theorem shape_node {a b : Kind} (h : a.shape = b.shape) (g : Int) : a = .node g ↔ b = .node g := by
  cases a <;> cases b <;> simp [Kind.shape] at h ⊢; rw [h]
theorem shape_leaf {a b : Kind} (h : a.shape = b.shape) : (∃ g, a = .leaf g) ↔ (∃ g, b = .leaf g) := by
  cases a <;> cases b <;> simp [Kind.shape] at h ⊢

/-- Trees that differ only in leaf gids satisfy the same invariant. -/
theorem Inv.shape {m : Mesh} {t t' : Tree} (h : ∀ K q, (t'.at K q).shape = (t.at K q).shape)
    (hi : Inv m t) : Inv m t' := by
  refine ⟨⟨?_, ?_, ?_⟩, ?_⟩
  · intro h0
    have := (shape_null (h 0 ⟨0, 0, 0⟩)).1 (by rw [h0]; rfl)
    rw [at_null_iff] at this
    exact hi.wf.root (by simpa using this)
  · intro L p g hd hn n
    rw [← hi.wf.kids L p g hd ((shape_node (h L p) g).1 hn) n, Ne, Ne, shape_null (h _ _)]
  · intro L p g hd hl
    obtain ⟨g', h'⟩ := (shape_leaf (h L p)).1 ⟨g, hl⟩
    exact hi.wf.leaf L p g' hd h'
  · intro L p g hd hn _
    obtain ⟨a, b⟩ := hi.ok L p g hd ((shape_node (h L p) g).1 hn) (by simp)
    exact ⟨a, fun hL q hq => by rw [Ne, shape_null (h _ _)]; exact b hL q hq⟩

end Verif.Tree
