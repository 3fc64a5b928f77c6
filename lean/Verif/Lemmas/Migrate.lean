import Verif.Model.Migrate
import Verif.Lemmas.AdaptOne

/-! # Old and new block lists as sequences of kept, split and merged blocks -/
namespace Verif.Tree

/-- One step of the common traversal of the old and the new block list. -/
inductive Seg where
  | keep (b : Nat × Pos)
  | split (b : Nat × Pos)
  | merge (b : Nat × Pos)
deriving DecidableEq

def Seg.old (m : Mesh) : Seg → List (Nat × Pos)
  | .keep b => [b]
  | .split b => [b]
  | .merge b => m.kids.map (fun n => (b.1 + 1, b.2.child n))

def Seg.new (m : Mesh) : Seg → List (Nat × Pos)
  | .keep b => [b]
  | .split b => m.kids.map (fun n => (b.1 + 1, b.2.child n))
  | .merge b => [b]

def Seg.olen (m : Mesh) (s : Seg) : Nat := (s.old m).length
def Seg.nlen (m : Mesh) (s : Seg) : Nat := (s.new m).length

/-- `newtoold` of a sequence starting at old gid `a`. -/
def segN2o (m : Mesh) : List Seg → (a : Nat) → List Nat
  | [], _ => []
  | s :: r, a => List.replicate (s.nlen m) a ++ segN2o m r (a + s.olen m)

/-- `oldtonew` of a sequence starting at new gid `b`. -/
def segO2n (m : Mesh) : List Seg → (b : Nat) → List Nat
  | [], _ => []
  | s :: r, b => List.replicate (s.olen m) b ++ segO2n m r (b + s.nlen m)

theorem nleaf_ge (m : Mesh) : 2 ≤ m.nleaf := by
  unfold Mesh.nleaf; split
  · omega
  · split <;> omega

theorem Seg.lens (m : Mesh) (s : Seg) :
    (s.olen m = 1 ∧ s.nlen m = 1) ∨ (s.olen m = 1 ∧ s.nlen m = m.nleaf) ∨ (s.olen m = m.nleaf ∧ s.nlen m = 1) := by
  cases s <;> simp [Seg.olen, Seg.nlen, Seg.old, Seg.new, kids_length]

theorem o2nGo_replicate (N a b k : Nat) (hN : 2 ≤ N) (r : List Nat) :
    o2nGo N a b (List.replicate k a ++ r) = o2nGo N a (b + k) r := by
  induction k generalizing b with
  | zero => rfl
  | succ k ih =>
    simp only [List.replicate_succ, List.cons_append, o2nGo]
    rw [if_neg (by omega), if_neg (by omega), ih]
    congr 1; omega

theorem segN2o_length (m : Mesh) (S : List Seg) (a : Nat) :
    (segN2o m S a).length = (S.map (Seg.nlen m)).sum := by
  induction S generalizing a with
  | nil => rfl
  | cons s r ih => simp [segN2o, ih]

theorem segO2n_length (m : Mesh) (S : List Seg) (a : Nat) :
    (segO2n m S a).length = (S.map (Seg.olen m)).sum := by
  induction S generalizing a with
  | nil => rfl
  | cons s r ih => simp [segO2n, ih]

/-- The loop, started behind the first entry of segment `s`. -/
theorem o2nGo_segs (m : Mesh) (s : Seg) (r : List Seg) (a b : Nat) :
    let out := o2nGo m.nleaf a (b + 1) (List.replicate (s.nlen m - 1) a ++ segN2o m r (a + s.olen m))
    out ++ List.replicate ((s.olen m - 1) + (r.map (Seg.olen m)).sum - out.length)
        (b + s.nlen m + (r.map (Seg.nlen m)).sum - 1)
      = List.replicate (s.olen m - 1) b ++ segO2n m r (b + s.nlen m) := by
  intro out
  have hN := nleaf_ge m
  have hs := s.lens m
  have hpos : 0 < s.olen m ∧ 0 < s.nlen m := by omega
  have hout : out = o2nGo m.nleaf a (b + s.nlen m) (segN2o m r (a + s.olen m)) := by
    simp only [out]
    rw [o2nGo_replicate _ _ _ _ hN]
    congr 1; omega
  clear_value out
  subst hout
  induction r generalizing s a b with
  | nil =>
    simp only [segN2o, o2nGo, List.map_nil, List.sum_nil, List.length_nil, segO2n, List.append_nil,
      List.nil_append, Nat.add_zero, Nat.sub_zero]
    rcases hs with h | h | h
    · simp [h]
    · simp [h]
    · rw [h.2]; simp
  | cons s' r ih =>
    have hs' := s'.lens m
    have hpos' : 0 < s'.olen m ∧ 0 < s'.nlen m := by omega
    have ih := ih s' (a + s.olen m) (b + s.nlen m) hs' hpos'
    obtain ⟨k', hk'⟩ : ∃ k, s'.nlen m = k + 1 := ⟨s'.nlen m - 1, by omega⟩
    have hgo : o2nGo m.nleaf a (b + s.nlen m) (segN2o m (s' :: r) (a + s.olen m)) =
        List.replicate (s.olen m - 1) b ++ (b + s.nlen m) ::
          o2nGo m.nleaf (a + s.olen m) (b + s.nlen m + s'.nlen m) (segN2o m r (a + s.olen m + s'.olen m)) := by
      simp only [segN2o, hk', List.replicate_succ, List.cons_append, o2nGo]
      rw [o2nGo_replicate _ _ _ _ hN]
      rw [show b + s.nlen m + 1 + k' = b + s.nlen m + (k' + 1) by omega]
      rcases hs with h | h | h
      · rw [if_pos (by omega), h.1]; simp
      · rw [if_pos (by omega), h.1]; simp
      · rw [if_neg (by omega), if_pos (by omega), h.1, h.2]; simp
    rw [hgo]
    generalize hgen : o2nGo m.nleaf (a + s.olen m) (b + s.nlen m + s'.nlen m)
      (segN2o m r (a + s.olen m + s'.olen m)) = rest at ih ⊢
    simp only [segO2n, List.map_cons, List.sum_cons]
    rw [List.append_assoc]
    congr 1
    rw [List.cons_append]
    obtain ⟨k, hk⟩ : ∃ k, s'.olen m = k + 1 := ⟨s'.olen m - 1, by omega⟩
    rw [hk, List.replicate_succ, List.cons_append]
    congr 1
    rw [hk] at ih
    simp only [Nat.add_sub_cancel] at ih
    rw [← ih]
    congr 2
    · simp only [List.length_append, List.length_cons, List.length_replicate]
      omega
    · omega

/-- `oldtonew` is correct. -/
theorem oldToNew_segs (m : Mesh) (S : List Seg) (hS : S ≠ []) :
    oldToNew m.nleaf (segN2o m S 0) ((S.map (Seg.olen m)).sum) = segO2n m S 0 := by
  rcases S with _ | ⟨s, r⟩
  · exact absurd rfl hS
  have hs := s.lens m
  have hN := nleaf_ge m
  obtain ⟨k, hk⟩ : ∃ k, s.nlen m = k + 1 := ⟨s.nlen m - 1, by omega⟩
  obtain ⟨j, hj⟩ : ∃ k, s.olen m = k + 1 := ⟨s.olen m - 1, by omega⟩
  have key := o2nGo_segs m s r 0 0
  simp only [Nat.zero_add] at key
  unfold oldToNew
  simp only [segN2o, hk, List.replicate_succ, List.cons_append, List.headD_cons, List.tail_cons, Nat.zero_add]
  simp only [hk, Nat.add_sub_cancel] at key
  generalize hgen : o2nGo m.nleaf 0 1 (List.replicate k 0 ++ segN2o m r (s.olen m)) = out at key ⊢
  simp only [segO2n, hj, List.replicate_succ, List.cons_append, Nat.zero_add, hk]
  congr 1
  rw [hj] at key
  simp only [Nat.add_sub_cancel] at key
  rw [← key]
  congr 2
  · simp only [List.map_cons, List.sum_cons, List.length_cons, hj]; omega
  · simp only [List.length_cons, List.length_append, List.length_replicate, segN2o_length]; omega

end Verif.Tree
