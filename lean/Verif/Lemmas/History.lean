import Verif.Spec.History
import Verif.Lemmas.Array
import Mathlib.Algebra.BigOperators.Group.List.Lemmas
import Mathlib.Algebra.Order.Ring.Rat
import Mathlib.Algebra.Order.Field.Basic
import Mathlib.Tactic.Ring
import Mathlib.Tactic.Linarith

/-!
Lemmas on the history output.
-/

namespace Verif.Hst

variable {K : Type} [Field K] [LinearOrder K] [IsStrictOrderedRing K]

/-! ### Sums -/

omit [LinearOrder K] [IsStrictOrderedRing K] in
theorem adds_fold (A : List (ℕ × Q)) (g : Q → K) (h : ℕ → K) (n : ℕ) :
    A.foldl (fun h a => Function.update h a.1 (h a.1 + g a.2)) h n =
      h n + (A.map fun a => if a.1 = n then g a.2 else 0).sum := by
  induction A generalizing h with
  | nil => simp
  | cons a A ih =>
    rw [List.foldl_cons, ih, List.map_cons, List.sum_cons, ← add_assoc]
    congr 1
    by_cases e : a.1 = n
    · subst e; simp
    · rw [Function.update_of_ne (fun q => e q.symm), if_neg e, add_zero]

omit [LinearOrder K] [IsStrictOrderedRing K] in
theorem fold_sum {α : Type} (L : List α) (F : (ℕ → K) → α → ℕ → K) (G : α → K) (n : ℕ)
    (hF : ∀ h a, F h a n = h n + G a) (h : ℕ → K) :
    L.foldl F h n = h n + (L.map G).sum := by
  induction L generalizing h with
  | nil => simp
  | cons a L ih => rw [List.foldl_cons, ih, hF, List.map_cons, List.sum_cons, add_assoc]

omit [LinearOrder K] [IsStrictOrderedRing K] in
theorem sum_swap {α β : Type} (L : List α) (A : List β) (f : α → β → K) :
    (L.map fun x => (A.map fun a => f x a).sum).sum =
      (A.map fun a => (L.map fun x => f x a).sum).sum := by
  induction A with
  | nil => simp
  | cons a A ih => simp only [List.map_cons, List.sum_cons, List.sum_map_add, ih]

theorem amount_eq (u : Cell K) (v : K) (q : Q) : amount u v q = v * Spec.density u q := by
  cases q <;> simp only [amount, Spec.density] <;> ring

theorem cells_total (b : Block K) (q : Q) :
    ((cells b).map fun u => amount u.2 u.1 q).sum = Spec.blockTotal b q := by
  unfold cells Spec.blockTotal
  simp only [List.map_flatMap, List.map_map, amount_eq, List.flatMap, List.map_flatten,
    List.sum_flatten, Function.comp_def]

/-- A column is the sum of the totals of the quantities added to it. -/
theorem sums_eq (c : Cfg) (bs : List (Block K)) (n : ℕ) :
    sums c bs n = ((adds c).map fun a => if a.1 = n then Spec.total bs a.2 else 0).sum := by
  unfold sums
  rw [fold_sum bs _ (fun b => ((cells b).map fun u =>
    ((adds c).map fun a => if a.1 = n then amount u.2 u.1 a.2 else 0).sum).sum) n ?_, zero_add]
  · simp only [sum_swap (cells _) (adds c)]
    rw [sum_swap bs (adds c)]
    congr 1
    apply List.map_congr_left
    intro a _
    by_cases e : a.1 = n
    · simp only [if_pos e, cells_total]
      rfl
    · simp [if_neg e]
  · intro h b
    rw [fold_sum (cells b) _ (fun u =>
      ((adds c).map fun a => if a.1 = n then amount u.2 u.1 a.2 else 0).sum) n ?_]
    intro h u
    exact adds_fold (adds c) (amount u.2 u.1) h n

theorem reduce_sum (xs : List K) : reduce .sum xs = xs.sum := by
  cases xs with
  | nil => rfl
  | cons x xs =>
    change xs.foldl (· + ·) x = _
    rw [List.sum_cons]
    induction xs generalizing x with
    | nil => simp
    | cons y ys ih => rw [List.foldl_cons, ih, List.sum_cons, add_assoc]

omit [LinearOrder K] [IsStrictOrderedRing K] in
theorem total_flatten (ranks : List (List (Block K))) (q : Q) :
    (ranks.map fun bs => Spec.total bs q).sum = Spec.total ranks.flatten q := by
  unfold Spec.total
  rw [List.map_flatten, List.sum_flatten, List.map_map]
  rfl

theorem column_eq (c : Cfg) (ranks : List (List (Block K))) (n : ℕ) :
    reduce .sum (ranks.map fun bs => sums c bs n) =
      ((adds c).map fun a => if a.1 = n then Spec.total ranks.flatten a.2 else 0).sum := by
  rw [reduce_sum]
  simp only [sums_eq]
  rw [sum_swap]
  congr 1
  apply List.map_congr_left
  intro a _
  by_cases e : a.1 = n
  · simp only [if_pos e, total_flatten]
  · simp [if_neg e]

/-! ### Labels -/

/-- The labels of the columns that are not user-defined. -/
def labels (c : Cfg) : List Q :=
  [.mass, .mom 0, .mom 1, .mom 2, .ke 0, .ke 1, .ke 2] ++
  (if c.nonbaro then [.totE] else []) ++
  (if c.grav then [.gravE] else []) ++
  (if c.mag then [.me 0, .me 1, .me 2] else []) ++
  (List.range c.nscal).map .scalar ++
  (match c.chem with | some f => (List.range f).map .chemRad | none => []) ++
  (match c.rad with
    | some f => if f = 1 then (List.finRange 14).map .rad
      else (List.range f).flatMap (fun n => (List.finRange 4).map (.radNu n))
    | none => []) ++
  (if c.cr then (List.finRange 4).map .cr else [])

theorem header_eq (c : Cfg) :
    header c = [.time, .dt] ++ labels c ++ (List.range c.user.length).map .user := by
  unfold header labels
  simp only [List.append_assoc, List.cons_append, List.nil_append]
  rfl

theorem labels_builtin (c : Cfg) (q : Q) (hq : q = .time ∨ q = .dt ∨ ∃ n, q = .user n) :
    q ∉ labels c := by
  unfold labels
  rcases hq with rfl | rfl | ⟨n, rfl⟩ <;> cases c.nonbaro <;> cases c.grav <;> cases c.mag <;>
    cases c.cr <;> cases c.chem <;> cases c.rad <;> simp <;> split <;> simp

theorem zip_range (f : ℕ → Q) (n k : ℕ) :
    ((List.range n).map f).zipIdx k = (List.range n).map (fun i => (f i, k + i)) := by
  apply List.ext_getElem
  · simp
  · intro i h1 h2
    simp

theorem zip_fin {m : ℕ} (f : Fin m → Q) (k : ℕ) :
    ((List.finRange m).map f).zipIdx k = (List.finRange m).map (fun i => (f i, k + i.val)) := by
  apply List.ext_getElem
  · simp
  · intro i h1 h2
    simp

theorem adds_good (c : Cfg) (hc : Spec.Good c) :
    adds c = (labels c).zipIdx.map Prod.swap ∧ (labels c).length = c.nvars := by
  obtain ⟨nb, gr, mg, ns, ch, ra, cr, us⟩ := c
  obtain ⟨h1, h2⟩ := hc
  dsimp only at h1 h2
  have key : ∀ nb gr mg : Bool, ∀ ch ra cr, (ch = none ∨ (ra = none ∧ cr = false)) →
      (ra = none ∨ ra = some 1) →
      adds ⟨nb, gr, mg, ns, ch, ra, cr, us⟩ =
        (labels ⟨nb, gr, mg, ns, ch, ra, cr, us⟩).zipIdx.map Prod.swap ∧
      (labels ⟨nb, gr, mg, ns, ch, ra, cr, us⟩).length =
        Cfg.nvars ⟨nb, gr, mg, ns, ch, ra, cr, us⟩ := by
    intro nb gr mg ch ra cr h1 h2
    rcases h1 with rfl | ⟨rfl, rfl⟩
    · rcases h2 with rfl | rfl <;> cases nb <;> cases gr <;> cases mg <;> cases cr <;>
        constructor <;>
        simp [adds, labels, Cfg.nvars, Cfg.nhydro, Cfg.ngrav, Cfg.nfield, Cfg.nrad, Cfg.ncr,
          List.zipIdx_append, zip_range, zip_fin, List.map_append, Function.comp_def, Prod.swap,
          Nat.add_comm, Nat.add_left_comm] <;> omega
    · cases ch with
      | none =>
        cases nb <;> cases gr <;> cases mg <;> constructor <;>
        simp [adds, labels, Cfg.nvars, Cfg.nhydro, Cfg.ngrav, Cfg.nfield, Cfg.nrad, Cfg.ncr,
          List.zipIdx_append, zip_range, zip_fin, List.map_append, Function.comp_def, Prod.swap,
          Nat.add_comm, Nat.add_left_comm]
      | some f =>
        cases nb <;> cases gr <;> cases mg <;> constructor <;>
        simp [adds, labels, Cfg.nvars, Cfg.nhydro, Cfg.ngrav, Cfg.nfield, Cfg.nrad, Cfg.ncr,
          List.zipIdx_append, zip_range, zip_fin, List.map_append, Function.comp_def, Prod.swap,
          Nat.add_comm, Nat.add_left_comm] <;> omega
  exact key nb gr mg ch ra cr h1 h2

/-! ### User-defined outputs -/

section user
variable {α : Type}

omit [Field K] [IsStrictOrderedRing K] in
theorem fold_max (f : α → K) (bs : List α) (s : K) :
    (bs.foldl (fun h b => max (f b) h) s = s ∨
      ∃ b ∈ bs, f b = bs.foldl (fun h b => max (f b) h) s) ∧
    s ≤ bs.foldl (fun h b => max (f b) h) s ∧
    ∀ b ∈ bs, f b ≤ bs.foldl (fun h b => max (f b) h) s := by
  induction bs generalizing s with
  | nil => simp
  | cons b bs ih =>
    rw [List.foldl_cons]
    obtain ⟨h1, h2, h3⟩ := ih (max (f b) s)
    refine ⟨?_, le_trans (le_max_right _ _) h2, ?_⟩
    · rcases h1 with h1 | ⟨x, hx, h1⟩
      · rcases max_choice (f b) s with e | e
        · exact Or.inr ⟨b, List.mem_cons_self, by rw [h1, e]⟩
        · exact Or.inl (by rw [h1, e])
      · exact Or.inr ⟨x, List.mem_cons_of_mem _ hx, h1⟩
    · intro x hx
      rcases List.mem_cons.1 hx with rfl | hx
      · exact le_trans (le_max_left _ _) h2
      · exact h3 x hx

omit [Field K] [IsStrictOrderedRing K] in
theorem fold_min (f : α → K) (bs : List α) (s : K) :
    (bs.foldl (fun h b => min (f b) h) s = s ∨
      ∃ b ∈ bs, f b = bs.foldl (fun h b => min (f b) h) s) ∧
    bs.foldl (fun h b => min (f b) h) s ≤ s ∧
    ∀ b ∈ bs, bs.foldl (fun h b => min (f b) h) s ≤ f b := by
  induction bs generalizing s with
  | nil => simp
  | cons b bs ih =>
    rw [List.foldl_cons]
    obtain ⟨h1, h2, h3⟩ := ih (min (f b) s)
    refine ⟨?_, le_trans h2 (min_le_right _ _), ?_⟩
    · rcases h1 with h1 | ⟨x, hx, h1⟩
      · rcases min_choice (f b) s with e | e
        · exact Or.inr ⟨b, List.mem_cons_self, by rw [h1, e]⟩
        · exact Or.inl (by rw [h1, e])
      · exact Or.inr ⟨x, List.mem_cons_of_mem _ hx, h1⟩
    · intro x hx
      rcases List.mem_cons.1 hx with rfl | hx
      · exact le_trans h2 (min_le_left _ _)
      · exact h3 x hx

end user

theorem reduce_max (xs : List K) (hx : xs ≠ []) :
    reduce .max xs ∈ xs ∧ ∀ x ∈ xs, x ≤ reduce .max xs := by
  cases xs with
  | nil => exact absurd rfl hx
  | cons x xs =>
    have e : reduce .max (x :: xs) = xs.foldl (fun h b => max b h) x := by
      change xs.foldl (fun a b => max a b) x = _
      congr 1; funext a b; exact max_comm a b
    rw [e]
    obtain ⟨h1, h2, h3⟩ := fold_max (fun y : K => y) xs x
    refine ⟨?_, ?_⟩
    · rcases h1 with h1 | ⟨y, hy, h1⟩
      · rw [h1]; exact List.mem_cons_self
      · rw [← h1]; exact List.mem_cons_of_mem _ hy
    · intro y hy
      rcases List.mem_cons.1 hy with rfl | hy
      · exact h2
      · exact h3 y hy

theorem reduce_min (xs : List K) (hx : xs ≠ []) :
    reduce .min xs ∈ xs ∧ ∀ x ∈ xs, reduce .min xs ≤ x := by
  cases xs with
  | nil => exact absurd rfl hx
  | cons x xs =>
    have e : reduce .min (x :: xs) = xs.foldl (fun h b => min b h) x := by
      change xs.foldl (fun a b => min a b) x = _
      congr 1; funext a b; exact min_comm a b
    rw [e]
    obtain ⟨h1, h2, h3⟩ := fold_min (fun y : K => y) xs x
    refine ⟨?_, ?_⟩
    · rcases h1 with h1 | ⟨y, hy, h1⟩
      · rw [h1]; exact List.mem_cons_self
      · rw [← h1]; exact List.mem_cons_of_mem _ hy
    · intro y hy
      rcases List.mem_cons.1 hy with rfl | hy
      · exact h2
      · exact h3 y hy

theorem user_sum (l g : K) (f : Block K → K) (bs : List (Block K)) :
    userOne l g .sum (some f) bs = (bs.map f).sum := by
  have key : ∀ s : K, bs.foldl (fun h b => f b + h) s = s + (bs.map f).sum := by
    induction bs with
    | nil => simp
    | cons b bs ih => intro s; rw [List.foldl_cons, ih, List.map_cons, List.sum_cons]; ring
  change bs.foldl (fun h b => f b + h) 0 = _
  rw [key, zero_add]

theorem user_value (l g : K) (op : Op) (f : Block K → K) (ranks : List (List (Block K)))
    (hb : ranks.flatten ≠ []) (hf : ∀ b ∈ ranks.flatten, l ≤ f b ∧ f b ≤ g) :
    Spec.UserValue op f ranks.flatten (reduce op (ranks.map (userOne l g op (some f)))) := by
  obtain ⟨b0, hb0⟩ := List.exists_mem_of_ne_nil _ hb
  have hne : ranks ≠ [] := by rintro rfl; exact hb rfl
  cases op with
  | sum =>
    change _ = _
    rw [reduce_sum]
    have e : userOne l g .sum (some f) = fun bs => (bs.map f).sum := by
      funext bs; exact user_sum l g f bs
    rw [e, List.map_flatten, List.sum_flatten, List.map_map]
    rfl
  | max =>
    obtain ⟨h1, h2⟩ := reduce_max (ranks.map (userOne l g .max (some f))) (by simpa using hne)
    have up : ∀ b ∈ ranks.flatten, f b ≤ reduce .max (ranks.map (userOne l g .max (some f))) := by
      intro b hb
      obtain ⟨r, hr, hbr⟩ := List.mem_flatten.1 hb
      exact le_trans ((fold_max f r l).2.2 b hbr) (h2 _ (List.mem_map_of_mem hr))
    refine ⟨?_, up⟩
    obtain ⟨r, hr, e⟩ := List.mem_map.1 h1
    rw [← e]
    rcases (fold_max f r l).1 with h | ⟨b, hb, h⟩
    · refine ⟨b0, hb0, le_antisymm ?_ ?_⟩
      · rw [e]; exact up b0 hb0
      · exact le_of_eq_of_le h (hf b0 hb0).1
    · exact ⟨b, List.mem_flatten.2 ⟨r, hr, hb⟩, h⟩
  | min =>
    obtain ⟨h1, h2⟩ := reduce_min (ranks.map (userOne l g .min (some f))) (by simpa using hne)
    have lo : ∀ b ∈ ranks.flatten, reduce .min (ranks.map (userOne l g .min (some f))) ≤ f b := by
      intro b hb
      obtain ⟨r, hr, hbr⟩ := List.mem_flatten.1 hb
      exact le_trans (h2 _ (List.mem_map_of_mem hr)) ((fold_min f r g).2.2 b hbr)
    refine ⟨?_, lo⟩
    obtain ⟨r, hr, e⟩ := List.mem_map.1 h1
    rw [← e]
    rcases (fold_min f r g).1 with h | ⟨b, hb, h⟩
    · refine ⟨b0, hb0, le_antisymm ?_ ?_⟩
      · exact le_of_le_of_eq (hf b0 hb0).2 h.symm
      · rw [e]; exact lo b0 hb0
    · exact ⟨b, List.mem_flatten.2 ⟨r, hr, hb⟩, h⟩

/-! ### Columns -/

omit [LinearOrder K] [IsStrictOrderedRing K] in
theorem swap_sum (L : List Q) (g : Q → K) (k n : ℕ) :
    (((L.zipIdx k).map Prod.swap).map fun a => if a.1 = k + n then g a.2 else 0).sum =
      if h : n < L.length then g L[n] else 0 := by
  induction L generalizing k n with
  | nil => simp
  | cons q L ih =>
    rw [List.zipIdx_cons, List.map_cons, List.map_cons, List.sum_cons]
    cases n with
    | zero =>
      have z : (((L.zipIdx (k + 1)).map Prod.swap).map
          fun a => if a.1 = k + 0 then g a.2 else 0).sum = 0 := by
        apply List.sum_eq_zero
        intro x hx
        obtain ⟨a, ha, rfl⟩ := List.mem_map.1 hx
        obtain ⟨a', ha', rfl⟩ := List.mem_map.1 ha
        have := List.le_snd_of_mem_zipIdx ha'
        rw [if_neg]
        simp only [Prod.fst_swap]; omega
      rw [z]
      simp
    | succ n =>
      have e : k + (n + 1) = k + 1 + n := by omega
      rw [e, ih]
      simp
      intro h
      omega

theorem column_good (c : Cfg) (hc : Spec.Good c) (ranks : List (List (Block K))) (n : ℕ)
    (hn : n < (labels c).length) :
    reduce .sum (ranks.map fun bs => sums c bs n) = Spec.total ranks.flatten (labels c)[n] := by
  rw [column_eq, (adds_good c hc).1]
  have := swap_sum (K := K) (labels c) (Spec.total ranks.flatten) 0 n
  simp only [Nat.zero_add] at this
  rw [this, dif_pos hn]

end Verif.Hst
