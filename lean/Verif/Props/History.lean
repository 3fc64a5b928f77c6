import Verif.Lemmas.History

/-!
# C91: columns of the history file

`Spec.Holds c time dt fs bs v q`: `v` is what a column labelled `q` has to hold, for the blocks `bs`
of the whole mesh.
-/

namespace Verif.Hst

variable {K : Type} [Field K] [LinearOrder K] [IsStrictOrderedRing K]

/-- There are as many numbers as labels, and each number is what its label says: the time, the time
step, the total over the active cells of all blocks on all processes, the sum, largest or smallest
value of the user's function. -/
theorem history_columns_partial (c : Cfg) (hc : Spec.Good c) (lowest largest time dt : K)
    (fs : ℕ → Option (Block K → K)) (ranks : List (List (Block K))) (hb : ranks.flatten ≠ [])
    (hf : ∀ n f, fs n = some f → ∀ b ∈ ranks.flatten, lowest ≤ f b ∧ f b ≤ largest) :
    ∃ r, row c lowest largest time dt fs ranks = some r ∧ r.length = (header c).length ∧
      ∀ (i : ℕ) v q, r[i]? = some v → (header c)[i]? = some q →
        Spec.Holds c time dt fs ranks.flatten v q := by
  have ht : tooMany c = false := by
    unfold tooMany
    rcases hc.2 with h | h <;> rw [h] <;> rfl
  have hl := (adds_good c hc).2
  unfold row
  rw [if_neg (by rw [ht]; exact Bool.false_ne_true), header_eq]
  refine ⟨_, rfl, ?_, ?_⟩
  · simp [hl]
  · intro i v q hv hq
    rcases i with _ | _ | i
    · simp at hv hq
      subst hv hq
      rfl
    · simp at hv hq
      subst hv hq
      rfl
    · simp only [List.cons_append, List.nil_append, List.getElem?_cons_succ] at hv hq
      by_cases hi : i < (labels c).length
      · rw [List.getElem?_append_left (by simpa [hl] using hi)] at hv
        rw [List.getElem?_append_left hi, List.getElem?_eq_getElem hi] at hq
        rw [List.getElem?_map, List.getElem?_range (by omega)] at hv
        simp only [Option.map_some, Option.some.injEq] at hv hq
        rw [column_good c hc ranks i hi] at hv
        have hm := List.getElem_mem hi
        rw [hq] at hv hm
        cases q with
        | time => exact absurd hm (labels_builtin c _ (by simp))
        | dt => exact absurd hm (labels_builtin c _ (by simp))
        | user n => exact absurd hm (labels_builtin c _ (by simp))
        | _ => exact hv.symm
      · rw [List.getElem?_append_right (by simpa [hl] using hi)] at hv
        rw [List.getElem?_append_right (by omega)] at hq
        simp only [List.length_map, List.length_range, ← hl] at hv
        generalize i - (labels c).length = m at hv hq
        rw [List.getElem?_map] at hq hv
        rw [List.getElem?_zipIdx] at hv
        obtain ⟨m', hm', rfl⟩ := Option.map_eq_some_iff.1 hq
        have hlt : m < c.user.length := by
          by_contra h
          rw [List.getElem?_eq_none (by simpa using h)] at hm'
          cases hm'
        rw [List.getElem?_range hlt] at hm'
        obtain rfl : m = m' := Option.some.inj hm'
        rw [List.getElem?_eq_getElem hlt] at hv
        simp only [Option.map_some, Option.some.injEq, Nat.zero_add] at hv
        intro op f ho hfn
        rw [List.getElem?_eq_getElem hlt] at ho
        rw [Option.some.inj ho, hfn] at hv
        rw [← hv]
        exact user_value lowest largest op f ranks hb (hf m f hfn)

/-- How the blocks are distributed over the processes and numbered has no influence on the totals. -/
theorem history_distribution (c : Cfg) (time dt lowest largest : K)
    (r1 r2 : List (List (Block K))) (h : r1.flatten.Perm r2.flatten) (hu : c.user = []) :
    row c lowest largest time dt (fun _ => none) r1 =
      row c lowest largest time dt (fun _ => none) r2 := by
  unfold row
  have e : ∀ q, Spec.total r1.flatten q = Spec.total r2.flatten q :=
    fun q => (h.map _).sum_eq
  simp only [column_eq, e, hu, List.zipIdx_nil, List.map_nil]

/-! ### Findings -/

omit [IsStrictOrderedRing K] in
/-- With four or more frequency groups there is never a history output: the fatal error. -/
theorem groups_fatal (c : Cfg) (f : ℕ) (hf : 4 ≤ f) (hr : c.rad = some f)
    (lowest largest time dt : K) (fs : ℕ → Option (Block K → K)) (ranks : List (List (Block K))) :
    row c lowest largest time dt fs ranks = none := by
  unfold row
  rw [if_pos]
  unfold tooMany
  rw [hr]
  simp only [Cfg.nrad, hr, Option.isSome_some, if_true, Bool.and_eq_true, bne_iff_ne, ne_eq,
    decide_eq_true_eq]
  omega

/-- Two frequency groups and cosmic rays: eight labels for fourteen columns, so that the column
labelled as energy of the cosmic rays always holds zero. -/
theorem groups_mislabelled (lowest largest time dt : K) (ranks : List (List (Block K))) :
    let c : Cfg := ⟨true, false, false, 0, none, some 2, true, []⟩
    (header c)[18]? = some (.cr 0) ∧ (header c).length = 22 ∧
    ∃ r, row c lowest largest time dt (fun _ => none) ranks = some r ∧ r.length = 28 ∧
      r[18]? = some 0 ∧ r[24]? = some (Spec.total ranks.flatten (.cr 0)) := by
  refine ⟨by decide, by decide, _, rfl, rfl, ?_, ?_⟩
  · change some (reduce .sum (ranks.map fun bs => sums _ bs 16)) = _
    rw [column_eq]
    simp [adds, Cfg.nhydro, Cfg.ngrav, Cfg.nfield, Cfg.nrad, List.finRange_succ, List.range_succ]
  · change some (reduce .sum (ranks.map fun bs => sums _ bs 22)) = _
    rw [column_eq]
    simp [adds, Cfg.nhydro, Cfg.ngrav, Cfg.nfield, Cfg.nrad, List.finRange_succ, List.range_succ]

/-- Radiation of the chemistry in two bands together with cosmic rays: the columns of both overlap. -/
theorem bands_overlap (lowest largest time dt : K) (ranks : List (List (Block K))) :
    let c : Cfg := ⟨true, false, false, 0, some 2, none, true, []⟩
    (header c)[10]? = some (.chemRad 0) ∧ (header c)[12]? = some (.cr 0) ∧
    ∃ r, row c lowest largest time dt (fun _ => none) ranks = some r ∧
      r[10]? = some (Spec.total ranks.flatten (.chemRad 0) + Spec.total ranks.flatten (.cr 0)) ∧
      r[12]? = some (Spec.total ranks.flatten (.cr 2)) := by
  refine ⟨by decide, by decide, _, rfl, ?_, ?_⟩
  · change some (reduce .sum (ranks.map fun bs => sums _ bs 8)) = _
    rw [column_eq]
    simp [adds, Cfg.nhydro, Cfg.ngrav, Cfg.nfield, Cfg.nrad, List.finRange_succ, List.range_succ]
  · change some (reduce .sum (ranks.map fun bs => sums _ bs 10)) = _
    rw [column_eq]
    simp [adds, Cfg.nhydro, Cfg.ngrav, Cfg.nfield, Cfg.nrad, List.finRange_succ, List.range_succ]

/-! ### Concrete cases -/

/-- A block of four cells with density `x`. -/
def uniform (x : ℚ) : Block ℚ :=
  ⟨⟨2, 4, 1, 1⟩, fun _ _ _ => 2, fun _ _ _ =>
    ⟨x, fun _ => 3, 5, 0, fun _ => 1, fun _ => 0, fun _ => 0, fun _ => 0, fun _ _ => 0, fun _ => 0⟩⟩

/-- The hypotheses of `history_columns_partial`. -/
example : Spec.Good ⟨true, true, true, 2, none, some 1, true, [.sum, .max]⟩ ∧
    Spec.Good ⟨true, false, true, 2, some 3, none, false, [.min]⟩ ∧
    [[uniform 1], [uniform 4]].flatten ≠ [] ∧
    (∀ b ∈ [[uniform 1], [uniform 4]].flatten,
      (-10 : ℚ) ≤ (b.cell 0 0 0).d ∧ (b.cell 0 0 0).d ≤ 10) := by
  refine ⟨⟨Or.inl rfl, Or.inr rfl⟩, ⟨Or.inr ⟨rfl, rfl⟩, Or.inl rfl⟩, by simp, ?_⟩
  intro b hb
  simp only [List.flatten_cons, List.flatten_nil, List.append_nil, List.singleton_append,
    List.mem_cons, List.not_mem_nil, or_false] at hb
  rcases hb with rfl | rfl <;> norm_num [uniform]

/-- The hypothesis of `history_distribution`. -/
example : [[uniform 1], [uniform 4, uniform 2]].flatten.Perm
    [[uniform 4, uniform 1], [uniform 2]].flatten := by
  exact List.Perm.swap _ _ _

end Verif.Hst
