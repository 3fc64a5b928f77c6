import Verif.Model.RadReflect
import Mathlib.Tactic

/-!
C103: reflecting boundary of radiation.
-/

namespace Verif.RadReflect

/-- Copies whose sources are never destinations: what is not a destination is kept. -/
theorem run_other (l : List (ℕ × ℕ)) (mem : ℕ → ℝ) (x : ℕ) (hx : ∀ p ∈ l, p.1 ≠ x) :
    run l mem x = mem x := by
  unfold run
  induction l generalizing mem with
  | nil => rfl
  | cons p l ih =>
    rw [List.foldl_cons, ih _ fun q hq => hx q (List.mem_cons_of_mem _ hq)]
    exact Function.update_of_ne (hx p List.mem_cons_self).symm _ _

theorem run_dst (l : List (ℕ × ℕ)) (mem : ℕ → ℝ) (hs : ∀ p ∈ l, ∀ q ∈ l, p.1 ≠ q.2)
    (hf : ∀ p ∈ l, ∀ q ∈ l, p.1 = q.1 → p.2 = q.2) : ∀ p ∈ l, run l mem p.1 = mem p.2 := by
  induction l generalizing mem with
  | nil => intro p hp; simp at hp
  | cons a l ih =>
    intro p hp
    have hrec := ih (Function.update mem a.1 (mem a.2))
      (fun p hp q hq => hs p (List.mem_cons_of_mem _ hp) q (List.mem_cons_of_mem _ hq))
      (fun p hp q hq => hf p (List.mem_cons_of_mem _ hp) q (List.mem_cons_of_mem _ hq))
    have hrun : run (a :: l) mem = run l (Function.update mem a.1 (mem a.2)) := rfl
    rw [hrun]
    by_cases hl : ∃ q ∈ l, q.1 = p.1
    · obtain ⟨q, hq, e⟩ := hl
      rw [← e, hrec q hq, hf p hp q (List.mem_cons_of_mem _ hq) e.symm]
      exact Function.update_of_ne (hs a List.mem_cons_self q (List.mem_cons_of_mem _ hq)).symm _ _
    · have hpa : p = a := by
        rcases List.mem_cons.mp hp with h | h
        · exact h
        · exact absurd ⟨p, h, rfl⟩ hl
      rw [run_other l _ p.1 fun q hq e => hl ⟨q, hq, e⟩, hpa]
      exact Function.update_self _ _ _

theorem mem_octants {noct : ℕ} (h : noct = 2 ∨ noct = 8) {o : ℕ × ℕ} (ho : o ∈ octantsX1 noct) :
    o.1 < noct ∧ o.2 < noct ∧ o.2 = o.1 + 1 ∧ o.1 % 2 = 0 := by
  rcases h with rfl | rfl
  · simp [octantsX1] at ho
    subst ho
    simp
  · simp [octantsX1] at ho
    rcases ho with rfl | rfl | rfl | rfl <;> simp

theorem octants_all {noct : ℕ} (h : noct = 2 ∨ noct = 8) {o : ℕ} (ho : o < noct) :
    (o, o + 1) ∈ octantsX1 noct ∧ o % 2 = 0 ∨ (o - 1, o) ∈ octantsX1 noct ∧ o % 2 = 1 := by
  rcases h with rfl | rfl <;> interval_cases o <;> simp [octantsX1]

/-- The octant on the other side of the plane. -/
def Spec.mirror (o : ℕ) : ℕ := if o % 2 = 0 then o + 1 else o - 1

/-- What a copy of the reflecting boundary is, with one or three dimensions. -/
theorem mem_reflect {src dst : ℕ → ℕ} {ngh nfreq noct nAng : ℕ} (h : noct = 2 ∨ noct = 8) (p : ℕ × ℕ) :
    p ∈ reflectX1 src dst ngh nfreq noct nAng ↔
      ∃ i, i < ngh ∧ ∃ f, f < nfreq ∧ ∃ o, o < noct ∧ ∃ n, n < nAng ∧
        p = (base nfreq noct nAng (dst (i + 1)) f + (o * nAng + n),
          base nfreq noct nAng (src (i + 1)) f + (Spec.mirror o * nAng + n)) := by
  unfold reflectX1 copyIntensity
  simp only [List.mem_flatMap, List.mem_range, List.mem_cons, List.not_mem_nil, or_false]
  constructor
  · rintro ⟨i, hi, f, hf, o, ho, n, hn, e⟩
    obtain ⟨h1, h2, h3, h4⟩ := mem_octants h ho
    rcases e with e | e
    · refine ⟨i, hi, f, hf, o.1, h1, n, hn, ?_⟩
      rw [e, Spec.mirror, if_pos h4, h3]
    · refine ⟨i, hi, f, hf, o.2, h2, n, hn, ?_⟩
      have : ¬ o.2 % 2 = 0 := by omega
      have h5 : o.2 - 1 = o.1 := by omega
      rw [e, Spec.mirror, if_neg this, h5]
  · rintro ⟨i, hi, f, hf, o, ho, n, hn, e⟩
    rcases octants_all h ho with ⟨hm, hp⟩ | ⟨hm, hp⟩
    · refine ⟨i, hi, f, hf, _, hm, n, hn, Or.inl ?_⟩
      rw [e, Spec.mirror, if_pos hp]
    · refine ⟨i, hi, f, hf, _, hm, n, hn, Or.inr ?_⟩
      rw [e, Spec.mirror, if_neg (by omega)]

theorem digits {b a a' x x' : ℕ} (hx : x < b) (hx' : x' < b) (h : a * b + x = a' * b + x') :
    a = a' ∧ x = x' := by
  have h1 : (a * b + x) / b = a := by
    rw [Nat.mul_comm, Nat.mul_add_div (by omega), Nat.div_eq_of_lt hx, Nat.add_zero]
  have h2 : (a' * b + x') / b = a' := by
    rw [Nat.mul_comm, Nat.mul_add_div (by omega), Nat.div_eq_of_lt hx', Nat.add_zero]
  have : a = a' := by rw [← h1, h, h2]
  subst this
  exact ⟨rfl, by omega⟩

theorem digit_lt {b N a x : ℕ} (ha : a < N) (hx : x < b) : a * b + x < N * b := by
  have : (a + 1) * b ≤ N * b := Nat.mul_le_mul_right _ ha
  rw [Nat.add_mul, Nat.one_mul] at this
  omega

/-- Both faces: ghost cells and cells inside are apart, and no ghost cell is filled twice. -/
theorem reflect_gen {src dst : ℕ → ℕ} {ngh nfreq noct nAng : ℕ} (h : noct = 2 ∨ noct = 8)
    (hsd : ∀ i j, i < ngh → j < ngh → dst (i + 1) ≠ src (j + 1))
    (hdd : ∀ i j, i < ngh → j < ngh → dst (i + 1) = dst (j + 1) → i = j) (mem : ℕ → ℝ) :
    (∀ i f o n, i < ngh → f < nfreq → o < noct → n < nAng →
      run (reflectX1 src dst ngh nfreq noct nAng) mem
        ((dst (i + 1) * nfreq + f) * (noct * nAng) + (o * nAng + n)) =
      mem ((src (i + 1) * nfreq + f) * (noct * nAng) + (Spec.mirror o * nAng + n))) ∧
    ∀ c f o n, (∀ i, i < ngh → dst (i + 1) ≠ c) → f < nfreq → o < noct → n < nAng →
      run (reflectX1 src dst ngh nfreq noct nAng) mem
        ((c * nfreq + f) * (noct * nAng) + (o * nAng + n)) =
      mem ((c * nfreq + f) * (noct * nAng) + (o * nAng + n)) := by
  have hmir : ∀ o, o < noct → Spec.mirror o < noct := by
    intro o ho
    unfold Spec.mirror
    rcases h with rfl | rfl <;> split_ifs <;> omega
  refine ⟨fun i f o n hi hf ho hn => ?_, fun c f o n hc hf ho hn => run_other _ _ _ fun p hp e => ?_⟩
  · have hm := (mem_reflect (src := src) (dst := dst) (ngh := ngh) (nfreq := nfreq) (nAng := nAng) h
      _).mpr ⟨i, hi, f, hf, o, ho, n, hn, rfl⟩
    refine run_dst _ mem ?_ ?_ _ hm
    · intro p hp q hq e
      obtain ⟨i, hi, f, hf, o, ho, n, hn, rfl⟩ := (mem_reflect h p).mp hp
      obtain ⟨i', hi', f', hf', o', ho', n', hn', rfl⟩ := (mem_reflect h q).mp hq
      obtain ⟨e1, -⟩ := digits (digit_lt ho hn) (digit_lt (hmir o' ho') hn') e
      exact hsd i i' hi hi' (digits hf hf' e1).1
    · intro p hp q hq e
      obtain ⟨i, hi, f, hf, o, ho, n, hn, rfl⟩ := (mem_reflect h p).mp hp
      obtain ⟨i', hi', f', hf', o', ho', n', hn', rfl⟩ := (mem_reflect h q).mp hq
      obtain ⟨e1, e2⟩ := digits (digit_lt ho hn) (digit_lt ho' hn') e
      obtain ⟨e3, rfl⟩ := digits hf hf' e1
      obtain ⟨rfl, rfl⟩ := digits hn hn' e2
      have := hdd i i' hi hi' e3
      subst this
      rfl
  · obtain ⟨i, hi, f', hf', o', ho', n', hn', rfl⟩ := (mem_reflect h p).mp hp
    obtain ⟨e1, -⟩ := digits (digit_lt ho' hn') (digit_lt ho hn) e
    exact hc i hi (digits hf' hf e1).1

/-- **C103.** With one or three dimensions the inner reflecting boundary puts into ghost cell
`il - 1 - i`, for every group, octant and angle, the intensity of cell `il + i` in the octant mirrored
at the face; no other cell is touched. -/
theorem reflect_inner_partial {il ngh nfreq noct nAng : ℕ} (h : noct = 2 ∨ noct = 8) (hg : ngh ≤ il)
    (mem : ℕ → ℝ) :
    (∀ i f o n, i < ngh → f < nfreq → o < noct → n < nAng →
      run (reflectInnerX1 il ngh nfreq noct nAng) mem
        (((il - 1 - i) * nfreq + f) * (noct * nAng) + (o * nAng + n)) =
      mem (((il + i) * nfreq + f) * (noct * nAng) + (Spec.mirror o * nAng + n))) ∧
    ∀ c f o n, c + ngh < il ∨ il ≤ c → f < nfreq → o < noct → n < nAng →
      run (reflectInnerX1 il ngh nfreq noct nAng) mem
        ((c * nfreq + f) * (noct * nAng) + (o * nAng + n)) =
      mem ((c * nfreq + f) * (noct * nAng) + (o * nAng + n)) := by
  obtain ⟨h1, h2⟩ := reflect_gen (src := fun i => il + i - 1) (dst := fun i => il - i) (ngh := ngh)
    (nfreq := nfreq) (nAng := nAng) h (fun i j hi hj => by omega)
    (fun i j hi hj => by omega) mem
  refine ⟨fun i f o n hi hf ho hn => ?_, fun c f o n hc => h2 c f o n fun i hi => by omega⟩
  have := h1 i f o n hi hf ho hn
  rw [show il - (i + 1) = il - 1 - i by omega, show il + (i + 1) - 1 = il + i by omega] at this
  exact this

/-- **C103.** The same at the outer face, with cells `iu + 1 + i` and `iu - i`. -/
theorem reflect_outer_partial {iu ngh nfreq noct nAng : ℕ} (h : noct = 2 ∨ noct = 8) (hg : ngh ≤ iu)
    (mem : ℕ → ℝ) :
    (∀ i f o n, i < ngh → f < nfreq → o < noct → n < nAng →
      run (reflectOuterX1 iu ngh nfreq noct nAng) mem
        (((iu + 1 + i) * nfreq + f) * (noct * nAng) + (o * nAng + n)) =
      mem (((iu - i) * nfreq + f) * (noct * nAng) + (Spec.mirror o * nAng + n))) ∧
    ∀ c f o n, c ≤ iu ∨ iu + ngh < c → f < nfreq → o < noct → n < nAng →
      run (reflectOuterX1 iu ngh nfreq noct nAng) mem
        ((c * nfreq + f) * (noct * nAng) + (o * nAng + n)) =
      mem ((c * nfreq + f) * (noct * nAng) + (o * nAng + n)) := by
  obtain ⟨h1, h2⟩ := reflect_gen (src := fun i => iu - i + 1) (dst := fun i => iu + i) (ngh := ngh)
    (nfreq := nfreq) (nAng := nAng) h (fun i j hi hj => by omega)
    (fun i j hi hj => by omega) mem
  refine ⟨fun i f o n hi hf ho hn => ?_, fun c f o n hc => h2 c f o n fun i hi => by omega⟩
  have := h1 i f o n hi hf ho hn
  rw [show iu + (i + 1) = iu + 1 + i by omega, show iu - (i + 1) + 1 = iu - i by omega] at this
  exact this

/-- Two ghost cells in three dimensions meet the hypotheses. -/
example : (8 = 2 ∨ 8 = 8) ∧ 2 ≤ 2 := by decide

/-- **C103.** In two and three dimensions the mirrored octant has the opposite first cosine. -/
theorem mirror_cosine {nAng : ℕ} (mutmp : ℕ → ℝ) (o : ℕ) {n : ℕ} (hn : n < nAng) :
    cosX nAng mutmp (Spec.mirror o * nAng + n) = -cosX nAng mutmp (o * nAng + n) := by
  have hd : ∀ k, (k * nAng + n) / nAng = k ∧ (k * nAng + n) % nAng = n := by
    intro k
    constructor
    · rw [Nat.mul_comm, Nat.mul_add_div (by omega), Nat.div_eq_of_lt hn, Nat.add_zero]
    · rw [Nat.mul_comm, Nat.mul_add_mod, Nat.mod_eq_of_lt hn]
  unfold cosX
  rw [(hd o).1, (hd o).2, (hd _).1, (hd _).2]
  unfold Spec.mirror
  by_cases h : o % 2 = 0
  · have : ¬ (o + 1) % 2 = 0 := by omega
    rw [if_pos h, if_neg this, if_pos h]
  · have : (o - 1) % 2 = 0 := by omega
    rw [if_neg h, if_pos this, if_neg h, neg_neg]

/-- **C103, finding F111.** In two dimensions (four octants) the test `noct > 3` lets octants four to
seven be copied as well, which are the angles of the next cell: the first cell inside the boundary is
overwritten with the mirrored contents of the second, and the first ghost cell gets those of the
third, whatever the intensities are. -/
theorem two_dimensions (mem : ℕ → ℝ) (o : ℕ) (ho : o < 4) :
    run (reflectInnerX1 2 2 1 4 1) mem (2 * 4 + o) = mem (3 * 4 + Spec.mirror o) ∧
    run (reflectInnerX1 2 2 1 4 1) mem (1 * 4 + o) = mem (4 * 4 + Spec.mirror o) := by
  interval_cases o <;>
    simp [run, reflectInnerX1, reflectX1, copyIntensity, octantsX1, base, List.range_succ, Function.update,
      Spec.mirror]

/-- The value of an entry all of whose writes come from one entry that is never written. -/
theorem run_at (l : List (ℕ × ℕ)) (mem : ℕ → ℝ) {x y : ℕ} (hex : ∃ p ∈ l, p.1 = x)
    (hall : ∀ p ∈ l, p.1 = x → p.2 = y) (hy : ∀ p ∈ l, p.1 ≠ y) : run l mem x = mem y := by
  induction l generalizing mem with
  | nil => obtain ⟨p, hp, -⟩ := hex; simp at hp
  | cons a l ih =>
    have hrun : run (a :: l) mem = run l (Function.update mem a.1 (mem a.2)) := rfl
    have hya : y ≠ a.1 := (hy a List.mem_cons_self).symm
    rw [hrun]
    by_cases hl : ∃ q ∈ l, q.1 = x
    · rw [ih _ hl (fun p hp => hall p (List.mem_cons_of_mem _ hp))
        fun p hp => hy p (List.mem_cons_of_mem _ hp)]
      exact Function.update_of_ne hya _ _
    · have hax : a.1 = x := by
        obtain ⟨p, hp, e⟩ := hex
        rcases List.mem_cons.mp hp with h | h
        · rw [← h, e]
        · exact absurd ⟨p, h, e⟩ hl
      rw [run_other l _ x fun q hq e => hl ⟨q, hq, e⟩, ← hax, ← hall a List.mem_cons_self hax]
      exact Function.update_self _ _ _

/-- Copies with four octants: the list of octants is that of eight. -/
theorem mem_reflect4 {src dst : ℕ → ℕ} {ngh nfreq nAng : ℕ} (p : ℕ × ℕ) :
    p ∈ reflectX1 src dst ngh nfreq 4 nAng ↔
      ∃ i, i < ngh ∧ ∃ f, f < nfreq ∧ ∃ o, o < 8 ∧ ∃ n, n < nAng ∧
        p = (base nfreq 4 nAng (dst (i + 1)) f + (o * nAng + n),
          base nfreq 4 nAng (src (i + 1)) f + (Spec.mirror o * nAng + n)) := by
  have ho4 : octantsX1 4 = octantsX1 8 := rfl
  unfold reflectX1 copyIntensity
  simp only [List.mem_flatMap, List.mem_range, List.mem_cons, List.not_mem_nil, or_false, ho4]
  constructor
  · rintro ⟨i, hi, f, hf, o, ho, n, hn, e⟩
    obtain ⟨h1, h2, h3, h4⟩ := mem_octants (Or.inr rfl) ho
    rcases e with e | e
    · refine ⟨i, hi, f, hf, o.1, h1, n, hn, ?_⟩
      rw [e, Spec.mirror, if_pos h4, h3]
    · refine ⟨i, hi, f, hf, o.2, h2, n, hn, ?_⟩
      have : ¬ o.2 % 2 = 0 := by omega
      have h5 : o.2 - 1 = o.1 := by omega
      rw [e, Spec.mirror, if_neg this, h5]
  · rintro ⟨i, hi, f, hf, o, ho, n, hn, e⟩
    rcases octants_all (Or.inr rfl) ho with ⟨hm, hp⟩ | ⟨hm, hp⟩
    · refine ⟨i, hi, f, hf, _, hm, n, hn, Or.inl ?_⟩
      rw [e, Spec.mirror, if_pos hp]
    · refine ⟨i, hi, f, hf, _, hm, n, hn, Or.inr ?_⟩
      rw [e, Spec.mirror, if_neg (by omega)]

theorem mirror_add4 {o : ℕ} : Spec.mirror (4 + o) = 4 + Spec.mirror o := by
  unfold Spec.mirror
  by_cases h : o % 2 = 0
  · rw [if_pos h, if_pos (by omega)]; omega
  · rw [if_neg h, if_neg (by omega)]; omega

/-- **C103, finding F111, in general.** With four octants, any numbers of ghost cells, groups and angles,
the first group of the first cell inside the domain is overwritten with the mirrored intensities of the
second cell. -/
theorem two_dimensions_general {il ngh nfreq nAng : ℕ} (hg : ngh ≤ il) (h1 : 1 ≤ ngh) (hf : 1 ≤ nfreq)
    (mem : ℕ → ℝ) {o n : ℕ} (ho : o < 4) (hn : n < nAng) :
    run (reflectInnerX1 il ngh nfreq 4 nAng) mem (il * nfreq * (4 * nAng) + (o * nAng + n)) =
      mem ((il + 1) * nfreq * (4 * nAng) + (Spec.mirror o * nAng + n)) := by
  have hcell : ∀ i f, i < ngh → f < nfreq → (il - (i + 1)) * nfreq + f + (i * nfreq + (nfreq - f)) =
      il * nfreq := by
    intro i f hi hf
    obtain ⟨d, rfl⟩ : ∃ d, il = d + (i + 1) := ⟨il - (i + 1), by omega⟩
    rw [Nat.add_sub_cancel, Nat.add_mul, Nat.add_mul, Nat.one_mul]
    omega
  apply run_at
  · refine ⟨_, (mem_reflect4 _).mpr ⟨0, by omega, nfreq - 1, by omega, 4 + o, by omega, n, hn, rfl⟩, ?_⟩
    have := hcell 0 (nfreq - 1) (by omega) (by omega)
    have e : il * nfreq = (il - (0 + 1)) * nfreq + (nfreq - 1) + 1 := by omega
    dsimp only [base]
    rw [e]
    ring
  · intro p hp e
    obtain ⟨i, hi, f, hf', o', ho', n', hn', rfl⟩ := (mem_reflect4 p).mp hp
    dsimp only [base] at e ⊢
    have hc := hcell i f hi hf'
    generalize hA : (il - (i + 1)) * nfreq + f = A at e hc
    have e' : (A * 4 + o') * nAng + n' = (il * nfreq * 4 + o) * nAng + n := by
      linarith
    obtain ⟨e1, rfl⟩ := digits hn' hn e'
    have hi0 : i = 0 := by
      by_contra hne
      have : 1 * nfreq ≤ i * nfreq := Nat.mul_le_mul_right _ (by omega)
      omega
    subst hi0
    have hfe : nfreq = f + 1 := by omega
    have hoe : o' = 4 + o := by omega
    subst hoe
    rw [mirror_add4]
    have e3 : il + (0 + 1) - 1 = il := by omega
    rw [e3, hfe]
    ring
  · intro p hp e
    obtain ⟨i, hi, f, hf', o', ho', n', hn', rfl⟩ := (mem_reflect4 p).mp hp
    dsimp only [base] at e
    have hc := hcell i f hi hf'
    generalize hA : (il - (i + 1)) * nfreq + f = A at e hc
    have e' : (A * 4 + o') * nAng + n' = ((il + 1) * nfreq * 4 + Spec.mirror o) * nAng + n := by
      linarith
    obtain ⟨e1, -⟩ := digits hn' hn e'
    rw [Nat.add_mul, Nat.one_mul] at e1
    omega

/-- Two ghost cells and three groups. -/
example : (2 : ℕ) ≤ 2 ∧ 1 ≤ 2 ∧ 1 ≤ 3 ∧ 3 < 4 := by decide

/-- **C103, finding F113.** At the outer face the same test writes past the last ghost cell: into the
next row of cells, or for the last row past the end of the array. -/
theorem two_dimensions_outer (mem : ℕ → ℝ) (o : ℕ) (ho : o < 4) :
    run (reflectOuterX1 3 2 1 4 1) mem ((3 + 2 + 1) * 4 + o) = mem (3 * 4 + Spec.mirror o) := by
  interval_cases o <;>
    simp [run, reflectOuterX1, reflectX1, copyIntensity, octantsX1, base, List.range_succ,
      Function.update, Spec.mirror]

/-- **C103, finding F112.** In one dimension the angles of the Gauss-Legendre rule are sorted, so the
mirror of angle `n` is `2*nmu - 1 - n`; the boundary takes `n + nmu`, which is the mirror only for the
middle angle. -/
theorem one_dimension {nmu : ℕ} (mu : ℕ → ℝ) (hmono : StrictMonoOn mu (Set.Iio (2 * nmu)))
    (hanti : ∀ n, n < 2 * nmu → mu (2 * nmu - 1 - n) = -mu n) {n : ℕ} (hn : n < nmu) :
    mu (Spec.mirror 0 * nmu + n) = -mu n ↔ 2 * n + 1 = nmu := by
  have e : Spec.mirror 0 * nmu + n = nmu + n := by simp [Spec.mirror]
  rw [e, ← hanti n (by omega)]
  rw [hmono.injOn.eq_iff (by simp; omega) (by simp; omega)]
  omega

/-- Four sorted cosines meet the hypotheses. -/
example : let mu : ℕ → ℝ := fun n => (n : ℝ) - 3 / 2
    StrictMonoOn mu (Set.Iio (2 * 2)) ∧ ∀ n, n < 2 * 2 → mu (2 * 2 - 1 - n) = -mu n := by
  refine ⟨fun a _ b _ hab => ?_, fun n hn => ?_⟩
  · have : (a : ℝ) < b := by exact_mod_cast hab
    simpa using this
  · interval_cases n <;> norm_num

/-! ### The other faces -/

/-- The octant on the other side of a plane across axis `a`. -/
def Spec.flip (a o : ℕ) : ℕ := if o / 2 ^ a % 2 = 0 then o + 2 ^ a else o - 2 ^ a

/-- At the x1 faces the mirror is the flip across the first axis. -/
theorem mirror_flip (o : ℕ) : Spec.mirror o = Spec.flip 0 o := by
  simp [Spec.mirror, Spec.flip]

/-- Octants exchanged at the faces of x2 (three dimensions) and x3. -/
def Spec.Pairs (a : ℕ) (octs : List (ℕ × ℕ)) : Prop :=
  (∀ p ∈ octs, p.1 < 8 ∧ p.2 < 8 ∧ Spec.flip a p.1 = p.2 ∧ Spec.flip a p.2 = p.1) ∧
  ∀ o, o < 8 → ∃ p ∈ octs, p.1 = o ∨ p.2 = o

theorem pairs_x2 : Spec.Pairs 1 (octantsX2 8) := by
  unfold Spec.Pairs
  decide

theorem pairs_x3 : Spec.Pairs 2 octantsX3 := by
  unfold Spec.Pairs
  decide

theorem mem_rows {a : ℕ} {octs : List (ℕ × ℕ)} (h : Spec.Pairs a octs) {src dst : ℕ → ℕ} {N : ℕ}
    {rs : List ℕ} {ngh nfreq nAng : ℕ} (p : ℕ × ℕ) :
    p ∈ reflectRows octs src dst N rs ngh nfreq 8 nAng ↔
      ∃ i, i < ngh ∧ ∃ r, r ∈ rs ∧ ∃ f, f < nfreq ∧ ∃ o, o < 8 ∧ ∃ n, n < nAng ∧
        p = (base nfreq 8 nAng (dst (i + 1) * N + r) f + (o * nAng + n),
          base nfreq 8 nAng (src (i + 1) * N + r) f + (Spec.flip a o * nAng + n)) := by
  unfold reflectRows copyIntensity
  simp only [List.mem_flatMap, List.mem_range, List.mem_cons, List.not_mem_nil, or_false]
  constructor
  · rintro ⟨i, hi, r, hr, f, hf, o, ho, n, hn, e⟩
    obtain ⟨h1, h2, h3, h4⟩ := h.1 o ho
    rcases e with e | e
    · exact ⟨i, hi, r, hr, f, hf, o.1, h1, n, hn, by rw [e, h3]⟩
    · exact ⟨i, hi, r, hr, f, hf, o.2, h2, n, hn, by rw [e, h4]⟩
  · rintro ⟨i, hi, r, hr, f, hf, o, ho, n, hn, e⟩
    obtain ⟨q, hq, e' | e'⟩ := h.2 o ho
    · exact ⟨i, hi, r, hr, f, hf, q, hq, n, hn, Or.inl (by rw [e, ← e', (h.1 q hq).2.2.1])⟩
    · exact ⟨i, hi, r, hr, f, hf, q, hq, n, hn, Or.inr (by rw [e, ← e', (h.1 q hq).2.2.2])⟩

theorem flip_lt {a : ℕ} {octs : List (ℕ × ℕ)} (h : Spec.Pairs a octs) {o : ℕ} (ho : o < 8) :
    Spec.flip a o < 8 := by
  obtain ⟨q, hq, e | e⟩ := h.2 o ho
  · rw [← e, (h.1 q hq).2.2.1]
    exact (h.1 q hq).2.1
  · rw [← e, (h.1 q hq).2.2.2]
    exact (h.1 q hq).1

theorem rows_gen {a : ℕ} {octs : List (ℕ × ℕ)} (h : Spec.Pairs a octs) {src dst : ℕ → ℕ} {N : ℕ}
    {rs : List ℕ} (hrs : ∀ r ∈ rs, r < N) {ngh nfreq nAng : ℕ}
    (hsd : ∀ i j, i < ngh → j < ngh → dst (i + 1) ≠ src (j + 1))
    (hdd : ∀ i j, i < ngh → j < ngh → dst (i + 1) = dst (j + 1) → i = j) (mem : ℕ → ℝ) :
    (∀ i r f o n, i < ngh → r ∈ rs → f < nfreq → o < 8 → n < nAng →
      run (reflectRows octs src dst N rs ngh nfreq 8 nAng) mem
        (((dst (i + 1) * N + r) * nfreq + f) * (8 * nAng) + (o * nAng + n)) =
      mem (((src (i + 1) * N + r) * nfreq + f) * (8 * nAng) + (Spec.flip a o * nAng + n))) ∧
    ∀ c r f o n, r < N → (∀ i, i < ngh → dst (i + 1) = c → r ∉ rs) → f < nfreq → o < 8 → n < nAng →
      run (reflectRows octs src dst N rs ngh nfreq 8 nAng) mem
        (((c * N + r) * nfreq + f) * (8 * nAng) + (o * nAng + n)) =
      mem (((c * N + r) * nfreq + f) * (8 * nAng) + (o * nAng + n)) := by
  refine ⟨fun i r f o n hi hr hf ho hn => ?_,
    fun c r f o n hrN hc hf ho hn => run_other _ _ _ fun p hp e => ?_⟩
  · have hm := (mem_rows (src := src) (dst := dst) (N := N) (rs := rs) (ngh := ngh) (nfreq := nfreq)
      (nAng := nAng) h _).mpr ⟨i, hi, r, hr, f, hf, o, ho, n, hn, rfl⟩
    refine run_dst _ mem ?_ ?_ _ hm
    · intro p hp q hq e
      obtain ⟨i, hi, r, hr, f, hf, o, ho, n, hn, rfl⟩ := (mem_rows h p).mp hp
      obtain ⟨i', hi', r', hr', f', hf', o', ho', n', hn', rfl⟩ := (mem_rows h q).mp hq
      obtain ⟨e1, -⟩ := digits (digit_lt ho hn) (digit_lt (flip_lt h ho') hn') e
      exact hsd i i' hi hi' (digits (hrs r hr) (hrs r' hr') (digits hf hf' e1).1).1
    · intro p hp q hq e
      obtain ⟨i, hi, r, hr, f, hf, o, ho, n, hn, rfl⟩ := (mem_rows h p).mp hp
      obtain ⟨i', hi', r', hr', f', hf', o', ho', n', hn', rfl⟩ := (mem_rows h q).mp hq
      obtain ⟨e1, e2⟩ := digits (digit_lt ho hn) (digit_lt ho' hn') e
      obtain ⟨e3, rfl⟩ := digits hf hf' e1
      obtain ⟨rfl, rfl⟩ := digits hn hn' e2
      obtain ⟨e4, rfl⟩ := digits (hrs r hr) (hrs r' hr') e3
      have := hdd i i' hi hi' e4
      subst this
      rfl
  · obtain ⟨i, hi, r', hr', f', hf', o', ho', n', hn', rfl⟩ := (mem_rows h p).mp hp
    obtain ⟨e1, -⟩ := digits (digit_lt ho' hn') (digit_lt ho hn) e
    obtain ⟨e2, rfl⟩ := digits (hrs r' hr') hrN (digits hf' hf e1).1
    exact hc i hi e2 hr'

/-- **C103.** In three dimensions the inner x2 face (`a = 1`, rows are lines) and x3 face (`a = 2`, rows are
planes) fill the visited cells of ghost row `jl - 1 - i` from row `jl + i`, mirrored across axis `a`, and
touch no other cell. -/
theorem reflect_inner_rows_partial {a : ℕ} {octs : List (ℕ × ℕ)}
    (h : a = 1 ∧ octs = octantsX2 8 ∨ a = 2 ∧ octs = octantsX3) {jl N : ℕ} {rs : List ℕ}
    (hrs : ∀ r ∈ rs, r < N) {ngh nfreq nAng : ℕ} (hg : ngh ≤ jl) (mem : ℕ → ℝ) :
    (∀ i r f o n, i < ngh → r ∈ rs → f < nfreq → o < 8 → n < nAng →
      run (reflectInner octs jl N rs ngh nfreq 8 nAng) mem
        ((((jl - 1 - i) * N + r) * nfreq + f) * (8 * nAng) + (o * nAng + n)) =
      mem ((((jl + i) * N + r) * nfreq + f) * (8 * nAng) + (Spec.flip a o * nAng + n))) ∧
    ∀ c r f o n, r < N → (c + ngh < jl ∨ jl ≤ c ∨ r ∉ rs) → f < nfreq → o < 8 → n < nAng →
      run (reflectInner octs jl N rs ngh nfreq 8 nAng) mem
        (((c * N + r) * nfreq + f) * (8 * nAng) + (o * nAng + n)) =
      mem (((c * N + r) * nfreq + f) * (8 * nAng) + (o * nAng + n)) := by
  have hp : Spec.Pairs a octs := by
    rcases h with ⟨rfl, rfl⟩ | ⟨rfl, rfl⟩
    · exact pairs_x2
    · exact pairs_x3
  obtain ⟨h1, h2⟩ := rows_gen hp (src := fun i => jl + i - 1) (dst := fun i => jl - i) hrs (ngh := ngh)
    (nfreq := nfreq) (nAng := nAng) (fun i j hi hj => by omega) (fun i j hi hj => by omega) mem
  refine ⟨fun i r f o n hi hr hf ho hn => ?_, fun c r f o n hr hc => h2 c r f o n hr fun i hi e => ?_⟩
  · have := h1 i r f o n hi hr hf ho hn
    rw [show jl - (i + 1) = jl - 1 - i by omega, show jl + (i + 1) - 1 = jl + i by omega] at this
    exact this
  · rcases hc with hc | hc | hc
    · omega
    · omega
    · exact hc

/-- **C103.** The same at the outer x2 and x3 faces. -/
theorem reflect_outer_rows_partial {a : ℕ} {octs : List (ℕ × ℕ)}
    (h : a = 1 ∧ octs = octantsX2 8 ∨ a = 2 ∧ octs = octantsX3) {ju N : ℕ} {rs : List ℕ}
    (hrs : ∀ r ∈ rs, r < N) {ngh nfreq nAng : ℕ} (hg : ngh ≤ ju) (mem : ℕ → ℝ) :
    (∀ i r f o n, i < ngh → r ∈ rs → f < nfreq → o < 8 → n < nAng →
      run (reflectOuter octs ju N rs ngh nfreq 8 nAng) mem
        ((((ju + 1 + i) * N + r) * nfreq + f) * (8 * nAng) + (o * nAng + n)) =
      mem ((((ju - i) * N + r) * nfreq + f) * (8 * nAng) + (Spec.flip a o * nAng + n))) ∧
    ∀ c r f o n, r < N → (c ≤ ju ∨ ju + ngh < c ∨ r ∉ rs) → f < nfreq → o < 8 → n < nAng →
      run (reflectOuter octs ju N rs ngh nfreq 8 nAng) mem
        (((c * N + r) * nfreq + f) * (8 * nAng) + (o * nAng + n)) =
      mem (((c * N + r) * nfreq + f) * (8 * nAng) + (o * nAng + n)) := by
  have hp : Spec.Pairs a octs := by
    rcases h with ⟨rfl, rfl⟩ | ⟨rfl, rfl⟩
    · exact pairs_x2
    · exact pairs_x3
  obtain ⟨h1, h2⟩ := rows_gen hp (src := fun i => ju - i + 1) (dst := fun i => ju + i) hrs (ngh := ngh)
    (nfreq := nfreq) (nAng := nAng) (fun i j hi hj => by omega) (fun i j hi hj => by omega) mem
  refine ⟨fun i r f o n hi hr hf ho hn => ?_, fun c r f o n hr hc => h2 c r f o n hr fun i hi e => ?_⟩
  · have := h1 i r f o n hi hr hf ho hn
    rw [show ju + (i + 1) = ju + 1 + i by omega, show ju - (i + 1) + 1 = ju - i by omega] at this
    exact this
  · rcases hc with hc | hc | hc
    · omega
    · omega
    · exact hc

/-- Lines of six cells, of which the middle two are visited. -/
example : (1 = 1 ∧ octantsX2 8 = octantsX2 8 ∨ 1 = 2 ∧ octantsX2 8 = octantsX3) ∧
    (∀ r ∈ [2, 3], r < 6) ∧ 2 ≤ 2 := by
  simp

/-- **C103.** Mirroring across axis `a` turns the cosine of that axis round and keeps the other two. -/
theorem flip_cosine {nAng : ℕ} (mutmp : ℕ → ℕ → ℝ) {a b o n : ℕ} (ha : a < 3) (hb : b < 3) (ho : o < 8)
    (hn : n < nAng) :
    cosAxis nAng mutmp b (Spec.flip a o * nAng + n) =
      if a = b then -cosAxis nAng mutmp b (o * nAng + n) else cosAxis nAng mutmp b (o * nAng + n) := by
  have hd : ∀ k, (k * nAng + n) / nAng = k ∧ (k * nAng + n) % nAng = n := by
    intro k
    constructor
    · rw [Nat.mul_comm, Nat.mul_add_div (by omega), Nat.div_eq_of_lt hn, Nat.add_zero]
    · rw [Nat.mul_comm, Nat.mul_add_mod, Nat.mod_eq_of_lt hn]
  unfold cosAxis
  rw [(hd o).1, (hd o).2, (hd _).1, (hd _).2]
  interval_cases a <;> interval_cases b <;> interval_cases o <;> simp [Spec.flip]

end Verif.RadReflect
