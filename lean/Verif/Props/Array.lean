import Verif.Lemmas.Array

/-!
# C32, C33: array addressing, slices, packing

`InR x n` is the only specification notion: `x` is a valid index of a dimension of extent `n`.
-/
namespace Verif.Arr

/-- `x` is a valid index in a dimension of extent `n`. -/
def InR (x n : Int) : Prop := 0 ≤ x ∧ x < n

/-! ## C33: elements -/

/-- A 1-dimensional array allocated with nx1 elements: valid indices address
elements of the allocation, different ones different elements, and every element is addressed. -/
theorem elements1 (base nx1 : Int) (hnx1 : 0 ≤ nx1) :
    (new1 base nx1).size = nx1 ∧
    (∀ n, InR n nx1 → base ≤ (new1 base nx1).at1 n ∧ (new1 base nx1).at1 n < base + (new1 base nx1).size) ∧
    (∀ n n', InR n nx1 → InR n' nx1 →
      (new1 base nx1).at1 n = (new1 base nx1).at1 n' → n = n') ∧
    (∀ q, base ≤ q → q < base + (new1 base nx1).size → ∃ n, InR n nx1 ∧ q = (new1 base nx1).at1 n) := by
  have hs : (new1 base nx1).size = nx1 := by simp [Arr.size, new1]
  have hs' : (new1 base nx1).size = nx1 := by rw [hs]
  refine ⟨hs, ?_, ?_, ?_⟩
  · rintro n ⟨n0, n1⟩
    rw [hs']
    simp only [Arr.at1, new1]; omega
  · rintro n n' ⟨n0, n1⟩ ⟨n2, n3⟩ h
    simp only [Arr.at1, new1] at h
    have h0 := Int.add_left_cancel h
    exact h0
  · intro q h0 h1
    rw [hs'] at h1
    exact ⟨q - base, ⟨by omega, by omega⟩, by simp only [Arr.at1, new1]; omega⟩

/-- A 2-dimensional array allocated with nx1 x nx2 elements: valid indices address
elements of the allocation, different ones different elements, and every element is addressed. -/
theorem elements2 (base nx2 nx1 : Int) (hnx2 : 0 ≤ nx2) (hnx1 : 0 ≤ nx1) :
    (new2 base nx2 nx1).size = nx1 * nx2 ∧
    (∀ n i, InR n nx2 → InR i nx1 → base ≤ (new2 base nx2 nx1).at2 n i ∧ (new2 base nx2 nx1).at2 n i < base + (new2 base nx2 nx1).size) ∧
    (∀ n i n' i', InR n nx2 → InR i nx1 → InR n' nx2 → InR i' nx1 →
      (new2 base nx2 nx1).at2 n i = (new2 base nx2 nx1).at2 n' i' → n = n' ∧ i = i') ∧
    (∀ q, base ≤ q → q < base + (new2 base nx2 nx1).size → ∃ n i, InR n nx2 ∧ InR i nx1 ∧ q = (new2 base nx2 nx1).at2 n i) := by
  have hs : (new2 base nx2 nx1).size = nx1 * nx2 := by simp [Arr.size, new2]
  have hs' : (new2 base nx2 nx1).size = nx1 * nx2 := by rw [hs]
  refine ⟨hs, ?_, ?_, ?_⟩
  · rintro n i ⟨n0, n1⟩ ⟨i0, i1⟩
    rw [hs']
    obtain ⟨a1, b1⟩ := horner_range i0 i1 n0 n1
    simp only [Arr.at2, new2]; omega
  · rintro n i n' i' ⟨n0, n1⟩ ⟨i0, i1⟩ ⟨n2, n3⟩ ⟨i2, i3⟩ h
    simp only [Arr.at2, new2] at h
    have h0 := Int.add_left_cancel h
    obtain ⟨ei, h1⟩ := horner_inj i0 i1 i2 i3 h0
    exact ⟨h1, ei⟩
  · intro q h0 h1
    rw [hs'] at h1
    have hq0 : 0 ≤ q - base := by omega
    have hq1 : q - base < nx1 * nx2 := by omega
    obtain ⟨i, n, i0, i1, n0, n1, ie⟩ := horner_split hq0 hq1 hnx1
    refine ⟨n, i, ⟨n0, n1⟩, ⟨i0, i1⟩, ?_⟩
    simp only [Arr.at2, new2]; omega

/-- A 3-dimensional array allocated with nx1 x nx2 x nx3 elements: valid indices address
elements of the allocation, different ones different elements, and every element is addressed. -/
theorem elements3 (base nx3 nx2 nx1 : Int) (hnx3 : 0 ≤ nx3) (hnx2 : 0 ≤ nx2) (hnx1 : 0 ≤ nx1) :
    (new3 base nx3 nx2 nx1).size = nx1 * nx2 * nx3 ∧
    (∀ n j i, InR n nx3 → InR j nx2 → InR i nx1 → base ≤ (new3 base nx3 nx2 nx1).at3 n j i ∧ (new3 base nx3 nx2 nx1).at3 n j i < base + (new3 base nx3 nx2 nx1).size) ∧
    (∀ n j i n' j' i', InR n nx3 → InR j nx2 → InR i nx1 → InR n' nx3 → InR j' nx2 → InR i' nx1 →
      (new3 base nx3 nx2 nx1).at3 n j i = (new3 base nx3 nx2 nx1).at3 n' j' i' → n = n' ∧ j = j' ∧ i = i') ∧
    (∀ q, base ≤ q → q < base + (new3 base nx3 nx2 nx1).size → ∃ n j i, InR n nx3 ∧ InR j nx2 ∧ InR i nx1 ∧ q = (new3 base nx3 nx2 nx1).at3 n j i) := by
  have hs : (new3 base nx3 nx2 nx1).size = nx1 * nx2 * nx3 := by simp [Arr.size, new3]
  have hs' : (new3 base nx3 nx2 nx1).size = nx1 * (nx2 * nx3) := by rw [hs]; ring
  refine ⟨hs, ?_, ?_, ?_⟩
  · rintro n j i ⟨n0, n1⟩ ⟨j0, j1⟩ ⟨i0, i1⟩
    rw [hs']
    obtain ⟨a1, b1⟩ := horner_range j0 j1 n0 n1
    obtain ⟨a2, b2⟩ := horner_range i0 i1 a1 b1
    simp only [Arr.at3, new3]; omega
  · rintro n j i n' j' i' ⟨n0, n1⟩ ⟨j0, j1⟩ ⟨i0, i1⟩ ⟨n2, n3⟩ ⟨j2, j3⟩ ⟨i2, i3⟩ h
    simp only [Arr.at3, new3] at h
    have h0 := Int.add_left_cancel h
    obtain ⟨ei, h1⟩ := horner_inj i0 i1 i2 i3 h0
    obtain ⟨ej, h2⟩ := horner_inj j0 j1 j2 j3 h1
    exact ⟨h2, ej, ei⟩
  · intro q h0 h1
    rw [hs'] at h1
    have hq0 : 0 ≤ q - base := by omega
    have hq1 : q - base < nx1 * (nx2 * nx3) := by omega
    obtain ⟨i, q2, i0, i1, q20, q21, ie⟩ := horner_split hq0 hq1 hnx1
    obtain ⟨j, n, j0, j1, n0, n1, je⟩ := horner_split q20 q21 hnx2
    refine ⟨n, j, i, ⟨n0, n1⟩, ⟨j0, j1⟩, ⟨i0, i1⟩, ?_⟩
    subst q2
    simp only [Arr.at3, new3]; omega

/-- A 4-dimensional array allocated with nx1 x nx2 x nx3 x nx4 elements: valid indices address
elements of the allocation, different ones different elements, and every element is addressed. -/
theorem elements4 (base nx4 nx3 nx2 nx1 : Int) (hnx4 : 0 ≤ nx4) (hnx3 : 0 ≤ nx3) (hnx2 : 0 ≤ nx2) (hnx1 : 0 ≤ nx1) :
    (new4 base nx4 nx3 nx2 nx1).size = nx1 * nx2 * nx3 * nx4 ∧
    (∀ n k j i, InR n nx4 → InR k nx3 → InR j nx2 → InR i nx1 → base ≤ (new4 base nx4 nx3 nx2 nx1).at4 n k j i ∧ (new4 base nx4 nx3 nx2 nx1).at4 n k j i < base + (new4 base nx4 nx3 nx2 nx1).size) ∧
    (∀ n k j i n' k' j' i', InR n nx4 → InR k nx3 → InR j nx2 → InR i nx1 → InR n' nx4 → InR k' nx3 → InR j' nx2 → InR i' nx1 →
      (new4 base nx4 nx3 nx2 nx1).at4 n k j i = (new4 base nx4 nx3 nx2 nx1).at4 n' k' j' i' → n = n' ∧ k = k' ∧ j = j' ∧ i = i') ∧
    (∀ q, base ≤ q → q < base + (new4 base nx4 nx3 nx2 nx1).size → ∃ n k j i, InR n nx4 ∧ InR k nx3 ∧ InR j nx2 ∧ InR i nx1 ∧ q = (new4 base nx4 nx3 nx2 nx1).at4 n k j i) := by
  have hs : (new4 base nx4 nx3 nx2 nx1).size = nx1 * nx2 * nx3 * nx4 := by simp [Arr.size, new4]
  have hs' : (new4 base nx4 nx3 nx2 nx1).size = nx1 * (nx2 * (nx3 * nx4)) := by rw [hs]; ring
  refine ⟨hs, ?_, ?_, ?_⟩
  · rintro n k j i ⟨n0, n1⟩ ⟨k0, k1⟩ ⟨j0, j1⟩ ⟨i0, i1⟩
    rw [hs']
    obtain ⟨a1, b1⟩ := horner_range k0 k1 n0 n1
    obtain ⟨a2, b2⟩ := horner_range j0 j1 a1 b1
    obtain ⟨a3, b3⟩ := horner_range i0 i1 a2 b2
    simp only [Arr.at4, new4]; omega
  · rintro n k j i n' k' j' i' ⟨n0, n1⟩ ⟨k0, k1⟩ ⟨j0, j1⟩ ⟨i0, i1⟩ ⟨n2, n3⟩ ⟨k2, k3⟩ ⟨j2, j3⟩ ⟨i2, i3⟩ h
    simp only [Arr.at4, new4] at h
    have h0 := Int.add_left_cancel h
    obtain ⟨ei, h1⟩ := horner_inj i0 i1 i2 i3 h0
    obtain ⟨ej, h2⟩ := horner_inj j0 j1 j2 j3 h1
    obtain ⟨ek, h3⟩ := horner_inj k0 k1 k2 k3 h2
    exact ⟨h3, ek, ej, ei⟩
  · intro q h0 h1
    rw [hs'] at h1
    have hq0 : 0 ≤ q - base := by omega
    have hq1 : q - base < nx1 * (nx2 * (nx3 * nx4)) := by omega
    obtain ⟨i, q3, i0, i1, q30, q31, ie⟩ := horner_split hq0 hq1 hnx1
    obtain ⟨j, q2, j0, j1, q20, q21, je⟩ := horner_split q30 q31 hnx2
    obtain ⟨k, n, k0, k1, n0, n1, ke⟩ := horner_split q20 q21 hnx3
    refine ⟨n, k, j, i, ⟨n0, n1⟩, ⟨k0, k1⟩, ⟨j0, j1⟩, ⟨i0, i1⟩, ?_⟩
    subst q3 q2
    simp only [Arr.at4, new4]; omega

/-- A 5-dimensional array allocated with nx1 x nx2 x nx3 x nx4 x nx5 elements: valid indices address
elements of the allocation, different ones different elements, and every element is addressed. -/
theorem elements5 (base nx5 nx4 nx3 nx2 nx1 : Int) (hnx5 : 0 ≤ nx5) (hnx4 : 0 ≤ nx4) (hnx3 : 0 ≤ nx3) (hnx2 : 0 ≤ nx2) (hnx1 : 0 ≤ nx1) :
    (new5 base nx5 nx4 nx3 nx2 nx1).size = nx1 * nx2 * nx3 * nx4 * nx5 ∧
    (∀ m n k j i, InR m nx5 → InR n nx4 → InR k nx3 → InR j nx2 → InR i nx1 → base ≤ (new5 base nx5 nx4 nx3 nx2 nx1).at5 m n k j i ∧ (new5 base nx5 nx4 nx3 nx2 nx1).at5 m n k j i < base + (new5 base nx5 nx4 nx3 nx2 nx1).size) ∧
    (∀ m n k j i m' n' k' j' i', InR m nx5 → InR n nx4 → InR k nx3 → InR j nx2 → InR i nx1 → InR m' nx5 → InR n' nx4 → InR k' nx3 → InR j' nx2 → InR i' nx1 →
      (new5 base nx5 nx4 nx3 nx2 nx1).at5 m n k j i = (new5 base nx5 nx4 nx3 nx2 nx1).at5 m' n' k' j' i' → m = m' ∧ n = n' ∧ k = k' ∧ j = j' ∧ i = i') ∧
    (∀ q, base ≤ q → q < base + (new5 base nx5 nx4 nx3 nx2 nx1).size → ∃ m n k j i, InR m nx5 ∧ InR n nx4 ∧ InR k nx3 ∧ InR j nx2 ∧ InR i nx1 ∧ q = (new5 base nx5 nx4 nx3 nx2 nx1).at5 m n k j i) := by
  have hs : (new5 base nx5 nx4 nx3 nx2 nx1).size = nx1 * nx2 * nx3 * nx4 * nx5 := by simp [Arr.size, new5]
  have hs' : (new5 base nx5 nx4 nx3 nx2 nx1).size = nx1 * (nx2 * (nx3 * (nx4 * nx5))) := by rw [hs]; ring
  refine ⟨hs, ?_, ?_, ?_⟩
  · rintro m n k j i ⟨m0, m1⟩ ⟨n0, n1⟩ ⟨k0, k1⟩ ⟨j0, j1⟩ ⟨i0, i1⟩
    rw [hs']
    obtain ⟨a1, b1⟩ := horner_range n0 n1 m0 m1
    obtain ⟨a2, b2⟩ := horner_range k0 k1 a1 b1
    obtain ⟨a3, b3⟩ := horner_range j0 j1 a2 b2
    obtain ⟨a4, b4⟩ := horner_range i0 i1 a3 b3
    simp only [Arr.at5, new5]; omega
  · rintro m n k j i m' n' k' j' i' ⟨m0, m1⟩ ⟨n0, n1⟩ ⟨k0, k1⟩ ⟨j0, j1⟩ ⟨i0, i1⟩ ⟨m2, m3⟩ ⟨n2, n3⟩ ⟨k2, k3⟩ ⟨j2, j3⟩ ⟨i2, i3⟩ h
    simp only [Arr.at5, new5] at h
    have h0 := Int.add_left_cancel h
    obtain ⟨ei, h1⟩ := horner_inj i0 i1 i2 i3 h0
    obtain ⟨ej, h2⟩ := horner_inj j0 j1 j2 j3 h1
    obtain ⟨ek, h3⟩ := horner_inj k0 k1 k2 k3 h2
    obtain ⟨en, h4⟩ := horner_inj n0 n1 n2 n3 h3
    exact ⟨h4, en, ek, ej, ei⟩
  · intro q h0 h1
    rw [hs'] at h1
    have hq0 : 0 ≤ q - base := by omega
    have hq1 : q - base < nx1 * (nx2 * (nx3 * (nx4 * nx5))) := by omega
    obtain ⟨i, q4, i0, i1, q40, q41, ie⟩ := horner_split hq0 hq1 hnx1
    obtain ⟨j, q3, j0, j1, q30, q31, je⟩ := horner_split q40 q41 hnx2
    obtain ⟨k, q2, k0, k1, q20, q21, ke⟩ := horner_split q30 q31 hnx3
    obtain ⟨n, m, n0, n1, m0, m1, ne⟩ := horner_split q20 q21 hnx4
    refine ⟨m, n, k, j, i, ⟨m0, m1⟩, ⟨n0, n1⟩, ⟨k0, k1⟩, ⟨j0, j1⟩, ⟨i0, i1⟩, ?_⟩
    subst q4 q3 q2
    simp only [Arr.at5, new5]; omega

/-- A 6-dimensional array allocated with nx1 x nx2 x nx3 x nx4 x nx5 x nx6 elements: valid indices address
elements of the allocation, different ones different elements, and every element is addressed. -/
theorem elements6 (base nx6 nx5 nx4 nx3 nx2 nx1 : Int) (hnx6 : 0 ≤ nx6) (hnx5 : 0 ≤ nx5) (hnx4 : 0 ≤ nx4) (hnx3 : 0 ≤ nx3) (hnx2 : 0 ≤ nx2) (hnx1 : 0 ≤ nx1) :
    (new6 base nx6 nx5 nx4 nx3 nx2 nx1).size = nx1 * nx2 * nx3 * nx4 * nx5 * nx6 ∧
    (∀ p m n k j i, InR p nx6 → InR m nx5 → InR n nx4 → InR k nx3 → InR j nx2 → InR i nx1 → base ≤ (new6 base nx6 nx5 nx4 nx3 nx2 nx1).at6 p m n k j i ∧ (new6 base nx6 nx5 nx4 nx3 nx2 nx1).at6 p m n k j i < base + (new6 base nx6 nx5 nx4 nx3 nx2 nx1).size) ∧
    (∀ p m n k j i p' m' n' k' j' i', InR p nx6 → InR m nx5 → InR n nx4 → InR k nx3 → InR j nx2 → InR i nx1 → InR p' nx6 → InR m' nx5 → InR n' nx4 → InR k' nx3 → InR j' nx2 → InR i' nx1 →
      (new6 base nx6 nx5 nx4 nx3 nx2 nx1).at6 p m n k j i = (new6 base nx6 nx5 nx4 nx3 nx2 nx1).at6 p' m' n' k' j' i' → p = p' ∧ m = m' ∧ n = n' ∧ k = k' ∧ j = j' ∧ i = i') ∧
    (∀ q, base ≤ q → q < base + (new6 base nx6 nx5 nx4 nx3 nx2 nx1).size → ∃ p m n k j i, InR p nx6 ∧ InR m nx5 ∧ InR n nx4 ∧ InR k nx3 ∧ InR j nx2 ∧ InR i nx1 ∧ q = (new6 base nx6 nx5 nx4 nx3 nx2 nx1).at6 p m n k j i) := by
  have hs : (new6 base nx6 nx5 nx4 nx3 nx2 nx1).size = nx1 * nx2 * nx3 * nx4 * nx5 * nx6 := by simp [Arr.size, new6]
  have hs' : (new6 base nx6 nx5 nx4 nx3 nx2 nx1).size = nx1 * (nx2 * (nx3 * (nx4 * (nx5 * nx6)))) := by rw [hs]; ring
  refine ⟨hs, ?_, ?_, ?_⟩
  · rintro p m n k j i ⟨p0, p1⟩ ⟨m0, m1⟩ ⟨n0, n1⟩ ⟨k0, k1⟩ ⟨j0, j1⟩ ⟨i0, i1⟩
    rw [hs']
    obtain ⟨a1, b1⟩ := horner_range m0 m1 p0 p1
    obtain ⟨a2, b2⟩ := horner_range n0 n1 a1 b1
    obtain ⟨a3, b3⟩ := horner_range k0 k1 a2 b2
    obtain ⟨a4, b4⟩ := horner_range j0 j1 a3 b3
    obtain ⟨a5, b5⟩ := horner_range i0 i1 a4 b4
    simp only [Arr.at6, new6]; omega
  · rintro p m n k j i p' m' n' k' j' i' ⟨p0, p1⟩ ⟨m0, m1⟩ ⟨n0, n1⟩ ⟨k0, k1⟩ ⟨j0, j1⟩ ⟨i0, i1⟩ ⟨p2, p3⟩ ⟨m2, m3⟩ ⟨n2, n3⟩ ⟨k2, k3⟩ ⟨j2, j3⟩ ⟨i2, i3⟩ h
    simp only [Arr.at6, new6] at h
    have h0 := Int.add_left_cancel h
    obtain ⟨ei, h1⟩ := horner_inj i0 i1 i2 i3 h0
    obtain ⟨ej, h2⟩ := horner_inj j0 j1 j2 j3 h1
    obtain ⟨ek, h3⟩ := horner_inj k0 k1 k2 k3 h2
    obtain ⟨en, h4⟩ := horner_inj n0 n1 n2 n3 h3
    obtain ⟨em, h5⟩ := horner_inj m0 m1 m2 m3 h4
    exact ⟨h5, em, en, ek, ej, ei⟩
  · intro q h0 h1
    rw [hs'] at h1
    have hq0 : 0 ≤ q - base := by omega
    have hq1 : q - base < nx1 * (nx2 * (nx3 * (nx4 * (nx5 * nx6)))) := by omega
    obtain ⟨i, q5, i0, i1, q50, q51, ie⟩ := horner_split hq0 hq1 hnx1
    obtain ⟨j, q4, j0, j1, q40, q41, je⟩ := horner_split q50 q51 hnx2
    obtain ⟨k, q3, k0, k1, q30, q31, ke⟩ := horner_split q40 q41 hnx3
    obtain ⟨n, q2, n0, n1, q20, q21, ne⟩ := horner_split q30 q31 hnx4
    obtain ⟨m, p, m0, m1, p0, p1, me⟩ := horner_split q20 q21 hnx5
    refine ⟨p, m, n, k, j, i, ⟨p0, p1⟩, ⟨m0, m1⟩, ⟨n0, n1⟩, ⟨k0, k1⟩, ⟨j0, j1⟩, ⟨i0, i1⟩, ?_⟩
    subst q5 q4 q3 q2
    simp only [Arr.at6, new6]; omega

example : (new3 100 4 5 6).at3 3 4 5 = 100 + (new3 100 4 5 6).size - 1 := by decide

/-! ## C33: slices -/

/-- A shallow slice addresses exactly the elements of the source whose index in dimension `dim` is
shifted by `indx`: read with as many indices as `dim`, and (for the first of them) with one index
less, which is how one-variable slices are used. -/
theorem slice_elements (this src : Arr) (indx nvar p m n k j i : Int) :
    (slice this src 6 indx nvar).at6 p m n k j i = src.at6 (p + indx) m n k j i ∧
    (slice this src 5 indx nvar).at5 m n k j i = src.at5 (m + indx) n k j i ∧
    (slice this src 4 indx nvar).at4 n k j i = src.at4 (n + indx) k j i ∧
    (slice this src 3 indx nvar).at3 k j i = src.at3 (k + indx) j i ∧
    (slice this src 2 indx nvar).at2 j i = src.at2 (j + indx) i ∧
    (slice this src 1 indx nvar).at1 i = src.at1 (i + indx) ∧
    (slice this src 6 indx nvar).at5 m n k j i = src.at6 indx m n k j i ∧
    (slice this src 5 indx nvar).at4 n k j i = src.at5 indx n k j i ∧
    (slice this src 4 indx nvar).at3 k j i = src.at4 indx k j i ∧
    (slice this src 3 indx nvar).at2 j i = src.at3 indx j i ∧
    (slice this src 2 indx nvar).at1 i = src.at2 indx i := by
  simp only [slice, Arr.at1, Arr.at2, Arr.at3, Arr.at4, Arr.at5, Arr.at6]
  refine ⟨?_, ?_, ?_, ?_, ?_, ?_, ?_, ?_, ?_, ?_, ?_⟩ <;> simp <;> ring

/-- The extents of a slice: the sliced dimension has `nvar` entries, lower dimensions are those of
the source, higher ones are 1. A slice within the source's range stays within its allocation. -/
theorem slice_extent (this src : Arr) (indx nvar : Int)
    (h1 : 0 ≤ src.nx1) (h2 : 0 ≤ src.nx2) (h3 : 0 ≤ src.nx3) (h4 : 0 ≤ src.nx4) (h5 : 1 ≤ src.nx5)
    (h6 : 1 ≤ src.nx6) (hi : 0 ≤ indx) (hn : indx + nvar ≤ src.nx4) :
    let s := slice this src 4 indx nvar
    s.nx1 = src.nx1 ∧ s.nx2 = src.nx2 ∧ s.nx3 = src.nx3 ∧ s.nx4 = nvar ∧ s.nx5 = 1 ∧ s.nx6 = 1 ∧
    src.base ≤ s.base ∧ s.base + s.size ≤ src.base + src.size := by
  simp only [slice, Arr.size]
  refine ⟨rfl, rfl, rfl, rfl, rfl, rfl, ?_, ?_⟩
  · have := Int.mul_nonneg hi (Int.mul_nonneg (Int.mul_nonneg h1 h2) h3)
    simp; linarith
  · simp
    have h56 : 1 ≤ src.nx5 * src.nx6 := by nlinarith
    have hp : 0 ≤ src.nx1 * src.nx2 * src.nx3 := Int.mul_nonneg (Int.mul_nonneg h1 h2) h3
    have a1 : src.nx1 * src.nx2 * src.nx3 * (indx + nvar) ≤ src.nx1 * src.nx2 * src.nx3 * src.nx4 :=
      Int.mul_le_mul_of_nonneg_left hn hp
    have a2 : src.nx1 * src.nx2 * src.nx3 * src.nx4 * 1
        ≤ src.nx1 * src.nx2 * src.nx3 * src.nx4 * (src.nx5 * src.nx6) :=
      Int.mul_le_mul_of_nonneg_left h56 (Int.mul_nonneg hp h4)
    nlinarith

/-- A pencil slice addresses the elements `il, il+1, ...` of row `(k, j)`. -/
theorem pencil_elements (src : Arr) (k j il n i : Int) :
    (pencil src k j il n).at1 i = src.at3 k j (il + i) ∧ (pencil src k j il n).nx1 = n := by
  refine ⟨?_, rfl⟩
  simp only [pencil, Arr.at1, Arr.at3]; ring

/-- Copy assignment between disjoint allocations of equal size: every element of the destination
equals the source's element, the source and everything else is unchanged. -/
theorem copyAssign_elements {α : Type} (dst src : Arr) (m : Mem α)
    (hd : dst.base + src.size ≤ src.base ∨ src.base + src.size ≤ dst.base) :
    let r := copyAssign dst src m
    (∀ q, 0 ≤ q → q < src.size → r.2 (dst.base + q) = m (src.base + q)) ∧
    (∀ q, q < dst.base ∨ dst.base + src.size ≤ q → r.2 q = m q) ∧
    (∀ n k j i, r.1.at4 n k j i - dst.base = src.at4 n k j i - src.base) := by
  have key : ∀ (l : List Int) (m : Mem α), (∀ i ∈ l, 0 ≤ i ∧ i < src.size) → l.Nodup →
      (∀ i ∈ l, (l.foldl (fun m i => store m (dst.base + i) (m (src.base + i))) m) (dst.base + i)
        = m (src.base + i)) ∧
      ∀ q, (∀ i ∈ l, q ≠ dst.base + i) →
        (l.foldl (fun m i => store m (dst.base + i) (m (src.base + i))) m) q = m q := by
    intro l
    induction l with
    | nil => intro m _ _; simp
    | cons x l ih =>
      intro m hr hn
      simp only [List.nodup_cons] at hn
      obtain ⟨i1, i2⟩ := ih (store m (dst.base + x) (m (src.base + x)))
        (fun i hi => hr i (List.mem_cons_of_mem _ hi)) hn.2
      have hx := hr x List.mem_cons_self
      refine ⟨?_, ?_⟩
      · intro i hi
        rw [List.foldl_cons]
        rcases List.mem_cons.1 hi with rfl | hi'
        · rw [i2 _ (fun y hy e => hn.1 (by have : i = y := by omega
                                           rw [this]; exact hy))]
          exact store_same _ _ _
        · rw [i1 i hi']
          have := hr i hi
          exact store_ne _ _ (by omega)
      · intro q hq
        rw [List.foldl_cons, i2 q (fun i hi => hq i (List.mem_cons_of_mem _ hi))]
        exact store_ne _ _ (hq x List.mem_cons_self)
  obtain ⟨k1, k2⟩ := key (rng 0 (src.size - 1)) m
    (fun i hi => by have := mem_rng.1 hi; omega) (nodup_rng _ _)
  refine ⟨fun q h0 h1 => k1 q (mem_rng.2 ⟨h0, by omega⟩), fun q hq => k2 q (fun i hi => ?_), ?_⟩
  · have := mem_rng.1 hi; omega
  · intro n k j i; simp only [copyAssign, Arr.at4]; ring

example : (new4 0 3 2 2 2).base + (new4 100 3 2 2 2).size ≤ (new4 100 3 2 2 2).base := by decide

/-! ## C32: packing -/

/-- Packing a 3D box writes the buffer cells `off .. off + N` only and returns `off + N`, with `N`
the number of cells of the box (0 if a range is empty). -/
theorem pack3_frame {α : Type} (src : Arr) (m : Mem α) (buf off si ei sj ej sk ek : Int)
    (hsrck : 0 ≤ sk ∧ ek < src.nx3) (hsrcj : 0 ≤ sj ∧ ej < src.nx2) (hsrci : 0 ≤ si ∧ ei < src.nx1)
    (src4 : 1 ≤ src.nx4) (src5 : 1 ≤ src.nx5) (src6 : 1 ≤ src.nx6)
    (hdis : src.base + src.size ≤ buf + off ∨
      buf + off + (((ek + 1 - sk).toNat * (ej + 1 - sj).toNat * (ei + 1 - si).toNat : Nat) : Int) ≤ src.base) :
    (pack3 src buf si ei sj ej sk ek (m, off)).2 = off + (((ek + 1 - sk).toNat * (ej + 1 - sj).toNat * (ei + 1 - si).toNat : Nat) : Int) ∧
    ∀ q, q < buf + off ∨ buf + off + (((ek + 1 - sk).toNat * (ej + 1 - sj).toNat * (ei + 1 - si).toNat : Nat) : Int) ≤ q →
      (pack3 src buf si ei sj ej sk ek (m, off)).1 q = m q := by
  rw [pack3_eq]
  have hl := length_box3 sk ek sj ej si ei
  obtain ⟨h1, _, h3⟩ := putFold buf (fun x => src.at3' x) (box3 sk ek sj ej si ei) m off
    (by rw [hl]; exact sep3 src _ _ hsrck hsrcj hsrci src4 src5 src6 hdis)
  rw [hl] at h1 h3
  exact ⟨h1, h3⟩

/-- Pack a 3D box of `src`, transport the buffer contents to `buf'` (any other memory `m'`), unpack
into the box of `dst` shifted by the `d`s: each cell arrives at its shifted place, no other address
changes, and the offset advances by the number of cells. -/
theorem pack_unpack3 {α : Type} (src dst : Arr) (m m' : Mem α) (buf off buf' off' : Int)
    (si ei sj ej sk ek dk dj di : Int)
    (hsrck : 0 ≤ sk ∧ ek < src.nx3) (hsrcj : 0 ≤ sj ∧ ej < src.nx2) (hsrci : 0 ≤ si ∧ ei < src.nx1)
    (hdstk : 0 ≤ sk + dk ∧ ek + dk < dst.nx3) (hdstj : 0 ≤ sj + dj ∧ ej + dj < dst.nx2) (hdsti : 0 ≤ si + di ∧ ei + di < dst.nx1)
    (src4 : 1 ≤ src.nx4) (src5 : 1 ≤ src.nx5) (src6 : 1 ≤ src.nx6) (dst4 : 1 ≤ dst.nx4) (dst5 : 1 ≤ dst.nx5) (dst6 : 1 ≤ dst.nx6)
    (hsd : src.base + src.size ≤ buf + off ∨ buf + off + (((ek + 1 - sk).toNat * (ej + 1 - sj).toNat * (ei + 1 - si).toNat : Nat) : Int) ≤ src.base)
    (hdd : dst.base + dst.size ≤ buf' + off' ∨ buf' + off' + (((ek + 1 - sk).toNat * (ej + 1 - sj).toNat * (ei + 1 - si).toNat : Nat) : Int) ≤ dst.base)
    (sent : ∀ t : Int, 0 ≤ t → t < (((ek + 1 - sk).toNat * (ej + 1 - sj).toNat * (ei + 1 - si).toNat : Nat) : Int) →
      m' (buf' + off' + t) = (pack3 src buf si ei sj ej sk ek (m, off)).1 (buf + off + t)) :
    let r := unpack3 buf' dst (si + di) (ei + di) (sj + dj) (ej + dj) (sk + dk) (ek + dk) (m', off')
    (∀ k j i, sk ≤ k → k ≤ ek → sj ≤ j → j ≤ ej → si ≤ i → i ≤ ei → r.1 (dst.at3 (k + dk) (j + dj) (i + di)) = m (src.at3 k j i)) ∧
    (∀ q, (∀ k j i, sk ≤ k → k ≤ ek → sj ≤ j → j ≤ ej → si ≤ i → i ≤ ei → q ≠ dst.at3 (k + dk) (j + dj) (i + di)) → r.1 q = m' q) ∧
    r.2 = off' + (((ek + 1 - sk).toNat * (ej + 1 - sj).toNat * (ei + 1 - si).toNat : Nat) : Int) := by
  intro r
  have hl := length_box3 sk ek sj ej si ei
  have hr : r = ((box3 sk ek sj ej si ei).map (sh3 dk dj di)).foldl
      (fun st x => getBuf buf' (dst.at3' x) st) (m', off') := by
    rw [← box3_shift]; exact unpack3_eq ..
  rw [pack3_eq] at sent
  obtain ⟨h1, h2, h3⟩ := pack_unpack buf buf' off off' (box3 sk ek sj ej si ei)
    (sh3 dk dj di) src.at3' dst.at3' m m'
    (by rw [hl]; exact sep3 src _ _ hsrck hsrcj hsrci src4 src5 src6 hsd)
    (by rw [hl]; exact sep3_shift dst _ _ hdstk hdstj hdsti dst4 dst5 dst6 hdd)
    (nodup3 dst hdstk hdstj hdsti)
    (by rw [hl]; exact sent)
  rw [hr]
  rw [hl] at h3
  refine ⟨?_, ?_, h3⟩
  · intro k j i k0 k1 j0 j1 i0 i1
    exact h1 (k, j, i) (mem_box3.2 ⟨⟨k0, k1⟩, ⟨j0, j1⟩, ⟨i0, i1⟩⟩)
  · intro q hq
    apply h2 q
    rintro ⟨k, j, i⟩ hx
    obtain ⟨⟨k0, k1⟩, ⟨j0, j1⟩, ⟨i0, i1⟩⟩ := mem_box3.1 hx
    exact hq k j i k0 k1 j0 j1 i0 i1

/-- Packing a 4D box writes the buffer cells `off .. off + N` only and returns `off + N`, with `N`
the number of cells of the box (0 if a range is empty). -/
theorem pack4_frame {α : Type} (src : Arr) (m : Mem α) (buf off sn en si ei sj ej sk ek : Int)
    (hsrcn : 0 ≤ sn ∧ en < src.nx4) (hsrck : 0 ≤ sk ∧ ek < src.nx3) (hsrcj : 0 ≤ sj ∧ ej < src.nx2) (hsrci : 0 ≤ si ∧ ei < src.nx1)
    (src5 : 1 ≤ src.nx5) (src6 : 1 ≤ src.nx6)
    (hdis : src.base + src.size ≤ buf + off ∨
      buf + off + (((en + 1 - sn).toNat * (ek + 1 - sk).toNat * (ej + 1 - sj).toNat * (ei + 1 - si).toNat : Nat) : Int) ≤ src.base) :
    (pack4 src buf sn en si ei sj ej sk ek (m, off)).2 = off + (((en + 1 - sn).toNat * (ek + 1 - sk).toNat * (ej + 1 - sj).toNat * (ei + 1 - si).toNat : Nat) : Int) ∧
    ∀ q, q < buf + off ∨ buf + off + (((en + 1 - sn).toNat * (ek + 1 - sk).toNat * (ej + 1 - sj).toNat * (ei + 1 - si).toNat : Nat) : Int) ≤ q →
      (pack4 src buf sn en si ei sj ej sk ek (m, off)).1 q = m q := by
  rw [pack4_eq]
  have hl := length_box4 sn en sk ek sj ej si ei
  obtain ⟨h1, _, h3⟩ := putFold buf (fun x => src.at4' x) (box4 sn en sk ek sj ej si ei) m off
    (by rw [hl]; exact sep4 src _ _ hsrcn hsrck hsrcj hsrci src5 src6 hdis)
  rw [hl] at h1 h3
  exact ⟨h1, h3⟩

/-- Pack a 4D box of `src`, transport the buffer contents to `buf'` (any other memory `m'`), unpack
into the box of `dst` shifted by the `d`s: each cell arrives at its shifted place, no other address
changes, and the offset advances by the number of cells. -/
theorem pack_unpack4 {α : Type} (src dst : Arr) (m m' : Mem α) (buf off buf' off' : Int)
    (sn en si ei sj ej sk ek dn dk dj di : Int)
    (hsrcn : 0 ≤ sn ∧ en < src.nx4) (hsrck : 0 ≤ sk ∧ ek < src.nx3) (hsrcj : 0 ≤ sj ∧ ej < src.nx2) (hsrci : 0 ≤ si ∧ ei < src.nx1)
    (hdstn : 0 ≤ sn + dn ∧ en + dn < dst.nx4) (hdstk : 0 ≤ sk + dk ∧ ek + dk < dst.nx3) (hdstj : 0 ≤ sj + dj ∧ ej + dj < dst.nx2) (hdsti : 0 ≤ si + di ∧ ei + di < dst.nx1)
    (src5 : 1 ≤ src.nx5) (src6 : 1 ≤ src.nx6) (dst5 : 1 ≤ dst.nx5) (dst6 : 1 ≤ dst.nx6)
    (hsd : src.base + src.size ≤ buf + off ∨ buf + off + (((en + 1 - sn).toNat * (ek + 1 - sk).toNat * (ej + 1 - sj).toNat * (ei + 1 - si).toNat : Nat) : Int) ≤ src.base)
    (hdd : dst.base + dst.size ≤ buf' + off' ∨ buf' + off' + (((en + 1 - sn).toNat * (ek + 1 - sk).toNat * (ej + 1 - sj).toNat * (ei + 1 - si).toNat : Nat) : Int) ≤ dst.base)
    (sent : ∀ t : Int, 0 ≤ t → t < (((en + 1 - sn).toNat * (ek + 1 - sk).toNat * (ej + 1 - sj).toNat * (ei + 1 - si).toNat : Nat) : Int) →
      m' (buf' + off' + t) = (pack4 src buf sn en si ei sj ej sk ek (m, off)).1 (buf + off + t)) :
    let r := unpack4 buf' dst (sn + dn) (en + dn) (si + di) (ei + di) (sj + dj) (ej + dj) (sk + dk) (ek + dk) (m', off')
    (∀ n k j i, sn ≤ n → n ≤ en → sk ≤ k → k ≤ ek → sj ≤ j → j ≤ ej → si ≤ i → i ≤ ei → r.1 (dst.at4 (n + dn) (k + dk) (j + dj) (i + di)) = m (src.at4 n k j i)) ∧
    (∀ q, (∀ n k j i, sn ≤ n → n ≤ en → sk ≤ k → k ≤ ek → sj ≤ j → j ≤ ej → si ≤ i → i ≤ ei → q ≠ dst.at4 (n + dn) (k + dk) (j + dj) (i + di)) → r.1 q = m' q) ∧
    r.2 = off' + (((en + 1 - sn).toNat * (ek + 1 - sk).toNat * (ej + 1 - sj).toNat * (ei + 1 - si).toNat : Nat) : Int) := by
  intro r
  have hl := length_box4 sn en sk ek sj ej si ei
  have hr : r = ((box4 sn en sk ek sj ej si ei).map (sh4 dn dk dj di)).foldl
      (fun st x => getBuf buf' (dst.at4' x) st) (m', off') := by
    rw [← box4_shift]; exact unpack4_eq ..
  rw [pack4_eq] at sent
  obtain ⟨h1, h2, h3⟩ := pack_unpack buf buf' off off' (box4 sn en sk ek sj ej si ei)
    (sh4 dn dk dj di) src.at4' dst.at4' m m'
    (by rw [hl]; exact sep4 src _ _ hsrcn hsrck hsrcj hsrci src5 src6 hsd)
    (by rw [hl]; exact sep4_shift dst _ _ hdstn hdstk hdstj hdsti dst5 dst6 hdd)
    (nodup4 dst hdstn hdstk hdstj hdsti)
    (by rw [hl]; exact sent)
  rw [hr]
  rw [hl] at h3
  refine ⟨?_, ?_, h3⟩
  · intro n k j i n0 n1 k0 k1 j0 j1 i0 i1
    exact h1 (n, k, j, i) (mem_box4.2 ⟨⟨n0, n1⟩, ⟨k0, k1⟩, ⟨j0, j1⟩, ⟨i0, i1⟩⟩)
  · intro q hq
    apply h2 q
    rintro ⟨n, k, j, i⟩ hx
    obtain ⟨⟨n0, n1⟩, ⟨k0, k1⟩, ⟨j0, j1⟩, ⟨i0, i1⟩⟩ := mem_box4.1 hx
    exact hq n k j i n0 n1 k0 k1 j0 j1 i0 i1

/-- Packing a 5D box writes the buffer cells `off .. off + N` only and returns `off + N`, with `N`
the number of cells of the box (0 if a range is empty). -/
theorem pack5_frame {α : Type} (src : Arr) (m : Mem α) (buf off sn en sm em si ei sj ej sk ek : Int)
    (hsrcn : 0 ≤ sn ∧ en < src.nx5) (hsrck : 0 ≤ sk ∧ ek < src.nx4) (hsrcj : 0 ≤ sj ∧ ej < src.nx3) (hsrci : 0 ≤ si ∧ ei < src.nx2) (hsrcm : 0 ≤ sm ∧ em < src.nx1)
    (src6 : 1 ≤ src.nx6)
    (hdis : src.base + src.size ≤ buf + off ∨
      buf + off + (((en + 1 - sn).toNat * (ek + 1 - sk).toNat * (ej + 1 - sj).toNat * (ei + 1 - si).toNat * (em + 1 - sm).toNat : Nat) : Int) ≤ src.base) :
    (pack5 src buf sn en sm em si ei sj ej sk ek (m, off)).2 = off + (((en + 1 - sn).toNat * (ek + 1 - sk).toNat * (ej + 1 - sj).toNat * (ei + 1 - si).toNat * (em + 1 - sm).toNat : Nat) : Int) ∧
    ∀ q, q < buf + off ∨ buf + off + (((en + 1 - sn).toNat * (ek + 1 - sk).toNat * (ej + 1 - sj).toNat * (ei + 1 - si).toNat * (em + 1 - sm).toNat : Nat) : Int) ≤ q →
      (pack5 src buf sn en sm em si ei sj ej sk ek (m, off)).1 q = m q := by
  rw [pack5_eq]
  have hl := length_box5 sn en sk ek sj ej si ei sm em
  obtain ⟨h1, _, h3⟩ := putFold buf (fun x => src.at5' x) (box5 sn en sk ek sj ej si ei sm em) m off
    (by rw [hl]; exact sep5 src _ _ hsrcn hsrck hsrcj hsrci hsrcm src6 hdis)
  rw [hl] at h1 h3
  exact ⟨h1, h3⟩

/-- Pack a 5D box of `src`, transport the buffer contents to `buf'` (any other memory `m'`), unpack
into the box of `dst` shifted by the `d`s: each cell arrives at its shifted place, no other address
changes, and the offset advances by the number of cells. -/
theorem pack_unpack5 {α : Type} (src dst : Arr) (μ μ' : Mem α) (buf off buf' off' : Int)
    (sn en sm em si ei sj ej sk ek dn dk dj di dm : Int)
    (hsrcn : 0 ≤ sn ∧ en < src.nx5) (hsrck : 0 ≤ sk ∧ ek < src.nx4) (hsrcj : 0 ≤ sj ∧ ej < src.nx3) (hsrci : 0 ≤ si ∧ ei < src.nx2) (hsrcm : 0 ≤ sm ∧ em < src.nx1)
    (hdstn : 0 ≤ sn + dn ∧ en + dn < dst.nx5) (hdstk : 0 ≤ sk + dk ∧ ek + dk < dst.nx4) (hdstj : 0 ≤ sj + dj ∧ ej + dj < dst.nx3) (hdsti : 0 ≤ si + di ∧ ei + di < dst.nx2) (hdstm : 0 ≤ sm + dm ∧ em + dm < dst.nx1)
    (src6 : 1 ≤ src.nx6) (dst6 : 1 ≤ dst.nx6)
    (hsd : src.base + src.size ≤ buf + off ∨ buf + off + (((en + 1 - sn).toNat * (ek + 1 - sk).toNat * (ej + 1 - sj).toNat * (ei + 1 - si).toNat * (em + 1 - sm).toNat : Nat) : Int) ≤ src.base)
    (hdd : dst.base + dst.size ≤ buf' + off' ∨ buf' + off' + (((en + 1 - sn).toNat * (ek + 1 - sk).toNat * (ej + 1 - sj).toNat * (ei + 1 - si).toNat * (em + 1 - sm).toNat : Nat) : Int) ≤ dst.base)
    (sent : ∀ t : Int, 0 ≤ t → t < (((en + 1 - sn).toNat * (ek + 1 - sk).toNat * (ej + 1 - sj).toNat * (ei + 1 - si).toNat * (em + 1 - sm).toNat : Nat) : Int) →
      μ' (buf' + off' + t) = (pack5 src buf sn en sm em si ei sj ej sk ek (μ, off)).1 (buf + off + t)) :
    let r := unpack5 buf' dst (sn + dn) (en + dn) (sm + dm) (em + dm) (si + di) (ei + di) (sj + dj) (ej + dj) (sk + dk) (ek + dk) (μ', off')
    (∀ n k j i m, sn ≤ n → n ≤ en → sk ≤ k → k ≤ ek → sj ≤ j → j ≤ ej → si ≤ i → i ≤ ei → sm ≤ m → m ≤ em → r.1 (dst.at5 (n + dn) (k + dk) (j + dj) (i + di) (m + dm)) = μ (src.at5 n k j i m)) ∧
    (∀ q, (∀ n k j i m, sn ≤ n → n ≤ en → sk ≤ k → k ≤ ek → sj ≤ j → j ≤ ej → si ≤ i → i ≤ ei → sm ≤ m → m ≤ em → q ≠ dst.at5 (n + dn) (k + dk) (j + dj) (i + di) (m + dm)) → r.1 q = μ' q) ∧
    r.2 = off' + (((en + 1 - sn).toNat * (ek + 1 - sk).toNat * (ej + 1 - sj).toNat * (ei + 1 - si).toNat * (em + 1 - sm).toNat : Nat) : Int) := by
  intro r
  have hl := length_box5 sn en sk ek sj ej si ei sm em
  have hr : r = ((box5 sn en sk ek sj ej si ei sm em).map (sh5 dn dk dj di dm)).foldl
      (fun st x => getBuf buf' (dst.at5' x) st) (μ', off') := by
    rw [← box5_shift]; exact unpack5_eq ..
  rw [pack5_eq] at sent
  obtain ⟨h1, h2, h3⟩ := pack_unpack buf buf' off off' (box5 sn en sk ek sj ej si ei sm em)
    (sh5 dn dk dj di dm) src.at5' dst.at5' μ μ'
    (by rw [hl]; exact sep5 src _ _ hsrcn hsrck hsrcj hsrci hsrcm src6 hsd)
    (by rw [hl]; exact sep5_shift dst _ _ hdstn hdstk hdstj hdsti hdstm dst6 hdd)
    (nodup5 dst hdstn hdstk hdstj hdsti hdstm)
    (by rw [hl]; exact sent)
  rw [hr]
  rw [hl] at h3
  refine ⟨?_, ?_, h3⟩
  · intro n k j i m n0 n1 k0 k1 j0 j1 i0 i1 m0 m1
    exact h1 (n, k, j, i, m) (mem_box5.2 ⟨⟨n0, n1⟩, ⟨k0, k1⟩, ⟨j0, j1⟩, ⟨i0, i1⟩, ⟨m0, m1⟩⟩)
  · intro q hq
    apply h2 q
    rintro ⟨n, k, j, i, m⟩ hx
    obtain ⟨⟨n0, n1⟩, ⟨k0, k1⟩, ⟨j0, j1⟩, ⟨i0, i1⟩, ⟨m0, m1⟩⟩ := mem_box5.1 hx
    exact hq n k j i m n0 n1 k0 k1 j0 j1 i0 i1 m0 m1

/-- The hypotheses are met: 2x3x3x3 active cells of a 4D array travel to the ghost corner of another
one through a buffer elsewhere. -/
example : let src := new4 0 2 7 7 7; let dst := new4 1000 2 7 7 7
    (src.base + src.size ≤ 5000 + 10 ∨ 5000 + 10 + 54 ≤ src.base) ∧
    (dst.base + dst.size ≤ 5000 + 10 ∨ 5000 + 10 + 54 ≤ dst.base) ∧
    (0 ≤ (2 : Int) + -2 ∧ (4 : Int) + -2 < dst.nx1) := by decide

end Verif.Arr
