import Verif.Lemmas.FaceExchange
import Verif.Props.EmfExchange

/-!
# C90: face-centered fields in the ghost zones
-/

namespace Verif.FaceEx

open Verif.Arr (rng mem_rng length_rng)
open Verif.Grid (Dims)
open Verif.Emf (Pos Loc Mesh shiftLoc move ie_eq je_eq ke_eq)
open Verif.Emf.Spec (HoldsFace place)
open Spec

variable {K : Type} {d : Dims}

/-- What a neighbor sends are faces that it has. -/
theorem written_held (h2 : 1 < d.nx2) (h3 : 1 < d.nx3)
    (n1 : d.ng ≤ d.nx1) (n2 : d.ng ≤ d.nx2) (n3 : d.ng ≤ d.nx3) (ml : Bool) {l o : Loc}
    (ho : o ∈ offsets) (c : Fin 3) (g : Int × Int × Int)
    (h : place d c g l ∈ setPos d ml o) : HoldsFace d c g (shiftLoc l o) := by
  obtain ⟨g3, g2, g1⟩ := g
  obtain ⟨l1, l2, l3⟩ := l
  obtain ⟨o1, o2, o3⟩ := o
  obtain ⟨s1, s2, s3, _⟩ := mem_offsets.mp ho
  unfold place at h
  rw [mem_setPos] at h
  obtain ⟨⟨a1, a2⟩, ⟨b1, b2⟩, ⟨c1, c2⟩⟩ := h
  have i3 := iv_in (ke_eq h3) n3 s3 a1 a2
  have i2 := iv_in (je_eq h2) n2 s2 b1 b2
  have i1 := iv_in (ie_eq d) n1 s1 c1 c2
  have m1 : d.nx1 * (l1 + o1) = d.nx1 * l1 + d.nx1 * o1 := by ring
  have m2 : d.nx2 * (l2 + o2) = d.nx2 * l2 + d.nx2 * o2 := by ring
  have m3 : d.nx3 * (l3 + o3) = d.nx3 * l3 + d.nx3 * o3 := by ring
  simp only [beq_iff_eq] at i1 i2 i3
  unfold HoldsFace shiftLoc
  dsimp only at i1 i2 i3 ⊢
  rw [m1, m2, m3]
  refine ⟨⟨by omega, by omega⟩, ⟨by omega, by omega⟩, ⟨by omega, by omega⟩⟩

/-- **C90** After the exchange every face in the arrays of a block, ghost zones included, has the
number that the blocks of the mesh have on this face - if there is one; whatever the order of the
messages, and also with the larger messages of a multilevel mesh. -/
theorem ghost_faces (h2 : 1 < d.nx2) (h3 : 1 < d.nx3) (h1 : 0 < d.nx1)
    (n1 : d.ng ≤ d.nx1) (n2 : d.ng ≤ d.nx2) (n3 : d.ng ≤ d.nx3) (ml : Bool) (M : Mesh)
    (hM : IsBox M) (order : List Loc) (hord : ∀ o, o ∈ order ↔ o ∈ offsets)
    (b : Loc → Faces K) (hb : Agree d M b) (l : Loc) (hl : M l = true) (c : Fin 3)
    (g : Int × Int × Int) (hw : Within d c g l) (l' : Loc) (hl' : M l' = true)
    (hh : HoldsFace d c g l') :
    exchange d ml M order b l (place d c g l) = b l' (place d c g l') := by
  have hv : ∀ o ∈ order, M (shiftLoc l o) = true → place d c g l ∈ setPos d ml o →
      b (shiftLoc l o) (move d o (place d c g l)) = b l' (place d c g l') := by
    intro o ho hMo hp
    rw [Emf.place_shift]
    exact hb c g _ _ hMo hl'
      (written_held h2 h3 n1 n2 n3 ml ((hord o).mp ho) c g hp) hh
  obtain ⟨E1, E2⟩ := exchange_eq h2 h3 ml M order (fun o h => (hord o).mp h) b l _ _ hv
  by_cases hL : HoldsFace d c g l
  · by_cases hx : ∃ o ∈ order, M (shiftLoc l o) = true ∧ place d c g l ∈ setPos d ml o
    · exact E1 hx
    · rw [E2 hx]
      exact hb c g _ _ hl hl' hL hh
  · apply E1
    obtain ⟨g3, g2, g1⟩ := g
    obtain ⟨l1, l2, l3⟩ := l
    obtain ⟨k1, k2, k3⟩ := l'
    obtain ⟨A, B, C, cA, cB, cC, hABC⟩ := hM
    obtain ⟨⟨w1, w2⟩, ⟨w3, w4⟩, ⟨w5, w6⟩⟩ := hw
    obtain ⟨⟨u1, u2⟩, ⟨u3, u4⟩, ⟨u5, u6⟩⟩ := hh
    dsimp only at w1 w2 w3 w4 w5 w6 u1 u2 u3 u4 u5 u6
    have m1 : d.nx1 * k1 = d.nx1 * l1 + d.nx1 * (k1 - l1) := by ring
    have m2 : d.nx2 * k2 = d.nx2 * l2 + d.nx2 * (k2 - l2) := by ring
    have m3 : d.nx3 * k3 = d.nx3 * l3 + d.nx3 * (k3 - l3) := by ring
    rw [m1] at u1 u2
    rw [m2] at u3 u4
    rw [m3] at u5 u6
    rw [hABC] at hl hl'
    simp only [Bool.and_eq_true] at hl hl'
    -- the choice of the neighbor does not depend on the larger messages
    have main : ∃ o : Loc, o ∈ offsets ∧ M (shiftLoc (l1, l2, l3) o) = true ∧
        ∀ ml, place d c (g3, g2, g1) (l1, l2, l3) ∈ setPos d ml o := by
      obtain ⟨o1, s1, p1, q1, t1, z1⟩ := iv_choice (c == 0) false (ng := d.ng) (ie_eq d) h1
        (y := k1 - l1) (r := g1 - d.nx1 * l1) (by omega) (by simp only [beq_iff_eq]; omega)
        (by omega) (by simp only [beq_iff_eq]; omega)
      obtain ⟨o2, s2, p2, q2, t2, z2⟩ := iv_choice (c == 1) false (ng := d.ng) (je_eq h2) (by omega)
        (y := k2 - l2) (r := g2 - d.nx2 * l2) (by omega) (by simp only [beq_iff_eq]; omega)
        (by omega) (by simp only [beq_iff_eq]; omega)
      obtain ⟨o3, s3, p3, q3, t3, z3⟩ := iv_choice (c == 2) false (ng := d.ng) (ke_eq h3) (by omega)
        (y := k3 - l3) (r := g3 - d.nx3 * l3) (by omega) (by simp only [beq_iff_eq]; omega)
        (by omega) (by simp only [beq_iff_eq]; omega)
      have larger : ∀ (nrm x : Bool) (s e o r : Int), (iv nrm s e d.ng false o).1 ≤ r →
          r ≤ (iv nrm s e d.ng false o).2 →
          (iv nrm s e d.ng x o).1 ≤ r ∧ r ≤ (iv nrm s e d.ng x o).2 := by
        intro nrm x s e o r a b
        cases nrm
        · exact ⟨a, b⟩
        · cases x
          · exact ⟨a, b⟩
          · simp only [iv, faceSet, if_true] at a b ⊢
            by_cases e0 : o = 0
            · simp only [e0, if_true] at a b ⊢; exact ⟨a, b⟩
            · by_cases e1 : o > 0
              · simp only [e0, e1, if_true, if_false] at a b ⊢
                simp only [Bool.false_eq_true, if_false] at a b
                omega
              · simp only [e0, e1, if_true, if_false] at a b ⊢
                simp only [Bool.false_eq_true, if_false] at a b
                omega
      refine ⟨(o1, o2, o3), ?_, ?_, ?_⟩
      · rw [mem_offsets]
        refine ⟨s1, s2, s3, ?_⟩
        intro h0
        simp only [Prod.mk.injEq] at h0
        apply hL
        have y1 := z1 h0.1
        have y2 := z2 h0.2.1
        have y3 := z3 h0.2.2
        simp only [beq_iff_eq] at y1 y2 y3
        refine ⟨⟨?_, ?_⟩, ⟨?_, ?_⟩, ⟨?_, ?_⟩⟩ <;> dsimp only <;> omega
      · rw [hABC]
        simp only [shiftLoc, Bool.and_eq_true]
        have near : ∀ (A : Int → Bool), Convex A → ∀ a k o : Int, A a = true → A k = true →
            (0 ≤ o ∧ o ≤ k - a ∨ k - a ≤ o ∧ o ≤ 0) → A (a + o) = true := by
          intro A cA a k o ha hk h
          rcases h with h | h
          · exact cA a (a + o) k (by omega) (by omega) ha hk
          · exact cA k (a + o) a (by omega) (by omega) hk ha
        exact ⟨⟨near A cA _ _ _ hl.1.1 hl'.1.1 t1, near B cB _ _ _ hl.1.2 hl'.1.2 t2⟩,
          near C cC _ _ _ hl.2 hl'.2 t3⟩
      · intro ml
        unfold place
        rw [mem_setPos]
        exact ⟨larger _ _ _ _ _ _ p3 q3, larger _ _ _ _ _ _ p2 q2, larger _ _ _ _ _ _ p1 q1⟩
    obtain ⟨o, ho, hMo, hp⟩ := main
    exact ⟨o, (hord o).mpr ho, hMo, hp ml⟩

/-- **C90** Faces beyond the mesh are left to the physical boundary conditions. -/
theorem outer_faces (h2 : 1 < d.nx2) (h3 : 1 < d.nx3)
    (n1 : d.ng ≤ d.nx1) (n2 : d.ng ≤ d.nx2) (n3 : d.ng ≤ d.nx3) (ml : Bool) (M : Mesh)
    (order : List Loc) (hord : ∀ o, o ∈ order ↔ o ∈ offsets) (b : Loc → Faces K) (l : Loc)
    (c : Fin 3) (g : Int × Int × Int) (hno : ∀ x, M x = true → ¬ HoldsFace d c g x) :
    exchange d ml M order b l (place d c g l) = b l (place d c g l) := by
  have no : ¬ ∃ o ∈ order, M (shiftLoc l o) = true ∧ place d c g l ∈ setPos d ml o := by
    rintro ⟨o, ho, hMo, hp⟩
    exact hno _ hMo (written_held h2 h3 n1 n2 n3 ml ((hord o).mp ho) c g hp)
  exact (exchange_eq h2 h3 ml M order (fun o h => (hord o).mp h) b l _ (b l (place d c g l))
    (fun o ho hMo hp => absurd ⟨o, ho, hMo, hp⟩ no)).2 no

/-- **C90** On a mesh of one level the exchange writes no face that the block has itself, whatever
the neighbors send. -/
theorem active_faces (h2 : 1 < d.nx2) (h3 : 1 < d.nx3) (M : Mesh)
    (order : List Loc) (hord : ∀ o, o ∈ order ↔ o ∈ offsets) (b : Loc → Faces K) (l : Loc)
    (c : Fin 3) (g : Int × Int × Int) (hh : HoldsFace d c g l) :
    exchange d false M order b l (place d c g l) = b l (place d c g l) := by
  have no : ¬ ∃ o ∈ order, M (shiftLoc l o) = true ∧ place d c g l ∈ setPos d false o := by
    rintro ⟨o, ho, _, hp⟩
    obtain ⟨s1, s2, s3, s0⟩ := mem_offsets.mp ((hord o).mp ho)
    obtain ⟨⟨u1, u2⟩, ⟨u3, u4⟩, ⟨u5, u6⟩⟩ := hh
    unfold place at hp
    rw [mem_setPos] at hp
    obtain ⟨⟨a1, a2⟩, ⟨b1, b2⟩, ⟨c1, c2⟩⟩ := hp
    have zero : ∀ (nrm : Bool) (s e n o r : Int), e + 1 = s + n → Step o → 0 ≤ r →
        r ≤ n - (if nrm = true then 0 else 1) → (iv nrm s e d.ng false o).1 ≤ r + s →
        r + s ≤ (iv nrm s e d.ng false o).2 → o = 0 := by
      intro nrm s e n o r h ho r0 r1 q1 q2
      rcases ho with rfl | rfl | rfl
      · cases nrm <;> simp [iv, faceSet, cellSet] at q1 q2 r1 <;> omega
      · rfl
      · cases nrm <;> simp [iv, faceSet, cellSet] at q1 q2 r1 <;> omega
    rw [Bool.false_and] at a1 a2 b1 b2 c1 c2
    have z1 := zero (c == 0) _ _ _ _ _ (ie_eq d) s1 (by omega)
      (by simp only [beq_iff_eq]; omega) c1 c2
    have z2 := zero (c == 1) _ _ _ _ _ (je_eq h2) s2 (by omega)
      (by simp only [beq_iff_eq]; omega) b1 b2
    have z3 := zero (c == 2) _ _ _ _ _ (ke_eq h3) s3 (by omega)
      (by simp only [beq_iff_eq]; omega) a1 a2
    apply s0
    obtain ⟨o1, o2, o3⟩ := o
    dsimp only at z1 z2 z3
    rw [z1, z2, z3]
  exact (exchange_eq h2 h3 false M order (fun o h => (hord o).mp h) b l _ (b l (place d c g l))
    (fun o ho hMo hp => absurd ⟨o, ho, hMo, hp⟩ no)).2 no

theorem length_box (c : Fin 3) (k j i : Iv) : (box c k j i).length =
    (k.2 + 1 - k.1).toNat * ((j.2 + 1 - j.1).toNat * (i.2 + 1 - i.1).toNat) := by
  unfold box
  simp only [List.length_flatMap, List.length_map, length_rng, List.map_const', List.sum_replicate,
    nsmul_eq_mul, Nat.cast_id]

/-- **C90** The message has as many numbers as the receiver reads, and the buffer of
`ComputeVariableBufferSize` has room for them: it is used to the last place. -/
theorem message_size (h2 : 1 < d.nx2) (h3 : 1 < d.nx3) (h1 : 0 < d.nx1) (hng : 0 < d.ng) (ml : Bool)
    {o : Loc} (ho : o ∈ offsets) :
    ((loadPos d ml o).length : Int) = bufSize d ml o ∧
      (loadPos d ml (opp o)).length = (setPos d ml o).length := by
  refine ⟨?_, by rw [load_eq h2 h3 ml ho, List.length_map]⟩
  obtain ⟨s1, s2, s3, _⟩ := mem_offsets.mp ho
  have cell : ∀ s e n o : Int, e + 1 = s + n → 0 < n → Step o →
      (((cellLoad s e d.ng o).2 + 1 - (cellLoad s e d.ng o).1).toNat : Int) =
        if o = 0 then n else d.ng := by
    intro s e n o h hn ho
    rcases ho with rfl | rfl | rfl <;> simp [cellLoad] <;> omega
  have fac : ∀ (s e n o : Int) (x : Bool), e + 1 = s + n → 0 < n → Step o →
      (((faceLoad s e d.ng x o).2 + 1 - (faceLoad s e d.ng x o).1).toNat : Int) =
        if o = 0 then n + 1 else if x then d.ng + 1 else d.ng := by
    intro s e n o x h hn ho
    rcases ho with rfl | rfl | rfl <;> cases x <;> simp [faceLoad] <;> omega
  have hd : ∀ a : Int, d.ng * a / d.ng = a := fun a => Int.mul_ediv_cancel_left a hng.ne'
  unfold loadPos bufSize
  simp only [List.length_append, length_box]
  push_cast
  rw [cell _ _ _ _ (ie_eq d) h1 s1, cell _ _ _ _ (je_eq h2) (by omega) s2,
    cell _ _ _ _ (ke_eq h3) (by omega) s3, fac _ _ _ _ _ (ie_eq d) h1 s1,
    fac _ _ _ _ _ (je_eq h2) (by omega) s2, fac _ _ _ _ _ (ke_eq h3) (by omega) s3]
  cases hx : (ml && notFace o)
  · simp only [Bool.false_eq_true, if_false]
    ring
  · simp only [if_true]
    have t1 : ∀ y z : Int, (if o.1 ≠ 0 then
        ((if o.1 = 0 then d.nx1 + 1 else d.ng) * y * z) / d.ng * (d.ng + 1)
        else (if o.1 = 0 then d.nx1 + 1 else d.ng) * y * z) =
        z * (y * if o.1 = 0 then d.nx1 + 1 else d.ng + 1) := by
      intro y z
      by_cases h : o.1 = 0
      · simp only [h, ne_eq, not_true, if_true, if_false]; ring
      · simp only [h, ne_eq, not_false_iff, if_true, if_false]
        rw [show d.ng * y * z = d.ng * (y * z) by ring, hd]; ring
    have t2 : ∀ y z : Int, (if o.2.1 ≠ 0 then
        (y * (if o.2.1 = 0 then d.nx2 + 1 else d.ng) * z) / d.ng * (d.ng + 1)
        else y * (if o.2.1 = 0 then d.nx2 + 1 else d.ng) * z) =
        z * ((if o.2.1 = 0 then d.nx2 + 1 else d.ng + 1) * y) := by
      intro y z
      by_cases h : o.2.1 = 0
      · simp only [h, ne_eq, not_true, if_true, if_false]; ring
      · simp only [h, ne_eq, not_false_iff, if_true, if_false]
        rw [show y * d.ng * z = d.ng * (y * z) by ring, hd]; ring
    have t3 : ∀ y z : Int, (if o.2.2 ≠ 0 then
        (y * z * (if o.2.2 = 0 then d.nx3 + 1 else d.ng)) / d.ng * (d.ng + 1)
        else y * z * (if o.2.2 = 0 then d.nx3 + 1 else d.ng)) =
        (if o.2.2 = 0 then d.nx3 + 1 else d.ng + 1) * (z * y) := by
      intro y z
      by_cases h : o.2.2 = 0
      · simp only [h, ne_eq, not_true, if_true, if_false]; ring
      · simp only [h, ne_eq, not_false_iff, if_true, if_false]
        rw [show y * z * d.ng = d.ng * (y * z) by ring, hd]; ring
    rw [t1, t2, t3]

/-! A case: two blocks of four cells each way, the field a function of the place in the mesh. -/

section Case

def caseDims : Dims := ⟨2, 4, 4, 4⟩

def caseMesh : Mesh := fun l => (decide (0 ≤ l.1) && decide (l.1 ≤ 1)) && decide (l.2.1 = 0) &&
  decide (l.2.2 = 0)

def caseFaces : Loc → Faces Int := fun l p =>
  p.1.val + 10 * (p.2.2.2 + 4 * l.1) + 100 * (p.2.2.1 + 4 * l.2.1) + 1000 * (p.2.1 + 4 * l.2.2)

example : IsBox caseMesh ∧ Agree caseDims caseMesh caseFaces ∧ caseMesh (0, 0, 0) = true ∧
    caseMesh (1, 0, 0) = true ∧ Within caseDims 0 (1, 1, 6) (0, 0, 0) ∧
    HoldsFace caseDims 0 (1, 1, 6) (1, 0, 0) ∧
    (∀ x, caseMesh x = true → ¬ HoldsFace caseDims 0 (1, 1, -2) x) := by
  refine ⟨⟨fun a => decide (0 ≤ a) && decide (a ≤ 1), fun a => decide (a = 0),
    fun a => decide (a = 0), ?_, ?_, ?_, fun l => rfl⟩, ?_, by decide, by decide, ?_, ?_, ?_⟩
  · intro a b c h1 h2 h3 h4
    simp only [Bool.and_eq_true, decide_eq_true_eq] at h3 h4 ⊢
    omega
  · intro a b c h1 h2 h3 h4
    simp only [decide_eq_true_eq] at h3 h4 ⊢
    omega
  · intro a b c h1 h2 h3 h4
    simp only [decide_eq_true_eq] at h3 h4 ⊢
    omega
  · intro c g l l' _ _ _ _
    simp only [caseFaces, place, caseDims]
    ring
  · unfold Within caseDims; decide
  · unfold HoldsFace caseDims; decide
  · intro x hx h
    simp only [caseMesh, Bool.and_eq_true, decide_eq_true_eq] at hx
    obtain ⟨⟨a, b⟩, _⟩ := h
    simp only [caseDims] at a b
    omega

end Case

end Verif.FaceEx
