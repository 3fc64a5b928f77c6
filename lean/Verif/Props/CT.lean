import Verif.Lemmas.CT
import Mathlib.Algebra.Field.Rat
import Mathlib.Tactic.NormNum
import Mathlib.Tactic.LinearCombination

/-!
# Constrained transport keeps the divergence (C40)

Exact arithmetic over an arbitrary field; any edge lengths, face areas and electric fields.
-/
namespace Verif.Grid
variable {K : Type} [Field K]

section
variable {d : Dims} (hd : d.Ok) {pin pout : Bool} {G : Geom K} {len e : EF K} {w : K} {b : FF K} {k j i : Int}
  (hk : d.ks ≤ k ∧ k ≤ d.ke) (hj : d.js ≤ j ∧ j ≤ d.je) (hi : d.is ≤ i ∧ i ≤ d.ie)
  (h1 : G.a1 (k, j, i) ≠ 0 ∧ G.a1 (k, j, i+1) ≠ 0)
  (h2 : (G.a2 (k, j, i) ≠ 0 ∨ (j = d.js ∧ pin = true)) ∧ (G.a2 (k, j+1, i) ≠ 0 ∨ (j = d.je ∧ pout = true)))
  (h3 : G.a3 (k, j, i) ≠ 0 ∧ G.a3 (k+1, j, i) ≠ 0)
  (hpi : pin = true → AtPole d G len e d.js) (hpo : pout = true → AtPole d G len e (d.je + 1))

theorem mul_step {a x w c : K} (h : a ≠ 0) : a * (x + (w / a) * c) = a * x + w * c := by
  rw [mul_add, ← mul_assoc, mul_div_cancel₀ _ h]

include hk hj hi h1 in
theorem ct_out1 : out1 G (ct d pin pout G len e w b) k j i = out1 G b k j i +
    if 1 < d.nx2 then w * (
      (-(e.line3 len k (j+1) (i+1) - e.line3 len k j (i+1)) +
        if 1 < d.nx3 then e.line2 len (k+1) j (i+1) - e.line2 len k j (i+1) else 0) -
      (-(e.line3 len k (j+1) i - e.line3 len k j i) +
        if 1 < d.nx3 then e.line2 len (k+1) j i - e.line2 len k j i else 0)) else 0 := by
  unfold out1 ct
  simp only [ctB1_eq]
  by_cases n2 : 1 < d.nx2
  · simp only [n2, true_and, if_true]
    have c1 : d.ks ≤ k ∧ k ≤ d.ke ∧ d.js ≤ j ∧ j ≤ d.je ∧ d.is ≤ i + 1 ∧ i + 1 ≤ d.ie + 1 := by omega
    have c2 : d.ks ≤ k ∧ k ≤ d.ke ∧ d.js ≤ j ∧ j ≤ d.je ∧ d.is ≤ i ∧ i ≤ d.ie + 1 := by omega
    rw [if_pos c1, if_pos c2, mul_step h1.1, mul_step h1.2]
    ring
  · simp only [n2, false_and, if_false, add_zero]

include hk hj hi h2 hpi hpo in
theorem ct_out2 : out2 G (ct d pin pout G len e w b) k j i = out2 G b k j i + w * (
      ((e.line3 len k (j+1) (i+1) - e.line3 len k (j+1) i) -
        if 1 < d.nx3 then e.line1 len (k+1) (j+1) i - e.line1 len k (j+1) i else 0) -
      ((e.line3 len k j (i+1) - e.line3 len k j i) -
        if 1 < d.nx3 then e.line1 len (k+1) j i - e.line1 len k j i else 0)) := by
  have lower : G.a2 (k, j, i) * (ct d pin pout G len e w b).x2f (k, j, i) = G.a2 (k, j, i) * b.x2f (k, j, i) +
      w * ((e.line3 len k j (i+1) - e.line3 len k j i) -
        if 1 < d.nx3 then e.line1 len (k+1) j i - e.line1 len k j i else 0) := by
    simp only [ct, ctB2_eq]
    by_cases hp : j = d.js ∧ pin = true
    · obtain ⟨rfl, hp⟩ := hp
      have P := hpi hp
      rw [if_neg (by rw [hp]; simp), P.area]
      unfold EF.line3
      rw [P.around, P.around]
      by_cases n3 : 1 < d.nx3
      · rw [if_pos n3, P.along n3 k i hk.1 hk.2 hi.1 hi.2]; ring
      · rw [if_neg n3]; ring
    · rw [if_pos, mul_step (h2.1.resolve_right hp)]
      refine ⟨hk.1, hk.2, ?_, ?_, hi.1, hi.2⟩
      · show _ ≤ j; split
        · rename_i h; have : j ≠ d.js := fun hh => hp ⟨hh, h⟩; omega
        · omega
      · show j ≤ _; split <;> omega
  have upper : G.a2 (k, j+1, i) * (ct d pin pout G len e w b).x2f (k, j+1, i) = G.a2 (k, j+1, i) * b.x2f (k, j+1, i) +
      w * ((e.line3 len k (j+1) (i+1) - e.line3 len k (j+1) i) -
        if 1 < d.nx3 then e.line1 len (k+1) (j+1) i - e.line1 len k (j+1) i else 0) := by
    simp only [ct, ctB2_eq]
    by_cases hp : j = d.je ∧ pout = true
    · obtain ⟨rfl, hp⟩ := hp
      have P := hpo hp
      rw [if_neg (by rw [hp]; simp), P.area]
      unfold EF.line3
      rw [P.around, P.around]
      by_cases n3 : 1 < d.nx3
      · rw [if_pos n3, P.along n3 k i hk.1 hk.2 hi.1 hi.2]; ring
      · rw [if_neg n3]; ring
    · rw [if_pos, mul_step (h2.2.resolve_right hp)]
      refine ⟨hk.1, hk.2, ?_, ?_, hi.1, hi.2⟩
      · show _ ≤ j + 1; split <;> omega
      · show j + 1 ≤ _; split
        · rename_i h; have : j ≠ d.je := fun hh => hp ⟨hh, h⟩; omega
        · omega
  unfold out2
  rw [lower, upper]; ring

include hk hj hi h3 in
theorem ct_out3 : out3 G (ct d pin pout G len e w b) k j i = out3 G b k j i + w * (
      (-(e.line2 len (k+1) j (i+1) - e.line2 len (k+1) j i) +
        if 1 < d.nx2 then e.line1 len (k+1) (j+1) i - e.line1 len (k+1) j i else 0) -
      (-(e.line2 len k j (i+1) - e.line2 len k j i) +
        if 1 < d.nx2 then e.line1 len k (j+1) i - e.line1 len k j i else 0)) := by
  unfold out3 ct
  simp only [ctB3_eq]
  have c1 : d.ks ≤ k + 1 ∧ k + 1 ≤ d.ke + 1 ∧ d.js ≤ j ∧ j ≤ d.je ∧ d.is ≤ i ∧ i ≤ d.ie := by omega
  have c2 : d.ks ≤ k ∧ k ≤ d.ke + 1 ∧ d.js ≤ j ∧ j ≤ d.je ∧ d.is ≤ i ∧ i ≤ d.ie := by omega
  rw [if_pos c1, if_pos c2, mul_step h3.1, mul_step h3.2]
  ring

include hd hk hj hi h1 h2 h3 hpi hpo in
/-- **C40** The update leaves the divergence in every active cell unchanged, for any electric fields; next to a pole under the
conditions the pole treatment provides. -/
theorem ct_keeps_divergence : divB d G (ct d pin pout G len e w b) k j i = divB d G b k j i := by
  unfold divB
  rw [ct_out1 hk hj hi h1, ct_out2 hk hj hi h2 hpi hpo, ct_out3 hk hj hi h3]
  by_cases n3 : 1 < d.nx3
  · have n2 := hd.ord n3
    simp only [n2, n3, if_true]; ring
  · by_cases n2 : 1 < d.nx2
    · simp only [n2, n3, if_true, if_false]; ring
    · simp only [n2, n3, if_false]; ring

include hk hj hi h1 h2 h3 hpi hpo in
/-- **C40** In one and two dimensions the six faces taken together balance as well if the electric field does not depend on
the absent coordinates (as the code that computes it provides). -/
theorem ct_keeps_divergence_all_faces
    (f2 : ¬ 1 < d.nx2 → ∀ i, e.line3 len k (j+1) i = e.line3 len k j i)
    (f3 : ¬ 1 < d.nx3 → ∀ j i, e.line1 len (k+1) j i = e.line1 len k j i ∧ e.line2 len (k+1) j i = e.line2 len k j i)
    (ord : 1 < d.nx3 → 1 < d.nx2) :
    divB6 G (ct d pin pout G len e w b) k j i = divB6 G b k j i := by
  unfold divB6
  rw [ct_out1 hk hj hi h1, ct_out2 hk hj hi h2 hpi hpo, ct_out3 hk hj hi h3]
  by_cases n3 : 1 < d.nx3
  · have n2 := ord n3
    simp only [n2, n3, if_true]; ring
  · have g3 := f3 n3
    by_cases n2 : 1 < d.nx2
    · simp only [n2, n3, if_true, if_false, (g3 _ _).1, (g3 _ _).2]; ring
    · simp only [n2, n3, if_false, f2 n2, (g3 _ _).2]; ring

end

/-- **C40** Only faces of active cells change. -/
theorem ct_only_active (d : Dims) (pin pout : Bool) (G : Geom K) (len e : EF K) (w : K) (b : FF K) (k j i : Int) :
    (¬ (d.ks ≤ k ∧ k ≤ d.ke ∧ d.js ≤ j ∧ j ≤ d.je ∧ d.is ≤ i ∧ i ≤ d.ie + 1) →
      (ct d pin pout G len e w b).x1f (k, j, i) = b.x1f (k, j, i)) ∧
    (¬ (d.ks ≤ k ∧ k ≤ d.ke ∧ d.js ≤ j ∧ j ≤ d.je + 1 ∧ d.is ≤ i ∧ i ≤ d.ie) →
      (ct d pin pout G len e w b).x2f (k, j, i) = b.x2f (k, j, i)) ∧
    (¬ (d.ks ≤ k ∧ k ≤ d.ke + 1 ∧ d.js ≤ j ∧ j ≤ d.je ∧ d.is ≤ i ∧ i ≤ d.ie) →
      (ct d pin pout G len e w b).x3f (k, j, i) = b.x3f (k, j, i)) := by
  refine ⟨?_, ?_, ?_⟩ <;> intro h
  · simp only [ct, ctB1_eq]
    rw [if_neg (fun h' => h h'.2)]
  · simp only [ct, ctB2_eq]
    rw [if_neg]
    rintro ⟨a1, a2, a3, a4, a5, a6⟩
    apply h
    refine ⟨a1, a2, ?_, ?_, a5, a6⟩
    · revert a3; split <;> intro <;> omega
    · revert a4; split <;> intro <;> omega
  · simp only [ct, ctB3_eq]
    rw [if_neg h]

/-- **C40** Two blocks sharing a face change the field on it by the same amount if they hold the same electric fields, lengths
and areas there: here the x1 face, `i` on one side and `i'` on the other. -/
theorem ct_shared_face (d : Dims) (pin pout pin' pout' : Bool) (G G' : Geom K) (len len' e e' : EF K) (w : K) (b b' : FF K)
    {k j i i' : Int} (hi : d.is ≤ i ∧ i ≤ d.ie + 1) (hi' : d.is ≤ i' ∧ i' ≤ d.ie + 1)
    (ha : G.a1 (k, j, i) = G'.a1 (k, j, i'))
    (he2 : ∀ k, e.line2 len k j i = e'.line2 len' k j i') (he3 : ∀ j, e.line3 len k j i = e'.line3 len' k j i')
    (hb : b.x1f (k, j, i) = b'.x1f (k, j, i')) :
    (ct d pin pout G len e w b).x1f (k, j, i) = (ct d pin' pout' G' len' e' w b').x1f (k, j, i') := by
  simp only [ct, ctB1_eq, ha, hb, he2, he3, hi.1, hi.2, hi'.1, hi'.2, and_true]

/-! A case: three dimensions with a pole at the inner side, cell next to the pole. -/

example :
    let d : Dims := ⟨2, 4, 4, 4⟩
    let G : Geom Rat := ⟨fun q => 1 + q.2.2 ^ 2, fun q => q.2.1 - 2, fun _ => 1, fun _ => 1⟩
    let len : EF Rat := ⟨fun q => 1 + q.1 ^ 2, fun _ => 1, fun q => q.2.1 - 2⟩
    let e : EF Rat := ⟨fun q => q.2.1 * q.2.2 / (1 + q.1 ^ 2), fun q => q.1 * q.2.2, fun q => q.1 + q.2.2⟩
    d.Ok ∧ AtPole d G len e d.js ∧ (d.ks ≤ 3 ∧ 3 ≤ d.ke) ∧ (d.js ≤ 2 ∧ 2 ≤ d.je) ∧ (d.is ≤ 4 ∧ 4 ≤ d.ie) ∧
      (G.a1 (3, 2, 4) ≠ 0 ∧ G.a1 (3, 2, 5) ≠ 0) ∧
      ((G.a2 (3, 2, 4) ≠ 0 ∨ ((2 : Int) = d.js ∧ true = true)) ∧ (G.a2 (3, 3, 4) ≠ 0 ∨ ((2 : Int) = d.je ∧ false = true))) ∧
      (G.a3 (3, 2, 4) ≠ 0 ∧ G.a3 (4, 2, 4) ≠ 0) := by
  intro d G len e
  refine ⟨⟨by decide, by decide, by decide, by decide⟩, ⟨?_, ?_, ?_⟩, by decide, by decide, by decide, ?_, ?_, ?_⟩
  · intro k i; simp [G, d, Dims.js]
  · intro k i; simp [len, d, Dims.js]
  · intro _ k i _ _ _ _
    simp only [EF.line1, e, len]
    have h : ∀ x : Rat, (1 + x ^ 2) ≠ 0 := fun x => by positivity
    rw [mul_div_cancel₀ _ (h _), mul_div_cancel₀ _ (h _)]
  · norm_num [G]
  · norm_num [G, d, Dims.js]
  · norm_num [G]

end Verif.Grid
