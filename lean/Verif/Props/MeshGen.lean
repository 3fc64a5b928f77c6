import Verif.Lemmas.MeshGen
import Verif.Spec.Smr

/-!
# C51: mesh spacing

Generators increase strictly and map the logical interval onto the mesh; faces of all blocks, at all
levels, active and ghost, fine and coarse, are positions of one increasing sequence per level, and
nested between levels.
-/
namespace Verif.MeshGen
open Verif.Arr

/-! ## Generators -/

theorem rpow_cases {r : ℝ} (h0 : 0 < r) (h1 : r ≠ 1) :
    (1 < r ∧ StrictMono fun t : ℝ => r ^ t) ∨ (r < 1 ∧ StrictAnti fun t : ℝ => r ^ t) := by
  rcases lt_or_gt_of_ne h1 with h | h
  · exact Or.inr ⟨h, Real.strictAnti_rpow_of_base_lt_one h0 h⟩
  · exact Or.inl ⟨h, Real.strictMono_rpow_of_base_gt_one h⟩

theorem geo_frac {r : ℝ} (h0 : 0 < r) (h1 : r ≠ 1) {n : ℝ} (hn : 0 < n) :
    StrictMono fun t : ℝ => (r ^ t - 1) / (r ^ n - 1) := by
  rcases rpow_cases h0 h1 with ⟨h, hm⟩ | ⟨h, hm⟩
  · have : 0 < r ^ n - 1 := by
      have := hm hn
      simp only [Real.rpow_zero] at this
      linarith
    intro a b hab
    exact div_lt_div_of_pos_right (by have := hm hab; simp only at this; linarith) this
  · have : r ^ n - 1 < 0 := by
      have := hm hn
      simp only [Real.rpow_zero] at this
      linarith
    intro a b hab
    exact div_lt_div_of_neg_of_lt this (by have := hm hab; simp only at this; linarith)

theorem geo_ne {r : ℝ} (h0 : 0 < r) (h1 : r ≠ 1) {n : ℝ} (hn : 0 < n) : r ^ n - 1 ≠ 0 := by
  rcases rpow_cases h0 h1 with ⟨h, hm⟩ | ⟨h, hm⟩ <;>
  · have := hm hn
    simp only [Real.rpow_zero] at this
    intro h'
    linarith

theorem defaultGen_eq {ms : MSize} (h0 : 0 < ms.rat) (hn : 0 < ms.nx) (x : ℝ) :
    defaultGen x ms = ms.xmin + (ms.xmax - ms.xmin) *
      (if ms.rat = 1 then x else (ms.rat ^ (x * ms.nx) - 1) / (ms.rat ^ (ms.nx : ℝ) - 1)) := by
  unfold defaultGen
  split_ifs with h
  · simp only
    ring
  · have := geo_ne h0 h (n := ms.nx) (by exact_mod_cast hn)
    have h2 : 1 - ms.rat ^ (ms.nx : ℝ) ≠ 0 := by intro h'; exact this (by linarith)
    simp only
    field_simp
    ring

theorem nx_pos {d : Dir} (o : d.Ok) : 0 < d.ms.nx := by
  rw [o.cells]; exact Nat.mul_pos o.nrb o.bnx

/-- The generators the constructor selects increase strictly and map the ends of the logical
interval to the ends of the mesh, for every positive ratio. -/
theorem standard_genOk {ms : MSize} {nrb bnx ng : ℕ} {bi bo : BFlag} {mp : Bool}
    (o : (Dir.standard ms nrb bnx ng bi bo mp).Ok) : (Dir.standard ms nrb bnx ng bi bo mp).GenOk := by
  have hn := nx_pos o
  have hl := o.lt
  have hr := o.rat
  unfold Dir.standard at *
  split_ifs at * with h
  · simp only at hn hl hr
    have hn' : (0 : ℝ) < ms.nx := by exact_mod_cast hn
    refine ⟨?_, ?_, ?_, by simp⟩
    · intro a b hab
      simp only [defaultGen_eq hr hn, h, if_false]
      have := geo_frac hr h hn' (show a * ms.nx < b * ms.nx from mul_lt_mul_of_pos_right hab hn')
      simp only at this
      have := mul_lt_mul_of_pos_left this (show 0 < ms.xmax - ms.xmin by linarith)
      linarith
    · simp [defaultGen_eq hr hn, h]
    · simp only [Bool.false_eq_true, if_false, defaultGen_eq hr hn, h, one_mul]
      rw [div_self (geo_ne hr h hn')]
      ring
  · simp only at hn hl hr
    refine ⟨?_, ?_, ?_, fun _ => rfl⟩
    · intro a b hab
      simp only [uniformGen]
      nlinarith
    · simp only [if_true, uniformGen]; ring
    · simp only [if_true, uniformGen]; ring

/-- Faces of the standard meshes: geometric spacing. -/
theorem standard_pos {ms : MSize} {nrb bnx ng : ℕ} {bi bo : BFlag} {mp : Bool}
    (o : (Dir.standard ms nrb bnx ng bi bo mp).Ok) (lev : ℕ) (n : ℤ) :
    (Dir.standard ms nrb bnx ng bi bo mp).pos ((n : ℝ) / (((ms.nx : ℤ) * 2 ^ lev : ℤ) : ℝ)) = geoFace ms lev n := by
  have hn := nx_pos o
  have hr := o.rat
  have g := standard_genOk o
  unfold geoFace
  by_cases h : ms.rat = 1
  · rw [pos_uniform g (by simp [Dir.standard, h])]
    have e : (Dir.standard ms nrb bnx ng bi bo mp).ms = ms := by simp [Dir.standard, h]
    rw [e]
    rw [e] at hn
    have hn' : (0 : ℝ) < ms.nx := by exact_mod_cast hn
    simp only [h, if_true]
    push_cast
    field_simp
  · unfold Dir.pos
    simp only [Dir.standard, ne_eq, h, not_false_eq_true, if_true] at hn hr ⊢
    have hn' : (0 : ℝ) < ms.nx := by exact_mod_cast hn
    rw [if_neg Bool.false_ne_true, defaultGen_eq hr hn, if_neg h, if_neg not_false]
    congr 5
    push_cast
    field_simp

/-! ## Faces -/

variable {d : Dir} {lev : ℕ} {lx : ℤ} {coarse : Bool} {il iu : ℤ}

/-- All faces of a block: active faces are mesh faces of the block's level; ghost faces continue the
sequence, or mirror the active ones at a boundary that mirrors; widths are differences of faces. -/
theorem faces_spec (o : d.Ok) (g : d.GenOk) (hb : d.Cells coarse il iu) (hng : (d.ng : ℤ) ≤ iu + 1 - il)
    (s : Faces) :
    let F := faces d lev lx coarse il iu s
    let r := blockRange d lev lx
    let P := fun i => d.pos ((faceNo d lx coarse il i : ℝ) / (((d.ms.nx : ℤ) * 2 ^ lev : ℤ) : ℝ))
    (∀ i, il ≤ i → i ≤ iu + 1 → F.xf i = P i) ∧
    (∀ i, il - d.ng ≤ i → i < il → F.xf i = if mirrors d r.inner then 2 * F.xf il - F.xf (2 * il - i) else P i) ∧
    (∀ i, iu + 1 < i → i ≤ iu + 1 + d.ng →
      F.xf i = if mirrors d r.outer then 2 * F.xf (iu + 1) - F.xf (2 * (iu + 1) - i) else P i) ∧
    (∀ i, il - d.ng ≤ i → i ≤ iu + d.ng → F.dxf i = F.xf (i + 1) - F.xf i) := by
  intro F r P
  have hle := cells_le o hb
  set A := plain d lev lx coarse il iu s with hA
  have ax : ∀ i, il - d.ng ≤ i → i ≤ iu + d.ng + 1 → A.xf i = P i := fun i h1 h2 => plain_xf o g hb s i h1 h2
  have ad : ∀ i, il - d.ng ≤ i → i ≤ iu + d.ng → A.dxf i = A.xf (i + 1) - A.xf i := fun i h1 h2 => plain_dxf o g hb s i h1 h2
  set B := if mirrors d r.inner then mirrorInner d il A else A with hB
  have hF : F = if mirrors d r.outer then mirrorOuter d iu B else B := by
    simp only [F, faces_eq, hB, hA, r]
  -- the inner ghost zone
  have b1 : ∀ i, il ≤ i → B.xf i = A.xf i ∧ B.dxf i = A.dxf i := by
    intro i hi
    rw [hB]
    split_ifs with h
    · exact (mirrorInner_spec d il A (fun i h1 h2 => ad i (by omega) (by omega))).1 i (by omega)
    · exact ⟨rfl, rfl⟩
  have b2 : ∀ i, il - d.ng ≤ i → i < il → B.xf i = (if mirrors d r.inner then 2 * A.xf il - A.xf (2 * il - i) else P i) ∧
      B.dxf i = B.xf (i + 1) - B.xf i := by
    intro i h1 h2
    by_cases h : mirrors d r.inner
    · have hB' : B = mirrorInner d il A := by rw [hB, if_pos h]
      have hm := mirrorInner_spec d il A (fun i h1 h2 => ad i (by omega) (by omega))
      obtain ⟨m, hm1, hm2, rfl⟩ : ∃ m : ℕ, 1 ≤ m ∧ m ≤ d.ng ∧ i = il - m := ⟨(il - i).toNat, by omega, by omega, by omega⟩
      have e := hm.2 m hm1 hm2
      rw [← hB'] at e hm
      rw [if_pos h, show 2 * il - (il - (m : ℤ)) = il + m by ring]
      refine ⟨e.1, ?_⟩
      rw [e.1, e.2, ad _ (by omega) (by omega)]
      rcases Nat.eq_or_lt_of_le hm1 with h3 | h3
      · subst h3
        rw [show il - ((1 : ℕ) : ℤ) + 1 = il by simp, (b1 il le_rfl).1]
        simp only [Nat.cast_one, add_sub_cancel_right]
        ring
      · have e' := (hm.2 (m - 1) (by omega) (by omega)).1
        rw [show il - (((m - 1 : ℕ)) : ℤ) = il - (m : ℤ) + 1 by omega,
          show il + (((m - 1 : ℕ)) : ℤ) = il + (m : ℤ) - 1 by omega] at e'
        rw [e', show il + (m : ℤ) - 1 + 1 = il + m by ring]
        ring
    · have hB' : B = A := by rw [hB, if_neg h]
      rw [if_neg h, hB']
      exact ⟨ax i h1 (by omega), ad i h1 (by omega)⟩
  have bd : ∀ i, il - d.ng ≤ i → i ≤ iu + d.ng → B.dxf i = B.xf (i + 1) - B.xf i := by
    intro i h1 h2
    rcases lt_or_ge i il with h | h
    · exact (b2 i h1 h).2
    · rw [(b1 i h).1, (b1 i h).2, (b1 (i + 1) (by omega)).1, ad i h1 h2]
  -- the outer ghost zone
  have f1 : ∀ i, i ≤ iu + 1 → F.xf i = B.xf i := by
    intro i hi
    rw [hF]
    split_ifs with h
    · exact (mirrorOuter_spec d iu B (fun i h1 h2 => bd i (by omega) (by omega))).1 i (by omega)
    · rfl
  have f2 : ∀ i, iu + 1 < i → i ≤ iu + 1 + d.ng →
      F.xf i = if mirrors d r.outer then 2 * B.xf (iu + 1) - B.xf (2 * (iu + 1) - i) else P i := by
    intro i h1 h2
    by_cases h : mirrors d r.outer
    · have hm := (mirrorOuter_spec d iu B (fun i h1 h2 => bd i (by omega) (by omega))).2.2
      obtain ⟨m, hm1, hm2, rfl⟩ : ∃ m : ℕ, 1 ≤ m ∧ m ≤ d.ng ∧ i = iu + 1 + m :=
        ⟨(i - (iu + 1)).toNat, by omega, by omega, by omega⟩
      rw [if_pos h, show 2 * (iu + 1) - (iu + 1 + (m : ℤ)) = iu + 1 - m by ring, hF, if_pos h]
      exact (hm m hm1 hm2).1
    · rw [if_neg h, hF, if_neg h, (b1 i (by omega)).1]
      exact ax i (by omega) (by omega)
  refine ⟨fun i h1 h2 => ?_, fun i h1 h2 => ?_, fun i h1 h2 => ?_, fun i h1 h2 => ?_⟩
  · rw [f1 i h2, (b1 i h1).1, ax i (by omega) (by omega)]
  · rw [f1 i (by omega), (b2 i h1 h2).1, f1 il (by omega), f1 (2 * il - i) (by omega), (b1 il le_rfl).1,
      (b1 (2 * il - i) (by omega)).1]
  · rw [f2 i h1 h2, f1 (iu + 1) le_rfl, f1 (2 * (iu + 1) - i) (by omega)]
  · rcases le_or_gt i iu with h | h
    · rw [f1 i (by omega), f1 (i + 1) (by omega), ← bd i h1 h2, hF]
      split_ifs with h'
      · exact (mirrorOuter_spec d iu B (fun i h1 h2 => bd i (by omega) (by omega))).2.1 i (by omega)
      · rfl
    · by_cases h' : mirrors d r.outer
      · have hm := (mirrorOuter_spec d iu B (fun i h1 h2 => bd i (by omega) (by omega))).2.2
        obtain ⟨m, hm1, hm2, rfl⟩ : ∃ m : ℕ, 1 ≤ m ∧ m ≤ d.ng ∧ i = iu + m := ⟨(i - iu).toNat, by omega, by omega, by omega⟩
        have e1 : F.dxf (iu + m) = B.dxf (iu - m + 1) := by rw [hF, if_pos h']; exact (hm m hm1 hm2).2
        rw [e1, bd _ (by omega) (by omega), f2 (iu + m + 1) (by omega) (by omega), if_pos h']
        rcases Nat.eq_or_lt_of_le hm1 with h3 | h3
        · subst h3
          rw [f1 (iu + ((1 : ℕ) : ℤ)) (by omega)]
          simp only [Nat.cast_one]
          rw [show iu - 1 + 1 + 1 = iu + 1 by ring, show iu - 1 + 1 = iu by ring, show 2 * (iu + 1) - (iu + 1 + 1) = iu by ring]
          ring
        · rw [f2 (iu + m) (by omega) (by omega), if_pos h', show iu - (m : ℤ) + 1 + 1 = 2 * (iu + 1) - (iu + m) by ring,
            show iu - (m : ℤ) + 1 = 2 * (iu + 1) - (iu + m + 1) by ring]
          ring
      · rw [hF, if_neg h']
        exact bd i h1 h2

/-- Widths are positive in active and ghost cells: the faces of a block increase strictly. -/
theorem faces_increase (o : d.Ok) (g : d.GenOk) (hb : d.Cells coarse il iu) (hng : (d.ng : ℤ) ≤ iu + 1 - il)
    (s : Faces) (i : ℤ) (h1 : il - d.ng ≤ i) (h2 : i ≤ iu + d.ng) :
    0 < (faces d lev lx coarse il iu s).dxf i ∧
    (faces d lev lx coarse il iu s).xf i < (faces d lev lx coarse il iu s).xf (i + 1) := by
  obtain ⟨a1, a2, a3, a4⟩ := faces_spec (lev := lev) (lx := lx) o g hb hng s
  have hle := cells_le o hb
  set F := faces d lev lx coarse il iu s
  have hN : (0 : ℝ) < (((d.ms.nx : ℤ) * 2 ^ lev : ℤ) : ℝ) := by exact_mod_cast cells_pos o lev
  have hP : ∀ i, d.pos ((faceNo d lx coarse il i : ℝ) / (((d.ms.nx : ℤ) * 2 ^ lev : ℤ) : ℝ)) <
      d.pos ((faceNo d lx coarse il (i + 1) : ℝ) / (((d.ms.nx : ℤ) * 2 ^ lev : ℤ) : ℝ)) := by
    intro i
    apply pos_mono g
    apply div_lt_div_of_pos_right _ hN
    rw [faceNo_succ]
    have := stride_pos coarse
    exact_mod_cast (by omega : faceNo d lx coarse il i < faceNo d lx coarse il i + stride coarse)
  have act : ∀ i, il ≤ i → i ≤ iu → F.xf i < F.xf (i + 1) := fun i h1 h2 => by
    rw [a1 i h1 (by omega), a1 (i + 1) (by omega) (by omega)]; exact hP i
  have key : F.xf i < F.xf (i + 1) := by
    rcases lt_or_ge i il with h | h
    · by_cases hm : mirrors d (blockRange d lev lx).inner
      · have e := a2 i h1 h
        rw [if_pos hm] at e
        have e' : F.xf (i + 1) = 2 * F.xf il - F.xf (2 * il - (i + 1)) := by
          rcases lt_or_ge (i + 1) il with h' | h'
          · have := a2 (i + 1) (by omega) h'
            rwa [if_pos hm] at this
          · rw [show 2 * il - (i + 1) = il by omega, show i + 1 = il by omega]; ring
        have := act (2 * il - (i + 1)) (by omega) (by omega)
        rw [show 2 * il - (i + 1) + 1 = 2 * il - i by ring] at this
        rw [e, e']
        linarith
      · have e := a2 i h1 h
        rw [if_neg hm] at e
        have e' : F.xf (i + 1) = d.pos ((faceNo d lx coarse il (i + 1) : ℝ) / (((d.ms.nx : ℤ) * 2 ^ lev : ℤ) : ℝ)) := by
          rcases lt_or_ge (i + 1) il with h' | h'
          · have := a2 (i + 1) (by omega) h'
            rwa [if_neg hm] at this
          · exact a1 _ h' (by omega)
        rw [e, e']
        exact hP i
    · rcases le_or_gt i iu with h' | h'
      · exact act i h h'
      · by_cases hm : mirrors d (blockRange d lev lx).outer
        · have e := a3 (i + 1) (by omega) (by omega)
          rw [if_pos hm] at e
          have e' : F.xf i = 2 * F.xf (iu + 1) - F.xf (2 * (iu + 1) - i) := by
            rcases lt_or_ge (iu + 1) i with h'' | h''
            · have := a3 i h'' (by omega)
              rwa [if_pos hm] at this
            · rw [show 2 * (iu + 1) - i = iu + 1 by omega, show i = iu + 1 by omega]; ring
          have := act (2 * (iu + 1) - (i + 1)) (by omega) (by omega)
          rw [show 2 * (iu + 1) - (i + 1) + 1 = 2 * (iu + 1) - i by ring] at this
          rw [e, e']
          linarith
        · have e := a3 (i + 1) (by omega) (by omega)
          rw [if_neg hm] at e
          have e' : F.xf i = d.pos ((faceNo d lx coarse il i : ℝ) / (((d.ms.nx : ℤ) * 2 ^ lev : ℤ) : ℝ)) := by
            rcases lt_or_ge (iu + 1) i with h'' | h''
            · have := a3 i h'' (by omega)
              rwa [if_neg hm] at this
            · exact a1 _ h h''
          rw [e, e']
          exact hP i
  refine ⟨?_, key⟩
  rw [a4 i h1 h2]
  linarith

theorem faces_shown (o : d.Ok) (g : d.GenOk) (hb : d.Cells coarse il iu) (hng : (d.ng : ℤ) ≤ iu + 1 - il)
    (s : Faces) (i : ℤ) (h : d.Shown lev lx il iu i) :
    (faces d lev lx coarse il iu s).xf i =
      d.pos ((faceNo d lx coarse il i : ℝ) / (((d.ms.nx : ℤ) * 2 ^ lev : ℤ) : ℝ)) := by
  obtain ⟨a1, a2, a3, -⟩ := faces_spec (lev := lev) (lx := lx) o g hb hng s
  have hle := cells_le o hb
  obtain ⟨h1, h2⟩ := h
  rcases lt_or_ge i il with hi | hi
  · rcases h1 with h1 | ⟨h1, hm⟩
    · omega
    · rw [a2 i h1 hi, hm]; rfl
  · rcases lt_or_ge (iu + 1) i with hj | hj
    · rcases h2 with h2 | ⟨h2, hm⟩
      · omega
      · rw [a3 i hj h2, hm]; rfl
    · exact a1 i hi hj

/-- **Common faces.** Two blocks of any levels, their fine arrays or coarse buffers, active faces
and ghost faces that are not mirrored: the coordinates compare as the positions in the mesh do. In
particular faces at the same position have the same coordinate. -/
theorem faces_order {lev' : ℕ} {lx' : ℤ} {coarse' : Bool} {il' iu' : ℤ} (o : d.Ok) (g : d.GenOk)
    (hb : d.Cells coarse il iu) (hng : (d.ng : ℤ) ≤ iu + 1 - il)
    (hb' : d.Cells coarse' il' iu') (hng' : (d.ng : ℤ) ≤ iu' + 1 - il')
    (s s' : Faces) (i i' : ℤ) (h : d.Shown lev lx il iu i) (h' : d.Shown lev' lx' il' iu' i') :
    let n := faceNo d lx coarse il i
    let n' := faceNo d lx' coarse' il' i'
    ((faces d lev lx coarse il iu s).xf i = (faces d lev' lx' coarse' il' iu' s').xf i' ↔ n * 2 ^ lev' = n' * 2 ^ lev) ∧
    ((faces d lev lx coarse il iu s).xf i < (faces d lev' lx' coarse' il' iu' s').xf i' ↔ n * 2 ^ lev' < n' * 2 ^ lev) := by
  intro n n'
  rw [faces_shown o g hb hng s i h, faces_shown o g hb' hng' s' i' h', (pos_mono g).lt_iff_lt,
    (pos_mono g).injective.eq_iff]
  have hN : (0 : ℝ) < d.ms.nx := by exact_mod_cast nx_pos o
  push_cast
  have e : ∀ (a : ℤ) (l : ℕ), (a : ℝ) / (d.ms.nx * 2 ^ l) = a / 2 ^ l / d.ms.nx := by
    intro a l; rw [div_div, mul_comm]
  rw [e, e, div_left_inj' hN.ne', div_lt_div_iff_of_pos_right hN,
    div_eq_div_iff (by positivity) (by positivity), div_lt_div_iff₀ (by positivity) (by positivity)]
  constructor
  · exact_mod_cast Iff.rfl
  · exact_mod_cast Iff.rfl

theorem mirrors_block : mirrors d .block = false := by
  unfold mirrors
  cases d.mirrorPolar <;> rfl

/-- **Neighbours.** At the common boundary of blocks `lx` and `lx + 1` of one level, and of `lx`
and the blocks `2 lx + 2`, `2 lx + 3` of the next finer level: the last face of one is the first of
the other, ghost faces of one are active faces of the other, and the coarse buffer of a finer block
has the faces of the coarse level. -/
theorem faces_neighbor (o : d.Ok) (g : d.GenOk) (hb : d.Cells false il iu) (hng : (d.ng : ℤ) ≤ iu + 1 - il)
    (h0 : 0 ≤ lx) (h1 : lx + 1 < (d.nrb : ℤ) * 2 ^ lev) (s s' : Faces) (j : ℤ) (hj : |j| ≤ d.ng) :
    (faces d lev lx false il iu s).xf (iu + 1 + j) = (faces d lev (lx + 1) false il iu s').xf (il + j) ∧
    (|2 * j| ≤ d.ng →
      (faces d lev lx false il iu s).xf (iu + 1 + j) = (faces d (lev + 1) (2 * lx + 2) false il iu s').xf (il + 2 * j)) ∧
    (∀ cl cu, d.Cells true cl cu → (d.ng : ℤ) ≤ cu + 1 - cl →
      (faces d lev lx false il iu s).xf (iu + 1 + j) = (faces d (lev + 1) (2 * lx + 2) true cl cu s').xf (cl + j)) := by
  have hle := cells_le o hb
  have hj' := abs_le.1 hj
  have hin : ∀ l x, x ≠ 0 → (blockRange d l x).inner = .block := fun l x hx => by simp [blockRange, hx]
  have hout : ∀ l x, x ≠ (d.nrb : ℤ) * 2 ^ l - 1 → (blockRange d l x).outer = .block := fun l x hx => by simp [blockRange, hx]
  have hp : (d.nrb : ℤ) * 2 ^ (lev + 1) = 2 * ((d.nrb : ℤ) * 2 ^ lev) := by ring
  have v1 : d.Shown lev lx il iu (iu + 1 + j) :=
    ⟨Or.inl (by omega), Or.inr ⟨by omega, by rw [hout _ _ (by omega), mirrors_block]⟩⟩
  have c1 := hb
  unfold Dir.Cells stride at c1
  simp only [Bool.false_eq_true, if_false, one_mul] at c1
  refine ⟨?_, fun h2 => ?_, fun cl cu hc hcn => ?_⟩
  · refine (faces_order o g hb hng hb hng s s' _ _ v1 ⟨Or.inr ⟨by omega, by rw [hin _ _ (by omega), mirrors_block]⟩,
      Or.inl (by omega)⟩).1.2 ?_
    unfold faceNo stride
    simp only [Bool.false_eq_true, if_false, one_mul]
    rw [← c1]
    ring
  · have h2' := abs_le.1 h2
    refine (faces_order o g hb hng hb hng s s' _ _ v1 ⟨Or.inr ⟨by omega, by rw [hin _ _ (by omega), mirrors_block]⟩,
      Or.inl (by omega)⟩).1.2 ?_
    unfold faceNo stride
    simp only [Bool.false_eq_true, if_false, one_mul]
    rw [← c1]
    ring
  · refine (faces_order o g hb hng hc hcn s s' _ _ v1 ⟨Or.inr ⟨by omega, by rw [hin _ _ (by omega), mirrors_block]⟩,
      Or.inl (by omega)⟩).1.2 ?_
    unfold faceNo stride
    simp only [Bool.false_eq_true, if_false, if_true, one_mul]
    rw [← c1]
    ring

/-- **Spacing.** On the standard meshes each cell of a block is wider than the one before by the
factor `rat` at the root level, and by the root of `rat` that belongs to the level at finer levels. -/
theorem faces_ratio {ms : MSize} {nrb bnx ng : ℕ} {bi bo : BFlag} {mp : Bool}
    (o : (Dir.standard ms nrb bnx ng bi bo mp).Ok)
    (hb : (Dir.standard ms nrb bnx ng bi bo mp).Cells coarse il iu)
    (hng : ((Dir.standard ms nrb bnx ng bi bo mp).ng : ℤ) ≤ iu + 1 - il) (s : Faces) (i : ℤ) (h1 : il ≤ i) (h2 : i < iu) :
    (faces (Dir.standard ms nrb bnx ng bi bo mp) lev lx coarse il iu s).dxf (i + 1) =
      ms.rat ^ ((stride coarse : ℝ) / 2 ^ lev) *
        (faces (Dir.standard ms nrb bnx ng bi bo mp) lev lx coarse il iu s).dxf i := by
  have hms : (Dir.standard ms nrb bnx ng bi bo mp).ms = ms := by
    unfold Dir.standard
    split_ifs <;> rfl
  have hr := o.rat
  have hn := nx_pos o
  obtain ⟨a1, -, -, a4⟩ := faces_spec (lev := lev) (lx := lx) o (standard_genOk o) hb hng s
  rw [a4 i (by omega) (by omega), a4 (i + 1) (by omega) (by omega), a1 i (by omega) (by omega),
    a1 (i + 1) (by omega) (by omega), a1 (i + 1 + 1) (by omega) (by omega)]
  rw [hms] at *
  beta_reduce
  rw [standard_pos o, standard_pos o, standard_pos o, faceNo_succ, faceNo_succ]
  generalize faceNo _ lx coarse il i = n
  unfold geoFace
  have hn' : (0 : ℝ) < ms.nx := by exact_mod_cast hn
  by_cases h : ms.rat = 1
  · simp only [h, if_true, Real.one_rpow]
    push_cast
    field_simp
    ring
  · simp only [h, if_false]
    have e : ∀ k : ℝ, ms.rat ^ ((k + stride coarse) / 2 ^ lev) = ms.rat ^ (k / 2 ^ lev) * ms.rat ^ ((stride coarse : ℝ) / 2 ^ lev) := by
      intro k; rw [← Real.rpow_add hr, add_div]
    push_cast
    rw [e, e]
    have := geo_ne hr h hn'
    field_simp
    ring

/-! ## Blocks -/

/-- Ranges of blocks: never empty, adjacent blocks share their common boundary, the two children of
a block divide its range, and the outermost blocks end at the edges of the mesh. -/
theorem block_ranges (o : d.Ok) (g : d.GenOk) (lev : ℕ) (lx : ℤ) :
    (blockRange d lev lx).xmin < (blockRange d lev lx).xmax ∧
    (blockRange d lev lx).xmax = (blockRange d lev (lx + 1)).xmin ∧
    (blockRange d (lev + 1) (2 * lx)).xmin = (blockRange d lev lx).xmin ∧
    (blockRange d (lev + 1) (2 * lx)).xmax = (blockRange d (lev + 1) (2 * lx + 1)).xmin ∧
    (blockRange d (lev + 1) (2 * lx + 1)).xmax = (blockRange d lev lx).xmax ∧
    (blockRange d lev 0).xmin = d.ms.xmin ∧
    (blockRange d lev ((d.nrb : ℤ) * 2 ^ lev - 1)).xmax = d.ms.xmax := by
  have hr := fun l x => blockRange_pos o g l x
  have hN : (0 : ℝ) < d.ms.nx := by exact_mod_cast nx_pos o
  have hB : (0 : ℝ) < d.bnx := by exact_mod_cast o.bnx
  refine ⟨?_, ?_, ?_, ?_, ?_, by simp [blockRange], by simp [blockRange]⟩
  · rw [(hr _ _).1, (hr _ _).2]
    apply pos_mono g
    push_cast
    apply div_lt_div_of_pos_right _ (by positivity)
    linarith
  · rw [(hr _ _).1, (hr _ _).2]
  · rw [(hr _ _).1, (hr _ _).1]
    congr 1
    push_cast
    rw [pow_succ]
    field_simp
  · rw [(hr _ _).1, (hr _ _).2]
  · rw [(hr _ _).2, (hr _ _).2]
    congr 1
    push_cast
    rw [pow_succ]
    field_simp
    ring

/-- A block carries the boundary flag of the mesh exactly at the edges of the mesh. -/
theorem block_flags (d : Dir) (lev : ℕ) (lx : ℤ) :
    (blockRange d lev lx).inner = (if lx = 0 then d.inner else .block) ∧
    (blockRange d lev lx).outer = (if lx + 1 = (d.nrb : ℤ) * 2 ^ lev then d.outer else .block) := by
  unfold blockRange
  constructor
  · simp only
    split_ifs <;> rfl
  · simp only [← eq_sub_iff_add_eq]
    split_ifs <;> rfl

/-- The positions the search for static refinement regions compares with (mesh.cpp:401-450) satisfy
what `Verif.Tree.regions_resolved` asks of face positions. -/
theorem region_faces (o : d.Ok) (g : d.GenOk) (root : ℕ) :
    ∃ X : ℕ → ℕ → ℝ, Tree.Faces X ∧ X root 0 = d.ms.xmin ∧ X root d.nrb = d.ms.xmax ∧
      ∀ L i, root ≤ L → X L i = d.gen (meshX i ((d.nrb : ℤ) * 2 ^ (L - root)) d.uni) d.ms := by
  have hB : (0 : ℝ) < d.nrb := by exact_mod_cast o.nrb
  refine ⟨fun L i => d.pos ((i : ℝ) * 2 ^ root / (d.nrb * 2 ^ L)), ⟨?_, ?_⟩, ?_, ?_, ?_⟩
  · intro L i j h
    apply (pos_mono g).monotone
    have : (i : ℝ) ≤ j := by exact_mod_cast h
    apply div_le_div_of_nonneg_right _ (by positivity)
    exact mul_le_mul_of_nonneg_right this (by positivity)
  · intro L i
    congr 1
    push_cast
    rw [pow_succ]
    field_simp
  · simp [pos_zero g]
  · show d.pos ((d.nrb : ℝ) * 2 ^ root / (d.nrb * 2 ^ root)) = _
    rw [div_self (by positivity), pos_one g]
  · intro L i h
    simp only
    rw [gen_meshX d _ (blocks_pos o _)]
    congr 1
    push_cast
    obtain ⟨k, rfl⟩ := Nat.exists_eq_add_of_le h
    rw [Nat.add_sub_cancel_left, pow_add]
    field_simp

/-! ## Cases -/

/-- A stretched mesh with ratio `11/10`: 16 cells in blocks of 8, `NGHOST = 2`, reflecting inside. -/
noncomputable def exDir : Dir := Dir.standard ⟨1, 2, 11 / 10, 16⟩ 2 8 2 .reflect (.other 0) false

theorem exDir_ok : exDir.Ok := by
  unfold exDir Dir.standard
  norm_num
  exact ⟨by norm_num, by norm_num, by norm_num, by norm_num, by norm_num⟩

example : exDir.Ok ∧ exDir.GenOk ∧ exDir.Cells false 2 9 ∧ exDir.Cells true 2 5 ∧ (exDir.ng : ℤ) ≤ 5 + 1 - 2 ∧
    exDir.HasBlock 3 15 := by
  refine ⟨exDir_ok, standard_genOk exDir_ok, ?_, ?_, ?_, ?_⟩ <;>
    norm_num [exDir, Dir.standard, Dir.Cells, stride, Dir.HasBlock]

end Verif.MeshGen
