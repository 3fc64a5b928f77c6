import Verif.Spec.MeshGen
import Verif.Lemmas.Refine
import Mathlib.Tactic.FieldSimp
import Mathlib.Tactic.Linarith
import Mathlib.Tactic.Positivity
import Mathlib.Tactic.Push
import Mathlib.Tactic.LinearCombination

/-! Helper lemmas for mesh spacing. -/
namespace Verif.MeshGen
open Verif.Arr Verif.Grid

theorem rng_succ (n : ℕ) : rng 1 ((n + 1 : ℕ) : ℤ) = rng 1 (n : ℤ) ++ [((n + 1 : ℕ) : ℤ)] := by
  unfold rng
  rw [show (((n + 1 : ℕ) : ℤ) + 1 - 1).toNat = n + 1 by omega, show ((n : ℤ) + 1 - 1).toNat = n by omega,
    List.range_succ, List.map_append]
  simp [add_comm]

theorem loop_ind {σ : Type} (Inv : ℕ → σ → Prop) (B : ℤ → σ → σ) (n : ℕ) (st : σ) (h0 : Inv 0 st)
    (step : ∀ k, k < n → ∀ st, Inv k st → Inv (k + 1) (B ((k + 1 : ℕ) : ℤ) st)) : Inv n (loop 1 n B st) := by
  induction n with
  | zero => simpa [loop, rng] using h0
  | succ n ih =>
    have := ih (fun k hk => step k (by omega))
    unfold loop at this ⊢
    rw [rng_succ, List.foldl_append]
    exact step n (by omega) _ this

theorem meshX_eq (index : ℤ) {nrange : ℤ} (h : 0 < nrange) (sym : Bool) :
    meshX index nrange sym = (index : ℝ) / nrange - (if sym then 1 / 2 else 0) := by
  unfold meshX
  cases sym
  · simp
  · have hn : (nrange : ℝ) ≠ 0 := by exact_mod_cast h.ne'
    simp only [Bool.not_true, Bool.false_eq_true, if_false, if_true]
    rw [Int.tdiv_eq_ediv_of_nonneg h.le, Int.tdiv_eq_ediv_of_nonneg (by omega),
      show index - nrange / 2 + (index - (nrange + 1) / 2) = 2 * index - nrange by omega]
    push_cast
    field_simp

theorem gen_meshX (d : Dir) (index : ℤ) {nrange : ℤ} (h : 0 < nrange) :
    d.gen (meshX index nrange d.uni) d.ms = d.pos ((index : ℝ) / nrange) := by
  rw [meshX_eq index h, Dir.pos]
  cases d.uni <;> simp

theorem pos_mono {d : Dir} (g : d.GenOk) : StrictMono d.pos := by
  intro a b h
  unfold Dir.pos
  apply g.mono
  cases d.uni <;> simpa using h

theorem pos_zero {d : Dir} (g : d.GenOk) : d.pos 0 = d.ms.xmin := by
  rw [← g.lo, Dir.pos]
  cases d.uni <;> norm_num

theorem pos_one {d : Dir} (g : d.GenOk) : d.pos 1 = d.ms.xmax := by
  rw [← g.hi, Dir.pos]
  cases d.uni <;> norm_num

theorem pos_uniform {d : Dir} (g : d.GenOk) (h : d.uni = true) (q : ℝ) :
    d.pos q = d.ms.xmin + q * (d.ms.xmax - d.ms.xmin) := by
  rw [Dir.pos, g.unif h, h, uniformGen]
  simp only [if_true]
  ring

/-! ### Mirrored ghost zones -/

theorem mirrorInner_spec (d : Dir) (il : ℤ) (s : Faces)
    (hw : ∀ i, il ≤ i → i < il + d.ng → s.dxf i = s.xf (i + 1) - s.xf i) :
    (∀ j, ¬ (il - d.ng ≤ j ∧ j < il) → (mirrorInner d il s).xf j = s.xf j ∧ (mirrorInner d il s).dxf j = s.dxf j) ∧
    (∀ m : ℕ, 1 ≤ m → m ≤ d.ng → (mirrorInner d il s).xf (il - m) = 2 * s.xf il - s.xf (il + m) ∧
      (mirrorInner d il s).dxf (il - m) = s.dxf (il + m - 1)) := by
  unfold mirrorInner
  refine loop_ind (fun k (t : Faces) =>
    (∀ j, ¬ (il - k ≤ j ∧ j < il) → t.xf j = s.xf j ∧ t.dxf j = s.dxf j) ∧
    (∀ m : ℕ, 1 ≤ m → m ≤ k → t.xf (il - m) = 2 * s.xf il - s.xf (il + m) ∧ t.dxf (il - m) = s.dxf (il + m - 1)))
    _ d.ng s ⟨fun _ _ => ⟨rfl, rfl⟩, fun m h1 h2 => by omega⟩ ?_
  intro k hk t ⟨ha, hb⟩
  have e0 : t.dxf (il + ((k + 1 : ℕ) : ℤ) - 1) = s.dxf (il + ((k + 1 : ℕ) : ℤ) - 1) := (ha _ (by omega)).2
  have e1 : t.xf (il - ((k + 1 : ℕ) : ℤ) + 1) = 2 * s.xf il - s.xf (il + k) := by
    rw [show il - ((k + 1 : ℕ) : ℤ) + 1 = il - (k : ℤ) by push_cast; ring]
    rcases Nat.eq_zero_or_pos k with rfl | hk0
    · rw [(ha _ (by omega)).1]
      simp only [Nat.cast_zero, sub_zero, add_zero]
      ring
    · exact (hb k hk0 le_rfl).1
  have e2 : s.dxf (il + ((k + 1 : ℕ) : ℤ) - 1) = s.xf (il + ((k + 1 : ℕ) : ℤ)) - s.xf (il + k) := by
    rw [show il + ((k + 1 : ℕ) : ℤ) - 1 = il + (k : ℤ) by push_cast; ring, hw _ (by omega) (by omega),
      show il + ((k + 1 : ℕ) : ℤ) = il + (k : ℤ) + 1 by push_cast; ring]
  refine ⟨fun j hj => ?_, fun m h1 h2 => ?_⟩
  · have hne : j ≠ il - ((k + 1 : ℕ) : ℤ) := by omega
    simp only [Function.update_of_ne hne]
    exact ha j (by omega)
  · rcases Nat.lt_or_ge m (k + 1) with h | h
    · have hne : il - (m : ℤ) ≠ il - ((k + 1 : ℕ) : ℤ) := by omega
      simp only [Function.update_of_ne hne]
      exact hb m h1 (by omega)
    · obtain rfl : m = k + 1 := by omega
      simp only [Function.update_self, e0, e1, and_true]
      rw [e2]
      ring

theorem mirrorOuter_spec (d : Dir) (iu : ℤ) (s : Faces)
    (hw : ∀ i, iu - d.ng < i → i ≤ iu → s.dxf i = s.xf (i + 1) - s.xf i) :
    (∀ j, ¬ (iu + 1 < j ∧ j ≤ iu + 1 + d.ng) → (mirrorOuter d iu s).xf j = s.xf j) ∧
    (∀ j, ¬ (iu < j ∧ j ≤ iu + d.ng) → (mirrorOuter d iu s).dxf j = s.dxf j) ∧
    (∀ m : ℕ, 1 ≤ m → m ≤ d.ng → (mirrorOuter d iu s).xf (iu + 1 + m) = 2 * s.xf (iu + 1) - s.xf (iu + 1 - m) ∧
      (mirrorOuter d iu s).dxf (iu + m) = s.dxf (iu - m + 1)) := by
  unfold mirrorOuter
  refine loop_ind (fun k (t : Faces) =>
    (∀ j, ¬ (iu + 1 < j ∧ j ≤ iu + 1 + k) → t.xf j = s.xf j) ∧
    (∀ j, ¬ (iu < j ∧ j ≤ iu + k) → t.dxf j = s.dxf j) ∧
    (∀ m : ℕ, 1 ≤ m → m ≤ k → t.xf (iu + 1 + m) = 2 * s.xf (iu + 1) - s.xf (iu + 1 - m) ∧
      t.dxf (iu + m) = s.dxf (iu - m + 1)))
    _ d.ng s ⟨fun _ _ => rfl, fun _ _ => rfl, fun m h1 h2 => by omega⟩ ?_
  intro k hk t ⟨ha, hd, hb⟩
  have e0 : t.dxf (iu - ((k + 1 : ℕ) : ℤ) + 1) = s.dxf (iu - ((k + 1 : ℕ) : ℤ) + 1) := hd _ (by omega)
  have e1 : t.xf (iu + ((k + 1 : ℕ) : ℤ)) = 2 * s.xf (iu + 1) - s.xf (iu + 1 - k) := by
    rw [show iu + ((k + 1 : ℕ) : ℤ) = iu + 1 + (k : ℤ) by push_cast; ring]
    rcases Nat.eq_zero_or_pos k with rfl | hk0
    · rw [ha _ (by omega)]
      simp only [Nat.cast_zero, sub_zero, add_zero]
      ring
    · exact (hb k hk0 le_rfl).1
  have e2 : s.dxf (iu - ((k + 1 : ℕ) : ℤ) + 1) = s.xf (iu + 1 - k) - s.xf (iu + 1 - ((k + 1 : ℕ) : ℤ)) := by
    rw [hw _ (by omega) (by omega), show iu - ((k + 1 : ℕ) : ℤ) + 1 + 1 = iu + 1 - (k : ℤ) by push_cast; ring,
      show iu - ((k + 1 : ℕ) : ℤ) + 1 = iu + 1 - ((k + 1 : ℕ) : ℤ) by ring]
  refine ⟨fun j hj => ?_, fun j hj => ?_, fun m h1 h2 => ?_⟩
  · have hne : j ≠ iu + ((k + 1 : ℕ) : ℤ) + 1 := by omega
    simp only [Function.update_of_ne hne]
    exact ha j (by omega)
  · have hne : j ≠ iu + ((k + 1 : ℕ) : ℤ) := by omega
    simp only [Function.update_of_ne hne]
    exact hd j (by omega)
  · rcases Nat.lt_or_ge m (k + 1) with h | h
    · have hne : iu + (m : ℤ) ≠ iu + ((k + 1 : ℕ) : ℤ) := by omega
      have hne' : iu + 1 + (m : ℤ) ≠ iu + ((k + 1 : ℕ) : ℤ) + 1 := by omega
      simp only [Function.update_of_ne hne, Function.update_of_ne hne']
      exact hb m h1 (by omega)
    · obtain rfl : m = k + 1 := by omega
      rw [show iu + 1 + ((k + 1 : ℕ) : ℤ) = iu + ((k + 1 : ℕ) : ℤ) + 1 by ring]
      simp only [Function.update_self, e0, e1, and_true]
      rw [e2]
      ring

/-! ### Block ranges -/

theorem cells_pos {d : Dir} (o : d.Ok) (lev : ℕ) : (0 : ℤ) < (d.ms.nx : ℤ) * 2 ^ lev := by
  have := o.nrb
  have := o.bnx
  rw [o.cells]
  positivity

theorem blocks_pos {d : Dir} (o : d.Ok) (lev : ℕ) : (0 : ℤ) < (d.nrb : ℤ) * 2 ^ lev := by
  have := o.nrb
  positivity

theorem frac_block {d : Dir} (o : d.Ok) (lev : ℕ) (lx : ℤ) :
    (lx : ℝ) / (((d.nrb : ℤ) * 2 ^ lev : ℤ) : ℝ) = ((lx * d.bnx : ℤ) : ℝ) / (((d.ms.nx : ℤ) * 2 ^ lev : ℤ) : ℝ) := by
  have h1 : (0 : ℝ) < d.nrb := by exact_mod_cast o.nrb
  have h2 : (0 : ℝ) < d.bnx := by exact_mod_cast o.bnx
  rw [o.cells]
  push_cast
  field_simp

theorem blockRange_pos {d : Dir} (o : d.Ok) (g : d.GenOk) (lev : ℕ) (lx : ℤ) :
    (blockRange d lev lx).xmin = d.pos (((lx * d.bnx : ℤ) : ℝ) / (((d.ms.nx : ℤ) * 2 ^ lev : ℤ) : ℝ)) ∧
    (blockRange d lev lx).xmax = d.pos ((((lx + 1) * d.bnx : ℤ) : ℝ) / (((d.ms.nx : ℤ) * 2 ^ lev : ℤ) : ℝ)) := by
  rw [← frac_block o, ← frac_block o]
  unfold blockRange
  have hp := blocks_pos o lev
  constructor
  · simp only
    split_ifs with h
    · simp [h, pos_zero g]
    · exact gen_meshX d lx hp
  · simp only
    split_ifs with h
    · rw [show lx + 1 = (d.nrb : ℤ) * 2 ^ lev by omega, div_self (by exact_mod_cast hp.ne'), pos_one g]
    · exact gen_meshX d (lx + 1) hp

/-! ### Faces -/

theorem genFaces_xf (d : Dir) {lev : ℕ} (lx : ℤ) (coarse : Bool) (il iu : ℤ) (s : Faces) (i : ℤ)
    (hn : (0 : ℤ) < (d.ms.nx : ℤ) * 2 ^ lev) (h1 : il - d.ng ≤ i) (h2 : i ≤ iu + d.ng + 1) :
    (genFaces d lev lx coarse il iu s).xf i =
      d.pos ((faceNo d lx coarse il i : ℝ) / (((d.ms.nx : ℤ) * 2 ^ lev : ℤ) : ℝ)) := by
  unfold genFaces
  refine loop_hit (fun s : Faces => s.xf i) _ _ _ _ i h1 h2 (fun st => ?_) (fun i' _ _ hne st => ?_) s
  · simp only [Function.update_self]
    rw [gen_meshX d _ hn, faceNo, stride]
    cases coarse
    · simp
    · simp only [Bool.not_true, Bool.false_eq_true, if_false, if_true]
      rw [mul_comm 2 (i - il)]
  · exact Function.update_of_ne hne.symm _ _

theorem genWidths_xf (d : Dir) (r : Range) (il iu : ℤ) (s : Faces) : (genWidths d r il iu s).xf = s.xf := by
  unfold genWidths
  split_ifs
  · exact loop_keep (fun s : Faces => s.xf) _ _
      (fun i s => { s with dxf := Function.update s.dxf i (s.xf (i + 1) - s.xf i) }) (fun _ _ _ _ => rfl) s
  · exact loop_keep (fun s : Faces => s.xf) _ _
      (fun i s => { s with dxf := Function.update s.dxf i _ }) (fun _ _ _ _ => rfl) s

theorem genWidths_dxf (d : Dir) (r : Range) (il iu : ℤ) (s : Faces) (i : ℤ) (h1 : il - d.ng ≤ i) (h2 : i ≤ iu + d.ng) :
    (genWidths d r il iu s).dxf i =
      if !d.uni then s.xf (i + 1) - s.xf i else (r.xmax - r.xmin) / ((iu - il + 1 : ℤ) : ℝ) := by
  unfold genWidths
  split_ifs
  · refine loop_hit_inv (fun t : Faces => t.xf = s.xf) (fun t : Faces => t.dxf i) _ _ _
      (fun i s => { s with dxf := Function.update s.dxf i (s.xf (i + 1) - s.xf i) }) i h1 h2
      (fun _ _ _ _ h => h) (fun st h => ?_) (fun i' _ _ hne st => ?_) s rfl
    · simp only [Function.update_self, h]
    · exact Function.update_of_ne hne.symm _ _
  · refine loop_hit (fun t : Faces => t.dxf i) _ _ _ _ i h1 h2 (fun st => ?_) (fun i' _ _ hne st => ?_) s
    · simp only [Function.update_self]
    · exact Function.update_of_ne hne.symm _ _

/-- Before the mirroring. -/
noncomputable def plain (d : Dir) (lev : ℕ) (lx : ℤ) (coarse : Bool) (il iu : ℤ) (s : Faces) : Faces :=
  let r := blockRange d lev lx
  let s := genFaces d lev lx coarse il iu s
  genWidths d r il iu { s with xf := Function.update (Function.update s.xf il r.xmin) (iu + 1) r.xmax }

theorem faces_eq (d : Dir) (lev : ℕ) (lx : ℤ) (coarse : Bool) (il iu : ℤ) (s : Faces) :
    faces d lev lx coarse il iu s =
      (let r := blockRange d lev lx
       let s := plain d lev lx coarse il iu s
       let s := if mirrors d r.inner then mirrorInner d il s else s
       if mirrors d r.outer then mirrorOuter d iu s else s) := rfl

variable {d : Dir} {lev : ℕ} {lx : ℤ} {coarse : Bool} {il iu : ℤ}

theorem stride_pos (c : Bool) : 0 < stride c := by
  unfold stride; split <;> norm_num

theorem cells_le (o : d.Ok) (hb : d.Cells coarse il iu) : il ≤ iu := by
  have h1 := stride_pos coarse
  have h2 := o.bnx
  unfold Dir.Cells at hb
  by_contra h
  have : stride coarse * (iu + 1 - il) ≤ 0 := mul_nonpos_of_nonneg_of_nonpos h1.le (by omega)
  omega

theorem faceNo_first : faceNo d lx coarse il il = lx * d.bnx := by simp [faceNo]

theorem faceNo_last (hb : d.Cells coarse il iu) : faceNo d lx coarse il (iu + 1) = (lx + 1) * d.bnx := by
  unfold faceNo
  rw [hb]
  ring

theorem faceNo_succ (i : ℤ) : faceNo d lx coarse il (i + 1) = faceNo d lx coarse il i + stride coarse := by
  unfold faceNo
  ring

theorem plain_xf (o : d.Ok) (g : d.GenOk) (hb : d.Cells coarse il iu) (s : Faces) (i : ℤ)
    (h1 : il - d.ng ≤ i) (h2 : i ≤ iu + d.ng + 1) :
    (plain d lev lx coarse il iu s).xf i =
      d.pos ((faceNo d lx coarse il i : ℝ) / (((d.ms.nx : ℤ) * 2 ^ lev : ℤ) : ℝ)) := by
  have hr := blockRange_pos o g lev lx
  unfold plain
  rw [genWidths_xf]
  simp only [Function.update_apply]
  split_ifs with ha hb'
  · rw [hr.2, ha, faceNo_last hb]
  · rw [hr.1, hb', faceNo_first]
  · exact genFaces_xf d lx coarse il iu s i (cells_pos o lev) h1 h2

theorem plain_dxf (o : d.Ok) (g : d.GenOk) (hb : d.Cells coarse il iu) (s : Faces) (i : ℤ)
    (h1 : il - d.ng ≤ i) (h2 : i ≤ iu + d.ng) :
    (plain d lev lx coarse il iu s).dxf i =
      (plain d lev lx coarse il iu s).xf (i + 1) - (plain d lev lx coarse il iu s).xf i := by
  cases hu : d.uni
  · have e : ∀ i, (plain d lev lx coarse il iu s).xf i = Function.update (Function.update
        (genFaces d lev lx coarse il iu s).xf il (blockRange d lev lx).xmin) (iu + 1) (blockRange d lev lx).xmax i := by
      intro i
      unfold plain
      simp only [genWidths_xf]
    rw [e, e]
    unfold plain
    simp only [genWidths_dxf d _ il iu _ i h1 h2, hu, Bool.not_false, if_true]
  · have hr := blockRange_pos o g lev lx
    rw [plain_xf o g hb s i h1 (by omega), plain_xf o g hb s (i + 1) (by omega) (by omega)]
    unfold plain
    simp only [genWidths_dxf d _ il iu _ i h1 h2, hu, Bool.not_true, Bool.false_eq_true, if_false]
    rw [hr.1, hr.2, pos_uniform g hu, pos_uniform g hu, pos_uniform g hu, pos_uniform g hu, faceNo_succ]
    have hn : ((((d.ms.nx : ℤ) * 2 ^ lev : ℤ) : ℝ)) ≠ 0 := by exact_mod_cast (cells_pos o lev).ne'
    have hc : ((stride coarse * (iu + 1 - il) : ℤ) : ℝ) = d.bnx := by rw [hb]; simp
    have hi : ((iu - il + 1 : ℤ) : ℝ) ≠ 0 := by
      have := cells_le o hb
      exact_mod_cast (show iu - il + 1 ≠ 0 by omega)
    generalize ((((d.ms.nx : ℤ) * 2 ^ lev : ℤ) : ℝ)) = N at *
    rw [div_eq_iff hi]
    push_cast at hc ⊢
    field_simp
    rw [← hc]
    ring

end Verif.MeshGen
