import Verif.Spec.EmfExchange
import Verif.Lemmas.Array
import Mathlib.Data.List.Nodup
import Mathlib.Tactic.Ring
import Mathlib.Tactic.Linarith
import Mathlib.Algebra.CharZero.Defs
import Mathlib.Algebra.BigOperators.Group.Finset.Basic
import Mathlib.Tactic.FieldSimp
import Mathlib.Tactic.FinCases

namespace Verif.Emf

open Verif.Arr (rng mem_rng nodup_rng rng_shift)
open Verif.Grid (Dims)

variable {K : Type} [Field K]

theorem addBuf_map (ps : List Pos) (hn : ps.Nodup) (f : Pos → K) (E : EField K) (p : Pos) :
    addBuf ps (ps.map f) E p = E p + if p ∈ ps then f p else 0 := by
  induction ps generalizing E with
  | nil => simp [addBuf]
  | cons q ps ih =>
    have hq : q ∉ ps := (List.nodup_cons.mp hn).1
    have h := ih (List.nodup_cons.mp hn).2 (Function.update E q (E q + f q))
    have e : addBuf (q :: ps) ((q :: ps).map f) E =
        addBuf ps (ps.map f) (Function.update E q (E q + f q)) := rfl
    rw [e, h]
    by_cases hp : p = q
    · subst hp
      simp [hq]
    · simp [hp]

theorem scale_eq (ps : List Pos) (hn : ps.Nodup) (c : K) (E : EField K) (p : Pos) :
    scale ps c E p = if p ∈ ps then E p * c else E p := by
  induction ps generalizing E with
  | nil => simp [scale]
  | cons q ps ih =>
    have hq : q ∉ ps := (List.nodup_cons.mp hn).1
    have h := ih (List.nodup_cons.mp hn).2 (Function.update E q (E q * c))
    have e : scale (q :: ps) c E = scale ps c (Function.update E q (E q * c)) := rfl
    rw [e, h]
    by_cases hp : p = q
    · subst hp
      simp [hq]
    · simp [hp]

theorem mem_grid {a b c e : Int} {g : Int → Int → Pos} {p : Pos} :
    p ∈ grid a b c e g ↔ ∃ x y, a ≤ x ∧ x ≤ b ∧ c ≤ y ∧ y ≤ e ∧ g x y = p := by
  unfold grid
  simp only [List.mem_flatMap, List.mem_map, mem_rng]
  constructor
  · rintro ⟨x, hx, y, hy, h⟩
    exact ⟨x, y, hx.1, hx.2, hy.1, hy.2, h⟩
  · rintro ⟨x, y, h1, h2, h3, h4, h⟩
    exact ⟨x, ⟨h1, h2⟩, y, ⟨h3, h4⟩, h⟩

theorem nodup_grid (a b c e : Int) (g : Int → Int → Pos)
    (hg : ∀ x y x' y', g x y = g x' y' → x = x' ∧ y = y') : (grid a b c e g).Nodup := by
  unfold grid
  rw [List.nodup_flatMap]
  refine ⟨fun x _ => ?_, ?_⟩
  · exact (nodup_rng c e).map (fun y y' h => (hg x y x y' h).2)
  · refine (nodup_rng a b).imp ?_
    intro x x' hne
    simp only [Function.onFun, List.disjoint_left, List.mem_map]
    rintro p ⟨y, _, rfl⟩ ⟨y', _, h⟩
    exact hne (hg _ _ _ _ h).1.symm

theorem grid_map (a b c e : Int) (g g' : Int → Int → Pos) (s : Pos → Pos)
    (h : ∀ x y, g' x y = s (g x y)) : grid a b c e g' = (grid a b c e g).map s := by
  unfold grid
  rw [List.map_flatMap]
  congr 1
  funext x
  rw [List.map_map]
  congr 1
  funext y
  exact h x y

/-- Where an element lies in the arrays of the neighbor at the offset. -/
def move (d : Dims) (o : Loc) (p : Pos) : Pos :=
  (p.1, p.2.1 - d.nx3 * o.2.2, p.2.2.1 - d.nx2 * o.2.1, p.2.2.2 - d.nx1 * o.1)

variable {d : Dims}

theorem ie_eq (d : Dims) : d.ie + 1 = d.is + d.nx1 := by unfold Dims.ie Dims.is; ring
theorem je_eq (h : 1 < d.nx2) : d.je + 1 = d.js + d.nx2 := by
  unfold Dims.je Dims.js; rw [if_pos h, if_pos h]; ring
theorem ke_eq (h : 1 < d.nx3) : d.ke + 1 = d.ks + d.nx3 := by
  unfold Dims.ke Dims.ks; rw [if_pos h, if_pos h]; ring

/-- What a neighbor packs is, number by number, what lies at the same places of the mesh. -/
theorem load_eq (h2 : 1 < d.nx2) (h3 : 1 < d.nx3) (n : Nb) :
    loadPos d (opp n) = (setPos d n).map (move d (off n)) := by
  have e1 := ie_eq d
  have e2 := je_eq h2
  have e3 := ke_eq h3
  rcases n with f | e
  · fin_cases f <;>
    · simp [loadPos, setPos, opp, off, List.map_append]
      refine congrArg₂ (· ++ ·) (grid_map _ _ _ _ _ _ _ ?_) (grid_map _ _ _ _ _ _ _ ?_) <;>
      · intro x y
        simp only [move, Prod.mk.injEq, true_and]
        refine ⟨?_, ?_, ?_⟩ <;> omega
  · fin_cases e <;>
    · simp [loadPos, setPos, opp, off, List.map_map]
      intro x hx
      simp only [move, Prod.mk.injEq, true_and]
      refine ⟨?_, ?_, ?_⟩ <;> omega

theorem setPos_nodup (n : Nb) : (setPos d n).Nodup := by
  rcases n with f | e
  · unfold setPos
    dsimp only
    split_ifs <;>
    · refine List.nodup_append.mpr ⟨nodup_grid _ _ _ _ _ ?_, nodup_grid _ _ _ _ _ ?_, ?_⟩
      · intro x y x' y' h; simp only [Prod.mk.injEq] at h; tauto
      · intro x y x' y' h; simp only [Prod.mk.injEq] at h; tauto
      · intro p hp q hq
        rw [mem_grid] at hp hq
        obtain ⟨_, _, _, _, _, _, rfl⟩ := hp
        obtain ⟨_, _, _, _, _, _, rfl⟩ := hq
        intro h
        simp at h
  · unfold setPos
    dsimp only
    split_ifs <;>
    · refine (nodup_rng _ _).map ?_
      intro x y h
      simpa using h

theorem halfPos_nodup (f : Fin 6) : (halfPos d f).Nodup := by
  unfold halfPos
  dsimp only
  split_ifs <;>
  · refine List.nodup_append.mpr ⟨nodup_grid _ _ _ _ _ ?_, nodup_grid _ _ _ _ _ ?_, ?_⟩
    · intro x y x' y' h; simp only [Prod.mk.injEq] at h; tauto
    · intro x y x' y' h; simp only [Prod.mk.injEq] at h; tauto
    · intro p hp q hq
      rw [mem_grid] at hp hq
      obtain ⟨_, _, _, _, _, _, rfl⟩ := hp
      obtain ⟨_, _, _, _, _, _, rfl⟩ := hq
      intro h
      simp at h

theorem edgePos_nodup (e : Fin 12) : (edgePos d e).Nodup := by
  unfold edgePos
  dsimp only
  split_ifs <;>
  · refine (nodup_rng _ _).map ?_
    intro x y h
    simpa using h

/-- The contribution of a neighbor to an element. -/
def term (d : Dims) (M : Mesh) (E : Loc → EField K) (l : Loc) (p : Pos) (n : Nb) : K :=
  if M (shiftLoc l (off n)) = true ∧ p ∈ setPos d n then
    E (shiftLoc l (off n)) (move d (off n) p) else 0

theorem receive_eq (h2 : 1 < d.nx2) (h3 : 1 < d.nx3) (M : Mesh) (E : Loc → EField K) (l : Loc)
    (p : Pos) : receive d M E l p = E l p + (nbs.map (term d M E l p)).sum := by
  unfold receive
  generalize E l = e0
  generalize nbs = L
  induction L generalizing e0 with
  | nil => simp
  | cons n L ih =>
    rw [List.foldl_cons, ih, List.map_cons, List.sum_cons, ← add_assoc]
    congr 1
    unfold term
    by_cases hM : M (shiftLoc l (off n)) = true
    · rw [if_pos hM, load_eq h2 h3, List.map_map, addBuf_map _ (setPos_nodup n)]
      simp only [hM, true_and, Function.comp]
    · simp [hM]

/-- The factors of the average. -/
def facF (d : Dims) (M : Mesh) (l : Loc) (p : Pos) (f : Fin 6) : K :=
  if M (shiftLoc l (off (.face f))) = true ∧ p ∈ halfPos d f then 1 / 2 else 1

@[inherit_doc facF] def facE (d : Dims) (M : Mesh) (l : Loc) (p : Pos) (e : Fin 12) : K :=
  if p ∈ edgePos d e then 1 / (count M l e : K) else 1

theorem average_eq (M : Mesh) (E : EField K) (l : Loc) (p : Pos) :
    average d M l E p = E p * ((List.finRange 6).map (facF d M l p)).prod *
      ((List.finRange 12).map (facE d M l p)).prod := by
  have hF : ∀ (L : List (Fin 6)) (E : EField K), L.foldl
      (fun E f => if M (shiftLoc l (off (.face f))) then scale (halfPos d f) (1 / 2) E else E) E p
      = E p * (L.map (facF d M l p)).prod := by
    intro L
    induction L with
    | nil => intro E; simp
    | cons f L ih =>
      intro E
      rw [List.foldl_cons, ih, List.map_cons, List.prod_cons, ← mul_assoc]
      congr 1
      unfold facF
      by_cases hM : M (shiftLoc l (off (.face f))) = true
      · rw [if_pos hM, scale_eq _ (halfPos_nodup f)]
        by_cases hp : p ∈ halfPos d f <;> simp [hM, hp]
      · simp [hM]
  have hE : ∀ (L : List (Fin 12)) (E : EField K), L.foldl
      (fun E e => if count M l e = 1 then E else scale (edgePos d e) (1 / (count M l e : K)) E) E p
      = E p * (L.map (facE d M l p)).prod := by
    intro L
    induction L with
    | nil => intro E; simp
    | cons e L ih =>
      intro E
      rw [List.foldl_cons, ih, List.map_cons, List.prod_cons, ← mul_assoc]
      congr 1
      unfold facE
      by_cases hc : count M l e = 1
      · rw [if_pos hc, hc]; simp
      · rw [if_neg hc, scale_eq _ (edgePos_nodup e)]
        by_cases hp : p ∈ edgePos d e <;> simp [hp]
  unfold average
  rw [hE, hF]


theorem nbs_eq : nbs = [.face 0, .face 1, .face 2, .face 3, .face 4, .face 5, .edge 0, .edge 1,
    .edge 2, .edge 3, .edge 4, .edge 5, .edge 6, .edge 7, .edge 8, .edge 9, .edge 10, .edge 11] := by
  decide

theorem fin6 : List.finRange 6 = [0, 1, 2, 3, 4, 5] := by decide
theorem fin12 : List.finRange 12 = [0, 1, 2, 3, 4, 5, 6, 7, 8, 9, 10, 11] := by decide

theorem set_0 {k j i : Int} (i1 : d.is ≤ i) (i2 : i ≤ d.ie) (j1 : d.js ≤ j) (j2 : j ≤ d.je + 1) (k1 : d.ks ≤ k) (k2 : k ≤ d.ke + 1) :
    (((0, k, j, i) : Pos) ∈ setPos d (.face 2) ↔ j = d.js) ∧
    (((0, k, j, i) : Pos) ∈ setPos d (.face 3) ↔ j = d.je + 1) ∧
    (((0, k, j, i) : Pos) ∈ setPos d (.face 4) ↔ k = d.ks) ∧
    (((0, k, j, i) : Pos) ∈ setPos d (.face 5) ↔ k = d.ke + 1) ∧
    ((0, k, j, i) : Pos) ∉ setPos d (.face 0) ∧
    ((0, k, j, i) : Pos) ∉ setPos d (.face 1) ∧
    ((0, k, j, i) : Pos) ∉ setPos d (.edge 0) ∧
    ((0, k, j, i) : Pos) ∉ setPos d (.edge 1) ∧
    ((0, k, j, i) : Pos) ∉ setPos d (.edge 2) ∧
    ((0, k, j, i) : Pos) ∉ setPos d (.edge 3) ∧
    ((0, k, j, i) : Pos) ∉ setPos d (.edge 4) ∧
    ((0, k, j, i) : Pos) ∉ setPos d (.edge 5) ∧
    ((0, k, j, i) : Pos) ∉ setPos d (.edge 6) ∧
    ((0, k, j, i) : Pos) ∉ setPos d (.edge 7) ∧
    (((0, k, j, i) : Pos) ∈ setPos d (.edge 8) ↔ j = d.js ∧ k = d.ks) ∧
    (((0, k, j, i) : Pos) ∈ setPos d (.edge 9) ↔ j = d.je + 1 ∧ k = d.ks) ∧
    (((0, k, j, i) : Pos) ∈ setPos d (.edge 10) ↔ j = d.js ∧ k = d.ke + 1) ∧
    (((0, k, j, i) : Pos) ∈ setPos d (.edge 11) ↔ j = d.je + 1 ∧ k = d.ke + 1) := by
  refine ⟨?_, ?_, ?_, ?_, ?_, ?_, ?_, ?_, ?_, ?_, ?_, ?_, ?_, ?_, ?_, ?_, ?_, ?_⟩ <;>
  · simp [setPos, mem_grid, mem_rng]
    try omega

theorem avg_0 {k j i : Int} (i1 : d.is ≤ i) (i2 : i ≤ d.ie) (j1 : d.js ≤ j) (j2 : j ≤ d.je + 1) (k1 : d.ks ≤ k) (k2 : k ≤ d.ke + 1) :
    (((0, k, j, i) : Pos) ∈ halfPos d 2 ↔ j = d.js ∧ k ≠ d.ks ∧ k ≠ d.ke + 1) ∧
    (((0, k, j, i) : Pos) ∈ halfPos d 3 ↔ j = d.je + 1 ∧ k ≠ d.ks ∧ k ≠ d.ke + 1) ∧
    (((0, k, j, i) : Pos) ∈ halfPos d 4 ↔ k = d.ks ∧ j ≠ d.js ∧ j ≠ d.je + 1) ∧
    (((0, k, j, i) : Pos) ∈ halfPos d 5 ↔ k = d.ke + 1 ∧ j ≠ d.js ∧ j ≠ d.je + 1) ∧
    ((0, k, j, i) : Pos) ∉ halfPos d 0 ∧
    ((0, k, j, i) : Pos) ∉ halfPos d 1 ∧
    ((0, k, j, i) : Pos) ∉ edgePos d 0 ∧
    ((0, k, j, i) : Pos) ∉ edgePos d 1 ∧
    ((0, k, j, i) : Pos) ∉ edgePos d 2 ∧
    ((0, k, j, i) : Pos) ∉ edgePos d 3 ∧
    ((0, k, j, i) : Pos) ∉ edgePos d 4 ∧
    ((0, k, j, i) : Pos) ∉ edgePos d 5 ∧
    ((0, k, j, i) : Pos) ∉ edgePos d 6 ∧
    ((0, k, j, i) : Pos) ∉ edgePos d 7 ∧
    (((0, k, j, i) : Pos) ∈ edgePos d 8 ↔ j = d.js ∧ k = d.ks) ∧
    (((0, k, j, i) : Pos) ∈ edgePos d 9 ↔ j = d.je + 1 ∧ k = d.ks) ∧
    (((0, k, j, i) : Pos) ∈ edgePos d 10 ↔ j = d.js ∧ k = d.ke + 1) ∧
    (((0, k, j, i) : Pos) ∈ edgePos d 11 ↔ j = d.je + 1 ∧ k = d.ke + 1) := by
  refine ⟨?_, ?_, ?_, ?_, ?_, ?_, ?_, ?_, ?_, ?_, ?_, ?_, ?_, ?_, ?_, ?_, ?_, ?_⟩ <;>
  · simp [halfPos, edgePos, mem_grid, mem_rng]
    try omega

theorem set_1 {k j i : Int} (j1 : d.js ≤ j) (j2 : j ≤ d.je) (i1 : d.is ≤ i) (i2 : i ≤ d.ie + 1) (k1 : d.ks ≤ k) (k2 : k ≤ d.ke + 1) :
    (((1, k, j, i) : Pos) ∈ setPos d (.face 0) ↔ i = d.is) ∧
    (((1, k, j, i) : Pos) ∈ setPos d (.face 1) ↔ i = d.ie + 1) ∧
    (((1, k, j, i) : Pos) ∈ setPos d (.face 4) ↔ k = d.ks) ∧
    (((1, k, j, i) : Pos) ∈ setPos d (.face 5) ↔ k = d.ke + 1) ∧
    ((1, k, j, i) : Pos) ∉ setPos d (.face 2) ∧
    ((1, k, j, i) : Pos) ∉ setPos d (.face 3) ∧
    ((1, k, j, i) : Pos) ∉ setPos d (.edge 0) ∧
    ((1, k, j, i) : Pos) ∉ setPos d (.edge 1) ∧
    ((1, k, j, i) : Pos) ∉ setPos d (.edge 2) ∧
    ((1, k, j, i) : Pos) ∉ setPos d (.edge 3) ∧
    (((1, k, j, i) : Pos) ∈ setPos d (.edge 4) ↔ i = d.is ∧ k = d.ks) ∧
    (((1, k, j, i) : Pos) ∈ setPos d (.edge 5) ↔ i = d.ie + 1 ∧ k = d.ks) ∧
    (((1, k, j, i) : Pos) ∈ setPos d (.edge 6) ↔ i = d.is ∧ k = d.ke + 1) ∧
    (((1, k, j, i) : Pos) ∈ setPos d (.edge 7) ↔ i = d.ie + 1 ∧ k = d.ke + 1) ∧
    ((1, k, j, i) : Pos) ∉ setPos d (.edge 8) ∧
    ((1, k, j, i) : Pos) ∉ setPos d (.edge 9) ∧
    ((1, k, j, i) : Pos) ∉ setPos d (.edge 10) ∧
    ((1, k, j, i) : Pos) ∉ setPos d (.edge 11) := by
  refine ⟨?_, ?_, ?_, ?_, ?_, ?_, ?_, ?_, ?_, ?_, ?_, ?_, ?_, ?_, ?_, ?_, ?_, ?_⟩ <;>
  · simp [setPos, mem_grid, mem_rng]
    try omega

theorem avg_1 {k j i : Int} (j1 : d.js ≤ j) (j2 : j ≤ d.je) (i1 : d.is ≤ i) (i2 : i ≤ d.ie + 1) (k1 : d.ks ≤ k) (k2 : k ≤ d.ke + 1) :
    (((1, k, j, i) : Pos) ∈ halfPos d 0 ↔ i = d.is ∧ k ≠ d.ks ∧ k ≠ d.ke + 1) ∧
    (((1, k, j, i) : Pos) ∈ halfPos d 1 ↔ i = d.ie + 1 ∧ k ≠ d.ks ∧ k ≠ d.ke + 1) ∧
    (((1, k, j, i) : Pos) ∈ halfPos d 4 ↔ k = d.ks ∧ i ≠ d.is ∧ i ≠ d.ie + 1) ∧
    (((1, k, j, i) : Pos) ∈ halfPos d 5 ↔ k = d.ke + 1 ∧ i ≠ d.is ∧ i ≠ d.ie + 1) ∧
    ((1, k, j, i) : Pos) ∉ halfPos d 2 ∧
    ((1, k, j, i) : Pos) ∉ halfPos d 3 ∧
    ((1, k, j, i) : Pos) ∉ edgePos d 0 ∧
    ((1, k, j, i) : Pos) ∉ edgePos d 1 ∧
    ((1, k, j, i) : Pos) ∉ edgePos d 2 ∧
    ((1, k, j, i) : Pos) ∉ edgePos d 3 ∧
    (((1, k, j, i) : Pos) ∈ edgePos d 4 ↔ i = d.is ∧ k = d.ks) ∧
    (((1, k, j, i) : Pos) ∈ edgePos d 5 ↔ i = d.ie + 1 ∧ k = d.ks) ∧
    (((1, k, j, i) : Pos) ∈ edgePos d 6 ↔ i = d.is ∧ k = d.ke + 1) ∧
    (((1, k, j, i) : Pos) ∈ edgePos d 7 ↔ i = d.ie + 1 ∧ k = d.ke + 1) ∧
    ((1, k, j, i) : Pos) ∉ edgePos d 8 ∧
    ((1, k, j, i) : Pos) ∉ edgePos d 9 ∧
    ((1, k, j, i) : Pos) ∉ edgePos d 10 ∧
    ((1, k, j, i) : Pos) ∉ edgePos d 11 := by
  refine ⟨?_, ?_, ?_, ?_, ?_, ?_, ?_, ?_, ?_, ?_, ?_, ?_, ?_, ?_, ?_, ?_, ?_, ?_⟩ <;>
  · simp [halfPos, edgePos, mem_grid, mem_rng]
    try omega

theorem set_2 {k j i : Int} (k1 : d.ks ≤ k) (k2 : k ≤ d.ke) (i1 : d.is ≤ i) (i2 : i ≤ d.ie + 1) (j1 : d.js ≤ j) (j2 : j ≤ d.je + 1) :
    (((2, k, j, i) : Pos) ∈ setPos d (.face 0) ↔ i = d.is) ∧
    (((2, k, j, i) : Pos) ∈ setPos d (.face 1) ↔ i = d.ie + 1) ∧
    (((2, k, j, i) : Pos) ∈ setPos d (.face 2) ↔ j = d.js) ∧
    (((2, k, j, i) : Pos) ∈ setPos d (.face 3) ↔ j = d.je + 1) ∧
    ((2, k, j, i) : Pos) ∉ setPos d (.face 4) ∧
    ((2, k, j, i) : Pos) ∉ setPos d (.face 5) ∧
    (((2, k, j, i) : Pos) ∈ setPos d (.edge 0) ↔ i = d.is ∧ j = d.js) ∧
    (((2, k, j, i) : Pos) ∈ setPos d (.edge 1) ↔ i = d.ie + 1 ∧ j = d.js) ∧
    (((2, k, j, i) : Pos) ∈ setPos d (.edge 2) ↔ i = d.is ∧ j = d.je + 1) ∧
    (((2, k, j, i) : Pos) ∈ setPos d (.edge 3) ↔ i = d.ie + 1 ∧ j = d.je + 1) ∧
    ((2, k, j, i) : Pos) ∉ setPos d (.edge 4) ∧
    ((2, k, j, i) : Pos) ∉ setPos d (.edge 5) ∧
    ((2, k, j, i) : Pos) ∉ setPos d (.edge 6) ∧
    ((2, k, j, i) : Pos) ∉ setPos d (.edge 7) ∧
    ((2, k, j, i) : Pos) ∉ setPos d (.edge 8) ∧
    ((2, k, j, i) : Pos) ∉ setPos d (.edge 9) ∧
    ((2, k, j, i) : Pos) ∉ setPos d (.edge 10) ∧
    ((2, k, j, i) : Pos) ∉ setPos d (.edge 11) := by
  refine ⟨?_, ?_, ?_, ?_, ?_, ?_, ?_, ?_, ?_, ?_, ?_, ?_, ?_, ?_, ?_, ?_, ?_, ?_⟩ <;>
  · simp [setPos, mem_grid, mem_rng]
    try omega

theorem avg_2 {k j i : Int} (k1 : d.ks ≤ k) (k2 : k ≤ d.ke) (i1 : d.is ≤ i) (i2 : i ≤ d.ie + 1) (j1 : d.js ≤ j) (j2 : j ≤ d.je + 1) :
    (((2, k, j, i) : Pos) ∈ halfPos d 0 ↔ i = d.is ∧ j ≠ d.js ∧ j ≠ d.je + 1) ∧
    (((2, k, j, i) : Pos) ∈ halfPos d 1 ↔ i = d.ie + 1 ∧ j ≠ d.js ∧ j ≠ d.je + 1) ∧
    (((2, k, j, i) : Pos) ∈ halfPos d 2 ↔ j = d.js ∧ i ≠ d.is ∧ i ≠ d.ie + 1) ∧
    (((2, k, j, i) : Pos) ∈ halfPos d 3 ↔ j = d.je + 1 ∧ i ≠ d.is ∧ i ≠ d.ie + 1) ∧
    ((2, k, j, i) : Pos) ∉ halfPos d 4 ∧
    ((2, k, j, i) : Pos) ∉ halfPos d 5 ∧
    (((2, k, j, i) : Pos) ∈ edgePos d 0 ↔ i = d.is ∧ j = d.js) ∧
    (((2, k, j, i) : Pos) ∈ edgePos d 1 ↔ i = d.ie + 1 ∧ j = d.js) ∧
    (((2, k, j, i) : Pos) ∈ edgePos d 2 ↔ i = d.is ∧ j = d.je + 1) ∧
    (((2, k, j, i) : Pos) ∈ edgePos d 3 ↔ i = d.ie + 1 ∧ j = d.je + 1) ∧
    ((2, k, j, i) : Pos) ∉ edgePos d 4 ∧
    ((2, k, j, i) : Pos) ∉ edgePos d 5 ∧
    ((2, k, j, i) : Pos) ∉ edgePos d 6 ∧
    ((2, k, j, i) : Pos) ∉ edgePos d 7 ∧
    ((2, k, j, i) : Pos) ∉ edgePos d 8 ∧
    ((2, k, j, i) : Pos) ∉ edgePos d 9 ∧
    ((2, k, j, i) : Pos) ∉ edgePos d 10 ∧
    ((2, k, j, i) : Pos) ∉ edgePos d 11 := by
  refine ⟨?_, ?_, ?_, ?_, ?_, ?_, ?_, ?_, ?_, ?_, ?_, ?_, ?_, ?_, ?_, ?_, ?_, ?_⟩ <;>
  · simp [halfPos, edgePos, mem_grid, mem_rng]
    try omega


end Verif.Emf
