import Verif.Lemmas.BoundaryFn
import Mathlib.Tactic.NormNum
import Mathlib.Algebra.Field.Rat

/-!
# C52: physical boundary functions fill exactly the ghost zones
-/
namespace Verif.Grid
variable {K : Type} [Field K] {c : Conv K} {d : Dims} {bc : Side → BC} {st st' : Blk K}

/-- A block of 4×4×4 cells with two ghost cells: reflecting and outflow walls in x1, the pole below and a communicated boundary above in x2,
communicated and outflow in x3. -/
def demoBC : Side → BC
  | .i1 => .reflect
  | .o1 => .outflow
  | .i2 => .wedge
  | .o2 => .comm
  | .i3 => .comm
  | .o3 => .outflow

example : Fits ⟨2, 4, 4, 4⟩ demoBC := by
  refine ⟨⟨?_, ?_, ?_, ?_⟩, ?_, ?_, ?_, ?_, ?_, ?_, ?_⟩ <;> simp [demoBC]

/-- The pass over the boundaries always completes. -/
theorem boundaries_complete (f : Fits d bc) (c : Conv K) (st : Blk K) : ∃ st', applyPhysicalBoundaries c d bc st = some st' := by
  obtain ⟨_, _, st', h, _⟩ := passes c d bc st f
  exact ⟨st', h⟩

/-- Every cell of the block and its ghost zones, edges and corners included, has the primitive variables of the cell found by taking, in each
direction, the mirror image (reflecting wall, pole), the last active cell (outflow) or the cell itself (elsewhere), with the sign of a velocity
component reversed once for each wall or pole crossed that reverses it. -/
theorem boundary_cells (f : Fits d bc) (h : applyPhysicalBoundaries c d bc st = some st') {n k j i : Int} (hn : 0 ≤ n ∧ n ≤ c.nu)
    (hq : d.Ext 0 0 0 k j i) :
    st'.w (n, k, j, i) =
      srcSgn (eff d bc .i3) (eff d bc .o3) 3 d.ks d.ke n k * (srcSgn (eff d bc .i2) (eff d bc .o2) 2 d.js d.je n j *
        (srcSgn (eff d bc .i1) (eff d bc .o1) 1 d.is d.ie n i *
      st.w (n, cellSrc (eff d bc .i3) (eff d bc .o3) d.ks d.ke k, cellSrc (eff d bc .i2) (eff d bc .o2) d.js d.je j,
        cellSrc (eff d bc .i1) (eff d bc .o1) d.is d.ie i))) := by
  obtain ⟨st1, st2, st3, h', P1, P2, P3⟩ := passes c d bc st f
  obtain rfl := Option.some.inj (h.symm.trans h')
  have z := f.sizes
  obtain ⟨hk, hj, hi⟩ := hq
  have rk := cellSrc_range (eff d bc .i3) (eff d bc .o3) d.ks d.ke d.g3 k z.s3 z.p3 hk.1 (by omega)
  have rj := cellSrc_range (eff d bc .i2) (eff d bc .o2) d.js d.je d.g2 j z.s2 z.p2 hj.1 (by omega)
  rw [P3.w, if_pos ⟨hn, ⟨hk.1, by dsimp only; omega⟩, ⟨hj.1, by dsimp only; omega⟩, ⟨hi.1, by dsimp only; omega⟩⟩]
  rw [P2.w, if_pos ⟨hn, rk, ⟨hj.1, by dsimp only; omega⟩, ⟨hi.1, by dsimp only; omega⟩⟩]
  rw [P1.w, if_pos ⟨hn, rk, rj, ⟨hi.1, by dsimp only; omega⟩⟩]

/-- The same for passive scalars, which have no sign. -/
theorem boundary_scalars (f : Fits d bc) (h : applyPhysicalBoundaries c d bc st = some st') {n k j i : Int} (hn : 0 ≤ n ∧ n ≤ c.ns)
    (hq : d.Ext 0 0 0 k j i) :
    st'.r (n, k, j, i) = st.r (n, cellSrc (eff d bc .i3) (eff d bc .o3) d.ks d.ke k, cellSrc (eff d bc .i2) (eff d bc .o2) d.js d.je j,
        cellSrc (eff d bc .i1) (eff d bc .o1) d.is d.ie i) := by
  obtain ⟨st1, st2, st3, h', P1, P2, P3⟩ := passes c d bc st f
  obtain rfl := Option.some.inj (h.symm.trans h')
  have z := f.sizes
  obtain ⟨hk, hj, hi⟩ := hq
  have rk := cellSrc_range (eff d bc .i3) (eff d bc .o3) d.ks d.ke d.g3 k z.s3 z.p3 hk.1 (by omega)
  have rj := cellSrc_range (eff d bc .i2) (eff d bc .o2) d.js d.je d.g2 j z.s2 z.p2 hj.1 (by omega)
  rw [P3.r, if_pos ⟨hn, ⟨hk.1, by dsimp only; omega⟩, ⟨hj.1, by dsimp only; omega⟩, ⟨hi.1, by dsimp only; omega⟩⟩]
  rw [P2.r, if_pos ⟨hn, rk, ⟨hj.1, by dsimp only; omega⟩, ⟨hi.1, by dsimp only; omega⟩⟩]
  rw [P1.r, if_pos ⟨hn, rk, rj, ⟨hi.1, by dsimp only; omega⟩⟩]
  rw [srcSgn_zero 3 (by norm_num), srcSgn_zero 2 (by norm_num), srcSgn_zero 1 (by norm_num), one_mul, one_mul, one_mul]

/-- Magnetic field on the x1 faces: mirrored about the boundary face in x1, like cells in the other directions. -/
theorem boundary_x1f (f : Fits d bc) (h : applyPhysicalBoundaries c d bc st = some st') {k j i : Int} (hq : d.Ext 0 0 1 k j i) :
    st'.b.x1f (k, j, i) =
      srcSgn (eff d bc .i3) (eff d bc .o3) 3 d.ks d.ke 1 k * (srcSgn (eff d bc .i2) (eff d bc .o2) 2 d.js d.je 1 j *
        (srcSgn (eff d bc .i1) (eff d bc .o1) 1 d.is (d.ie+1) 1 i *
      st.b.x1f (cellSrc (eff d bc .i3) (eff d bc .o3) d.ks d.ke k, cellSrc (eff d bc .i2) (eff d bc .o2) d.js d.je j,
        faceSrc (eff d bc .i1) (eff d bc .o1) d.is d.ie i))) := by
  obtain ⟨st1, st2, st3, h', P1, P2, P3⟩ := passes c d bc st f
  obtain rfl := Option.some.inj (h.symm.trans h')
  have z := f.sizes
  obtain ⟨hk, hj, hi⟩ := hq
  have rk := cellSrc_range (eff d bc .i3) (eff d bc .o3) d.ks d.ke d.g3 k z.s3 z.p3 hk.1 (by omega)
  have rj := cellSrc_range (eff d bc .i2) (eff d bc .o2) d.js d.je d.g2 j z.s2 z.p2 hj.1 (by omega)
  rw [P3.x1, if_pos ⟨⟨hk.1, by dsimp only; omega⟩, ⟨hj.1, by dsimp only; omega⟩, ⟨hi.1, by dsimp only; omega⟩⟩]
  rw [P2.x1, if_pos ⟨rk, ⟨hj.1, by dsimp only; omega⟩, ⟨hi.1, by dsimp only; omega⟩⟩]
  rw [P1.x1, if_pos ⟨rk, rj, ⟨hi.1, by dsimp only; omega⟩⟩]

/-- Magnetic field on the x2 faces; it vanishes on a pole. -/
theorem boundary_x2f (f : Fits d bc) (h : applyPhysicalBoundaries c d bc st = some st') {k j i : Int} (hq : d.Ext 0 1 0 k j i) :
    st'.b.x2f (k, j, i) = if OnPole d bc j then 0 else
      srcSgn (eff d bc .i3) (eff d bc .o3) 3 d.ks d.ke 2 k * (srcSgn (eff d bc .i2) (eff d bc .o2) 2 d.js (d.je+1) 2 j *
        (srcSgn (eff d bc .i1) (eff d bc .o1) 1 d.is d.ie 2 i *
      st.b.x2f (cellSrc (eff d bc .i3) (eff d bc .o3) d.ks d.ke k, faceSrc (eff d bc .i2) (eff d bc .o2) d.js d.je j,
        cellSrc (eff d bc .i1) (eff d bc .o1) d.is d.ie i))) := by
  obtain ⟨st1, st2, st3, h', P1, P2, P3⟩ := passes c d bc st f
  obtain rfl := Option.some.inj (h.symm.trans h')
  have z := f.sizes
  obtain ⟨hk, hj, hi⟩ := hq
  have rk := cellSrc_range (eff d bc .i3) (eff d bc .o3) d.ks d.ke d.g3 k z.s3 z.p3 hk.1 (by omega)
  have rj := faceSrc_range (eff d bc .i2) (eff d bc .o2) d.js d.je d.g2 j z.s2 z.p2 hj.1 (by omega)
  rw [P3.x2, if_pos ⟨⟨hk.1, by dsimp only; omega⟩, ⟨hj.1, by dsimp only; omega⟩, ⟨hi.1, by dsimp only; omega⟩⟩]
  rw [P2.x2, if_pos ⟨rk, ⟨hj.1, by dsimp only; omega⟩, ⟨hi.1, by dsimp only; omega⟩⟩]
  by_cases hp : OnPole d bc j
  · rw [if_pos hp]
    unfold OnPole at hp
    dsimp only
    rw [if_pos hp, mul_zero]
  · rw [if_neg hp]
    unfold OnPole at hp
    dsimp only
    rw [if_neg hp]
    rw [P1.x2, if_pos ⟨rk, rj, ⟨hi.1, by dsimp only; omega⟩⟩]

/-- Magnetic field on the x3 faces. -/
theorem boundary_x3f (f : Fits d bc) (h : applyPhysicalBoundaries c d bc st = some st') {k j i : Int} (hq : d.Ext 1 0 0 k j i) :
    st'.b.x3f (k, j, i) =
      srcSgn (eff d bc .i3) (eff d bc .o3) 3 d.ks (d.ke+1) 3 k * (srcSgn (eff d bc .i2) (eff d bc .o2) 2 d.js d.je 3 j *
        (srcSgn (eff d bc .i1) (eff d bc .o1) 1 d.is d.ie 3 i *
      st.b.x3f (faceSrc (eff d bc .i3) (eff d bc .o3) d.ks d.ke k, cellSrc (eff d bc .i2) (eff d bc .o2) d.js d.je j,
        cellSrc (eff d bc .i1) (eff d bc .o1) d.is d.ie i))) := by
  obtain ⟨st1, st2, st3, h', P1, P2, P3⟩ := passes c d bc st f
  obtain rfl := Option.some.inj (h.symm.trans h')
  have z := f.sizes
  obtain ⟨hk, hj, hi⟩ := hq
  have rk := faceSrc_range (eff d bc .i3) (eff d bc .o3) d.ks d.ke d.g3 k z.s3 z.p3 hk.1 (by omega)
  have rj := cellSrc_range (eff d bc .i2) (eff d bc .o2) d.js d.je d.g2 j z.s2 z.p2 hj.1 (by omega)
  rw [P3.x3, if_pos ⟨⟨hk.1, by dsimp only; omega⟩, ⟨hj.1, by dsimp only; omega⟩, ⟨hi.1, by dsimp only; omega⟩⟩]
  rw [P2.x3, if_pos ⟨rk, ⟨hj.1, by dsimp only; omega⟩, ⟨hi.1, by dsimp only; omega⟩⟩]
  rw [P1.x3, if_pos ⟨rk, rj, ⟨hi.1, by dsimp only; omega⟩⟩]

/-- Nothing outside the block and its ghost zones is written, nor any variable beyond the last. -/
theorem boundary_elsewhere (f : Fits d bc) (h : applyPhysicalBoundaries c d bc st = some st') (n k j i : Int) :
    (¬ ((0 ≤ n ∧ n ≤ c.nu) ∧ d.Ext 0 0 0 k j i) → st'.w (n, k, j, i) = st.w (n, k, j, i)) ∧
    (¬ ((0 ≤ n ∧ n ≤ c.ns) ∧ d.Ext 0 0 0 k j i) → st'.r (n, k, j, i) = st.r (n, k, j, i)) ∧
    (¬ d.Ext 0 0 1 k j i → st'.b.x1f (k, j, i) = st.b.x1f (k, j, i)) ∧
    (¬ d.Ext 0 1 0 k j i → st'.b.x2f (k, j, i) = st.b.x2f (k, j, i)) ∧
    (¬ d.Ext 1 0 0 k j i → st'.b.x3f (k, j, i) = st.b.x3f (k, j, i)) := by
  obtain ⟨st1, st2, st3, h', P1, P2, P3⟩ := passes c d bc st f
  obtain rfl := Option.some.inj (h.symm.trans h')
  have z := f.sizes
  obtain ⟨⟨b1, b2⟩, b3, b4⟩ := Dims.b_range (bc := bc) z
  have n2 := z.n2; have n3 := z.n3; have n1 := z.n1
  unfold Dims.Ext
  refine ⟨fun hno => ?_, fun hno => ?_, fun hno => ?_, fun hno => ?_, fun hno => ?_⟩
  · rw [P3.w, if_neg (fun x => hno ⟨x.1, by have y := x.2; simp only [InBox] at y; omega⟩), P2.w, if_neg (fun x => hno ⟨x.1, by have y := x.2; simp only [InBox] at y; omega⟩), P1.w, if_neg (fun x => hno ⟨x.1, by have y := x.2; simp only [InBox] at y; omega⟩)]
  · rw [P3.r, if_neg (fun x => hno ⟨x.1, by have y := x.2; simp only [InBox] at y; omega⟩), P2.r, if_neg (fun x => hno ⟨x.1, by have y := x.2; simp only [InBox] at y; omega⟩), P1.r, if_neg (fun x => hno ⟨x.1, by have y := x.2; simp only [InBox] at y; omega⟩)]
  · rw [P3.x1, if_neg (fun x => hno (by have y := x; simp only [InBox] at y; omega)), P2.x1, if_neg (fun x => hno (by have y := x; simp only [InBox] at y; omega)), P1.x1, if_neg (fun x => hno (by have y := x; simp only [InBox] at y; omega))]
  · rw [P3.x2, if_neg (fun x => hno (by have y := x; simp only [InBox] at y; omega)), P2.x2, if_neg (fun x => hno (by have y := x; simp only [InBox] at y; omega)), P1.x2, if_neg (fun x => hno (by have y := x; simp only [InBox] at y; omega))]
  · rw [P3.x3, if_neg (fun x => hno (by have y := x; simp only [InBox] at y; omega)), P2.x3, if_neg (fun x => hno (by have y := x; simp only [InBox] at y; omega)), P1.x3, if_neg (fun x => hno (by have y := x; simp only [InBox] at y; omega))]

/-- The ghost cells set by boundary functions: in some direction beyond a boundary that is not communicated. -/
def Dims.Set (d : Dims) (bc : Side → BC) (k j i : Int) : Prop :=
  Phys (eff d bc .i1) (eff d bc .o1) d.is d.ie i ∨ Phys (eff d bc .i2) (eff d bc .o2) d.js d.je j ∨
  Phys (eff d bc .i3) (eff d bc .o3) d.ks d.ke k

/-- In every ghost cell set by a boundary function the cell-centred field and the conserved variables are recomputed from the new faces and
the new primitive variables, and they are still consistent when the pass is over (away from the pole, or if the field on the pole vanishes to
begin with). -/
theorem boundary_coherent (f : Fits d bc) (h : applyPhysicalBoundaries c d bc st = some st')
    (hpole : ∀ k j i, OnPole d bc j → st.b.x2f (k, j, i) = 0)
    {k j i : Int} (hq : d.Ext 0 0 0 k j i) (hs : d.Set bc k j i) : Coherent c st' k j i := by
  obtain ⟨st1, st2, st3, h', P1, P2, P3⟩ := passes c d bc st f
  obtain rfl := Option.some.inj (h.symm.trans h')
  obtain ⟨hk, hj, hi⟩ := hq
  by_cases pk : Phys (eff d bc .i3) (eff d bc .o3) d.ks d.ke k
  · exact P3.coh k j i ⟨⟨hk.1, by dsimp only; omega⟩, ⟨hj.1, by dsimp only; omega⟩, ⟨hi.1, by dsimp only; omega⟩⟩ pk
  · have kin := Dims.k_in hk.1 (by omega) pk
    refine P3.keep pk ?_
    by_cases pj : Phys (eff d bc .i2) (eff d bc .o2) d.js d.je j
    · exact P2.coh k j i ⟨kin, ⟨hj.1, by dsimp only; omega⟩, ⟨hi.1, by dsimp only; omega⟩⟩ pj
    · have jin := Dims.j_in hj.1 (by omega) pj
      refine P2.keep pj ?_ ?_
      · intro j' hj'
        rw [P1.x2]
        split
        · rw [hpole _ j' _ hj', mul_zero]
        · exact hpole _ j' _ hj'
      · refine P1.coh k j i ⟨kin, jin, ⟨hi.1, by dsimp only; omega⟩⟩ ?_
        rcases hs with h | h | h
        · exact h
        · exact absurd h pj
        · exact absurd h pk

/-- Cell-centred field as the mean of the two faces (Cartesian coordinates); one hydro variable. -/
def demoConv : Conv Rat where
  nu := 0
  ns := -1
  ccf := fun _ f1 f2 f3 m => if m = 0 then (f1.1 + f1.2) / 2 else if m = 1 then (f2.1 + f2.2) / 2 else (f3.1 + f3.2) / 2
  p2c := fun w _ n => w n
def ones : Blk Rat := ⟨fun _ => 1, ⟨fun _ => 1, fun _ => 1, fun _ => 1⟩, fun _ => 1, fun _ => 1, fun _ => 1⟩
def poleBC : Side → BC
  | .i1 => .outflow
  | .i2 => .wedge
  | _ => .comm

/-- Without the hypothesis on the pole `boundary_coherent` is false: the x1 pass computes the cell-centred field next to the pole before the x2 pass sets the pole faces to zero. -/
theorem boundary_pole_stale : ∃ (st st' : Blk Rat), Fits ⟨1, 2, 2, 1⟩ poleBC ∧ applyPhysicalBoundaries demoConv ⟨1, 2, 2, 1⟩ poleBC st = some st' ∧
    Dims.Ext ⟨1, 2, 2, 1⟩ 0 0 0 0 1 0 ∧ Dims.Set ⟨1, 2, 2, 1⟩ poleBC 0 1 0 ∧ ¬ Coherent demoConv st' 0 1 0 := by
  have f : Fits ⟨1, 2, 2, 1⟩ poleBC := by
    refine ⟨⟨?_, ?_, ?_, ?_⟩, ?_, ?_, ?_, ?_, ?_, ?_, ?_⟩ <;> simp [poleBC]
  obtain ⟨_, _, st', h, _⟩ := passes demoConv ⟨1, 2, 2, 1⟩ poleBC ones f
  refine ⟨ones, st', f, h, by unfold Dims.Ext; decide, Or.inl (by unfold Phys; decide), ?_⟩
  intro hc
  have := hc.1 1 (by norm_num)
  have e : (applyPhysicalBoundaries demoConv ⟨1, 2, 2, 1⟩ poleBC ones).map (fun s => decide (s.bcc (1, 0, 1, 0) =
    demoConv.ccf (0, 1, 0) (s.b.around 0 1 0).1 (s.b.around 0 1 0).2.1 (s.b.around 0 1 0).2.2 1)) = some false := by decide +kernel
  rw [h, Option.map_some, Option.some_inj, decide_eq_false_iff_not] at e
  exact e this

/-- A polar wedge on an x1 side is a fatal error. -/
theorem wedge_x1_fatal (hw : bc .i1 = .wedge) : applyPhysicalBoundaries c d bc st = none := by
  unfold applyPhysicalBoundaries applySide
  simp [hw, dispatch]

/-- The cell-centred field and the conserved variables of all other cells are left alone. -/
theorem boundary_conserved_elsewhere (f : Fits d bc) (h : applyPhysicalBoundaries c d bc st = some st') {k j i : Int}
    (hs : ¬ (d.Ext 0 0 0 k j i ∧ d.Set bc k j i)) (n : Int) :
    st'.bcc (n, k, j, i) = st.bcc (n, k, j, i) ∧ st'.u (n, k, j, i) = st.u (n, k, j, i) := by
  obtain ⟨st1, st2, st3, h', P1, P2, P3⟩ := passes c d bc st f
  obtain rfl := Option.some.inj (h.symm.trans h')
  have z := f.sizes
  obtain ⟨⟨b1, b2⟩, b3, b4⟩ := Dims.b_range (bc := bc) z
  have n2 := z.n2; have n3 := z.n3; have n1 := z.n1
  have e3 := P3.out n k j i (fun x => hs ⟨by have y := x.1; unfold Dims.Ext; simp only [InBox] at y; omega, Or.inr (Or.inr x.2)⟩)
  have e2 := P2.out n k j i (fun x => hs ⟨by have y := x.1; unfold Dims.Ext; simp only [InBox] at y; omega, Or.inr (Or.inl x.2)⟩)
  have e1 := P1.out n k j i (fun x => hs ⟨by have y := x.1; unfold Dims.Ext; simp only [InBox] at y; omega, Or.inl x.2⟩)
  exact ⟨e3.1.trans (e2.1.trans e1.1), e3.2.trans (e2.2.trans e1.2)⟩

/-- No active cell is written. -/
theorem boundary_active (f : Fits d bc) (h : applyPhysicalBoundaries c d bc st = some st') {n k j i : Int}
    (hk : d.ks ≤ k ∧ k ≤ d.ke) (hj : d.js ≤ j ∧ j ≤ d.je) (hi : d.is ≤ i ∧ i ≤ d.ie) :
    st'.w (n, k, j, i) = st.w (n, k, j, i) ∧ st'.u (n, k, j, i) = st.u (n, k, j, i) ∧ st'.bcc (n, k, j, i) = st.bcc (n, k, j, i) ∧
    st'.r (n, k, j, i) = st.r (n, k, j, i) := by
  have z := f.sizes
  have n2 := z.n2; have n3 := z.n3; have n1 := z.n1
  have pk : ¬ Phys (eff d bc .i3) (eff d bc .o3) d.ks d.ke k := by unfold Phys; omega
  have pj : ¬ Phys (eff d bc .i2) (eff d bc .o2) d.js d.je j := by unfold Phys; omega
  have pi : ¬ Phys (eff d bc .i1) (eff d bc .o1) d.is d.ie i := by unfold Phys; omega
  have hq : d.Ext 0 0 0 k j i := by unfold Dims.Ext; omega
  have hc := boundary_conserved_elsewhere f h (k := k) (j := j) (i := i)
    (by rintro ⟨-, x | x | x⟩; exacts [pi x, pj x, pk x]) n
  refine ⟨?_, hc.2, hc.1, ?_⟩
  · by_cases hn : 0 ≤ n ∧ n ≤ c.nu
    · rw [boundary_cells f h hn hq, cellSrc_id pk, cellSrc_id pj, cellSrc_id pi, srcSgn_id pk, srcSgn_id pj, srcSgn_id pi, one_mul, one_mul, one_mul]
    · exact (boundary_elsewhere f h n k j i).1 (fun x => hn x.1)
  · by_cases hn : 0 ≤ n ∧ n ≤ c.ns
    · rw [boundary_scalars f h hn hq, cellSrc_id pk, cellSrc_id pj, cellSrc_id pi]
    · exact (boundary_elsewhere f h n k j i).2.1 (fun x => hn x.1)

/-- A reflecting inner x1 wall: the ghost cell at distance `m` from the wall is the mirror image of the active cell at distance `m`, with the
normal velocity (variable 1) reversed. -/
theorem reflecting_wall (f : Fits d bc) (h : applyPhysicalBoundaries c d bc st = some st') (hr : bc .i1 = .reflect) {n k j m : Int}
    (hn : 0 ≤ n ∧ n ≤ c.nu) (hk : d.ks ≤ k ∧ k ≤ d.ke) (hj : d.js ≤ j ∧ j ≤ d.je) (hm : 0 ≤ m ∧ m < d.ng) :
    st'.w (n, k, j, d.is - 1 - m) = if n = 1 then -st.w (n, k, j, d.is + m) else st.w (n, k, j, d.is + m) := by
  have z := f.sizes
  have n2 := z.n2; have n3 := z.n3; have p1 := z.p1
  have pk : ¬ Phys (eff d bc .i3) (eff d bc .o3) d.ks d.ke k := by unfold Phys; omega
  have pj : ¬ Phys (eff d bc .i2) (eff d bc .o2) d.js d.je j := by unfold Phys; omega
  rw [boundary_cells f h hn (by unfold Dims.Ext; omega), cellSrc_id pk, cellSrc_id pj, srcSgn_id pk, srcSgn_id pj, one_mul, one_mul]
  have e1 : eff d bc .i1 = .reflect := hr
  have e2 : cellSrc (eff d bc .i1) (eff d bc .o1) d.is d.ie (d.is - 1 - m) = d.is + m := by
    unfold cellSrc; rw [if_pos (by omega), e1]; simp only [BC.lo]; omega
  have e3 : (srcSgn (eff d bc .i1) (eff d bc .o1) 1 d.is d.ie n (d.is - 1 - m) : K) = if n = 1 then -1 else 1 := by
    unfold srcSgn; rw [if_pos (by omega), e1]; rfl
  rw [e2, e3]
  split <;> simp

/-- An outflow x3 boundary: all ghost cells above the last active cell are copies of it, signs included. -/
theorem outflow_copies (f : Fits d bc) (h : applyPhysicalBoundaries c d bc st = some st') (h3 : d.nx3 > 1) (hr : bc .o3 = .outflow) {n j i m : Int}
    (hn : 0 ≤ n ∧ n ≤ c.nu) (hi : d.is ≤ i ∧ i ≤ d.ie) (hj : d.js ≤ j ∧ j ≤ d.je) (hm : 1 ≤ m ∧ m ≤ d.ng) :
    st'.w (n, d.ke + m, j, i) = st.w (n, d.ke, j, i) := by
  have z := f.sizes
  have n2 := z.n2; have p3 := z.p3; have n1 := z.n1
  have g : d.g3 = d.ng := if_pos h3
  have pi : ¬ Phys (eff d bc .i1) (eff d bc .o1) d.is d.ie i := by unfold Phys; omega
  have pj : ¬ Phys (eff d bc .i2) (eff d bc .o2) d.js d.je j := by unfold Phys; omega
  rw [boundary_cells f h hn (by unfold Dims.Ext; omega), cellSrc_id pi, cellSrc_id pj, srcSgn_id pi, srcSgn_id pj, one_mul, one_mul]
  have e1 : eff d bc .o3 = .outflow := (if_pos h3).trans hr
  have e2 : cellSrc (eff d bc .i3) (eff d bc .o3) d.ks d.ke (d.ke + m) = d.ke := by
    unfold cellSrc; rw [if_neg (by omega), if_pos (by omega), e1]; rfl
  have e3 : (srcSgn (eff d bc .i3) (eff d bc .o3) 3 d.ks d.ke n (d.ke + m) : K) = 1 := by
    unfold srcSgn; rw [if_neg (by omega), if_pos (by omega), e1]; rfl
  rw [e2, e3, one_mul]

/-- Applying the boundaries twice changes nothing more. -/
theorem boundary_idempotent (f : Fits d bc) (h : applyPhysicalBoundaries c d bc st = some st') {st'' : Blk K}
    (h' : applyPhysicalBoundaries c d bc st' = some st'') : st''.w = st'.w ∧ st''.b = st'.b ∧ st''.r = st'.r := by
  have z := f.sizes
  have nz2 := z.n2; have nz3 := z.n3; have nz1 := z.n1
  refine ⟨?_, ?_, ?_⟩
  · funext ⟨n, k, j, i⟩
    by_cases hn : (0 ≤ n ∧ n ≤ c.nu) ∧ d.Ext 0 0 0 k j i
    · obtain ⟨hn, hq⟩ := hn
      have qk := cellSrc_in (l := eff d bc .i3) (h := eff d bc .o3) z.n3 z.s3 z.p3 hq.1.1 (by have := hq.1.2; omega)
      have pk := cellSrc_nphys (l := eff d bc .i3) (h := eff d bc .o3) z.s3 z.p3 hq.1.1 (by have := hq.1.2; omega)
      have qj := cellSrc_in (l := eff d bc .i2) (h := eff d bc .o2) z.n2 z.s2 z.p2 hq.2.1.1 (by have := hq.2.1.2; omega)
      have pj := cellSrc_nphys (l := eff d bc .i2) (h := eff d bc .o2) z.s2 z.p2 hq.2.1.1 (by have := hq.2.1.2; omega)
      have qi := cellSrc_in (l := eff d bc .i1) (h := eff d bc .o1) z.n1 z.s1 z.p1 hq.2.2.1 (by have := hq.2.2.2; omega)
      have pi := cellSrc_nphys (l := eff d bc .i1) (h := eff d bc .o1) z.s1 z.p1 hq.2.2.1 (by have := hq.2.2.2; omega)
      rw [boundary_cells f h' hn hq, boundary_cells f h hn hq, boundary_cells f h hn (by unfold Dims.Ext; omega), cellSrc_id pk, cellSrc_id pj, cellSrc_id pi, srcSgn_id pk, srcSgn_id pj, srcSgn_id pi, one_mul, one_mul, one_mul]
    · exact (boundary_elsewhere f h' n k j i).1 hn
  · have x1 : st''.b.x1f = st'.b.x1f := by
      · funext ⟨k, j, i⟩
        by_cases hn : d.Ext 0 0 1 k j i
        · have hq := hn
          have qk := cellSrc_in (l := eff d bc .i3) (h := eff d bc .o3) z.n3 z.s3 z.p3 hq.1.1 (by have := hq.1.2; omega)
          have pk := cellSrc_nphys (l := eff d bc .i3) (h := eff d bc .o3) z.s3 z.p3 hq.1.1 (by have := hq.1.2; omega)
          have qj := cellSrc_in (l := eff d bc .i2) (h := eff d bc .o2) z.n2 z.s2 z.p2 hq.2.1.1 (by have := hq.2.1.2; omega)
          have pj := cellSrc_nphys (l := eff d bc .i2) (h := eff d bc .o2) z.s2 z.p2 hq.2.1.1 (by have := hq.2.1.2; omega)
          have qi := faceSrc_in (l := eff d bc .i1) (h := eff d bc .o1) z.n1 z.s1 z.p1 hq.2.2.1 (by have := hq.2.2.2; omega)
          have pi := faceSrc_nphys (l := eff d bc .i1) (h := eff d bc .o1) z.s1 z.p1 hq.2.2.1 (by have := hq.2.2.2; omega)
          rw [boundary_x1f f h' hq, boundary_x1f f h hq, boundary_x1f f h (by unfold Dims.Ext; omega), cellSrc_id pk, cellSrc_id pj, faceSrc_id pi, srcSgn_id pk, srcSgn_id pj, srcSgn_id pi, one_mul, one_mul, one_mul]
        · exact (boundary_elsewhere f h' 0 k j i).2.2.1 hn
    have x2 : st''.b.x2f = st'.b.x2f := by
      · funext ⟨k, j, i⟩
        by_cases hn : d.Ext 0 1 0 k j i
        · have hq := hn
          have qk := cellSrc_in (l := eff d bc .i3) (h := eff d bc .o3) z.n3 z.s3 z.p3 hq.1.1 (by have := hq.1.2; omega)
          have pk := cellSrc_nphys (l := eff d bc .i3) (h := eff d bc .o3) z.s3 z.p3 hq.1.1 (by have := hq.1.2; omega)
          have qj := faceSrc_in (l := eff d bc .i2) (h := eff d bc .o2) z.n2 z.s2 z.p2 hq.2.1.1 (by have := hq.2.1.2; omega)
          have pj := faceSrc_nphys (l := eff d bc .i2) (h := eff d bc .o2) z.s2 z.p2 hq.2.1.1 (by have := hq.2.1.2; omega)
          have qi := cellSrc_in (l := eff d bc .i1) (h := eff d bc .o1) z.n1 z.s1 z.p1 hq.2.2.1 (by have := hq.2.2.2; omega)
          have pi := cellSrc_nphys (l := eff d bc .i1) (h := eff d bc .o1) z.s1 z.p1 hq.2.2.1 (by have := hq.2.2.2; omega)
          rw [boundary_x2f f h' hq, boundary_x2f f h hq]
          by_cases hp : OnPole d bc j
          · rw [if_pos hp, if_pos hp]
          · rw [if_neg hp, if_neg hp, boundary_x2f f h (by unfold Dims.Ext; omega), if_neg (OnPole.src f hq.2.1.1 hq.2.1.2 hp), cellSrc_id pk, faceSrc_id pj, cellSrc_id pi, srcSgn_id pk, srcSgn_id pj, srcSgn_id pi, one_mul, one_mul, one_mul]
        · exact (boundary_elsewhere f h' 0 k j i).2.2.2.1 hn
    have x3 : st''.b.x3f = st'.b.x3f := by
      · funext ⟨k, j, i⟩
        by_cases hn : d.Ext 1 0 0 k j i
        · have hq := hn
          have qk := faceSrc_in (l := eff d bc .i3) (h := eff d bc .o3) z.n3 z.s3 z.p3 hq.1.1 (by have := hq.1.2; omega)
          have pk := faceSrc_nphys (l := eff d bc .i3) (h := eff d bc .o3) z.s3 z.p3 hq.1.1 (by have := hq.1.2; omega)
          have qj := cellSrc_in (l := eff d bc .i2) (h := eff d bc .o2) z.n2 z.s2 z.p2 hq.2.1.1 (by have := hq.2.1.2; omega)
          have pj := cellSrc_nphys (l := eff d bc .i2) (h := eff d bc .o2) z.s2 z.p2 hq.2.1.1 (by have := hq.2.1.2; omega)
          have qi := cellSrc_in (l := eff d bc .i1) (h := eff d bc .o1) z.n1 z.s1 z.p1 hq.2.2.1 (by have := hq.2.2.2; omega)
          have pi := cellSrc_nphys (l := eff d bc .i1) (h := eff d bc .o1) z.s1 z.p1 hq.2.2.1 (by have := hq.2.2.2; omega)
          rw [boundary_x3f f h' hq, boundary_x3f f h hq, boundary_x3f f h (by unfold Dims.Ext; omega), faceSrc_id pk, cellSrc_id pj, cellSrc_id pi, srcSgn_id pk, srcSgn_id pj, srcSgn_id pi, one_mul, one_mul, one_mul]
        · exact (boundary_elsewhere f h' 0 k j i).2.2.2.2 hn
    cases hb : st''.b
    cases hb' : st'.b
    rw [hb, hb'] at x1 x2 x3
    simp only at x1 x2 x3
    rw [x1, x2, x3]
  · funext ⟨n, k, j, i⟩
    by_cases hn : (0 ≤ n ∧ n ≤ c.ns) ∧ d.Ext 0 0 0 k j i
    · obtain ⟨hn, hq⟩ := hn
      have qk := cellSrc_in (l := eff d bc .i3) (h := eff d bc .o3) z.n3 z.s3 z.p3 hq.1.1 (by have := hq.1.2; omega)
      have pk := cellSrc_nphys (l := eff d bc .i3) (h := eff d bc .o3) z.s3 z.p3 hq.1.1 (by have := hq.1.2; omega)
      have qj := cellSrc_in (l := eff d bc .i2) (h := eff d bc .o2) z.n2 z.s2 z.p2 hq.2.1.1 (by have := hq.2.1.2; omega)
      have pj := cellSrc_nphys (l := eff d bc .i2) (h := eff d bc .o2) z.s2 z.p2 hq.2.1.1 (by have := hq.2.1.2; omega)
      have qi := cellSrc_in (l := eff d bc .i1) (h := eff d bc .o1) z.n1 z.s1 z.p1 hq.2.2.1 (by have := hq.2.2.2; omega)
      have pi := cellSrc_nphys (l := eff d bc .i1) (h := eff d bc .o1) z.s1 z.p1 hq.2.2.1 (by have := hq.2.2.2; omega)
      rw [boundary_scalars f h' hn hq, boundary_scalars f h hn hq, boundary_scalars f h hn (by unfold Dims.Ext; omega), cellSrc_id pk, cellSrc_id pj, cellSrc_id pi]
    · exact (boundary_elsewhere f h' n k j i).2.1 hn

end Verif.Grid
