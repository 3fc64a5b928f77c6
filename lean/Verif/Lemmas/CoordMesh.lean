import Verif.Lemmas.Coord
import Verif.Props.MeshGen
import Verif.Props.FluxMsg

/-! # Coordinates of all blocks of a mesh -/
namespace Verif.Coord
open Verif.Grid Verif.MeshGen Verif.FluxMsg

/-! ## Positions -/

/-- Positions of the faces of one direction over the whole mesh. -/
noncomputable def gpos (on : Bool) (root : ℕ) (D : Dir) (L : ℕ) (i : ℤ) : ℝ :=
  if on then D.pos ((i : ℝ) * 2 ^ root / (D.ms.nx * 2 ^ L)) else if i ≤ 0 then D.ms.xmin else D.ms.xmax

/-- Number of blocks. -/
def nblk (on : Bool) (root nrb L : ℕ) : ℕ := if on then nrb * 2 ^ (L - root) else 1

section
variable {on : Bool} {root nrb L : ℕ} {nx ng : ℤ} {D : Dir} (h : DirOf on nrb nx ng D)

theorem pos_mono (g : D.GenOk) : StrictMono D.pos := by
  intro a b hab
  unfold Dir.pos
  apply g.mono
  split_ifs <;> linarith

theorem pos_zero (g : D.GenOk) : D.pos 0 = D.ms.xmin := by
  unfold Dir.pos
  rw [← g.lo]; congr 1; split_ifs <;> norm_num

theorem pos_one (g : D.GenOk) : D.pos 1 = D.ms.xmax := by
  unfold Dir.pos
  rw [← g.hi]; congr 1; split_ifs <;> norm_num

include h in
theorem gpos_lines : Lines on (gpos on root D) := by
  have hn : (0:ℝ) < D.ms.nx := by exact_mod_cast nx_pos h.ok
  intro L i
  unfold gpos
  cases on
  · simp
  · simp only [if_true]
    congr 1
    push_cast
    rw [pow_succ]
    field_simp

include h in
theorem gpos_lt (hon : on = true) {i j : ℤ} (hij : i < j) : gpos on root D L i < gpos on root D L j := by
  have hn : (0:ℝ) < D.ms.nx := by exact_mod_cast nx_pos h.ok
  unfold gpos
  rw [if_pos hon, if_pos hon]
  apply pos_mono (h.gen hon)
  have : (i:ℝ) < j := by exact_mod_cast hij
  gcongr

include h in
theorem gpos_le (i : ℤ) : gpos on root D L i ≤ gpos on root D L (i+1) := by
  by_cases hon : on = true
  · exact (gpos_lt h hon (by omega)).le
  · unfold gpos
    rw [if_neg hon, if_neg hon]
    have := h.ok.lt
    split_ifs <;> first | omega | linarith

include h in
theorem gpos_mono {i j : ℤ} (hij : i ≤ j) : gpos on root D L i ≤ gpos on root D L j :=
  monotone_int_of_le_succ (gpos_le h) hij

include h in
theorem gpos_zero : gpos on root D L 0 = D.ms.xmin := by
  unfold gpos
  split_ifs with h1
  · simp [pos_zero (h.gen h1)]
  · rfl
  · omega

include h in
theorem total_cells (hL : root ≤ L) (hon : on = true) :
    (((nblk on root nrb L * nx : ℤ)) : ℝ) * 2 ^ root = D.ms.nx * 2 ^ L := by
  have e : (nx : ℝ) = D.bnx := by rw [← h.bnx]; simp
  have e2 : (D.ms.nx : ℝ) = D.nrb * D.bnx := by rw [h.ok.cells]; push_cast; ring
  unfold nblk
  rw [if_pos hon, e2, h.nrb]
  push_cast
  rw [e]
  have : (2:ℝ) ^ L = 2 ^ (L - root) * 2 ^ root := by rw [← pow_add]; congr 1; omega
  rw [this]; ring

include h in
theorem gpos_end (hL : root ≤ L) (h1 : on = false → nx = 1) : gpos on root D L (nblk on root nrb L * nx) = D.ms.xmax := by
  by_cases hon : on = true
  · have hn : (0:ℝ) < D.ms.nx := by exact_mod_cast nx_pos h.ok
    unfold gpos
    rw [if_pos hon, total_cells h hL hon, div_self (by positivity), pos_one (h.gen hon)]
  · have := h1 (by simpa using hon)
    unfold gpos nblk
    rw [if_neg hon, if_neg hon, this]
    simp

include h in
theorem gpos_cell (h1 : on = false → nx = 1) {i : ℤ} (i0 : 0 ≤ i) (i1 : i < nblk on root nrb L * nx) :
    gpos on root D L i < gpos on root D L (i+1) := by
  by_cases hon : on = true
  · exact gpos_lt h hon (by omega)
  · have := h1 (by simpa using hon)
    unfold nblk at i1
    rw [if_neg hon, this] at i1
    have : i = 0 := by push_cast at i1; omega
    subst this
    unfold gpos
    rw [if_neg hon, if_neg hon]
    simpa using h.ok.lt

include h in
theorem gpos_range (hL : root ≤ L) (h1 : on = false → nx = 1) {i : ℤ} (i0 : 0 ≤ i) (i1 : i ≤ nblk on root nrb L * nx) :
    D.ms.xmin ≤ gpos on root D L i ∧ gpos on root D L i ≤ D.ms.xmax := by
  constructor
  · rw [← gpos_zero h]; exact gpos_mono h i0
  · rw [← gpos_end h hL h1]; exact gpos_mono h i1

/-- The faces `il` to `iu + 1` are those of the positions `g` from `a` on. -/
def Match (f : Faces) (g : ℤ → ℝ) (a il iu : ℤ) : Prop :=
  (∀ i, il ≤ i → i ≤ iu + 1 → f.xf i = g (a + (i - il))) ∧
  ∀ i, il ≤ i → i ≤ iu → f.dxf i = f.xf (i+1) - f.xf i

include h in
theorem match_faces (hL : root ≤ L) (hon : on = true) (hng : ng ≤ nx) (hng0 : 0 ≤ ng) {il iu : ℤ} (hc : iu + 1 - il = nx) (px : ℤ) (s : Faces) :
    Match (faces D (L - root) px false il iu s) (gpos on root D L) (px * nx) il iu := by
  have hn : (0:ℝ) < D.ms.nx := by exact_mod_cast nx_pos h.ok
  have hb : D.Cells false il iu := by
    unfold Dir.Cells stride
    rw [h.bnx]; simpa using hc
  obtain ⟨f1, f2, f3, f4⟩ := faces_spec (lev := L - root) (lx := px) h.ok (h.gen hon) hb (by rw [h.ng]; omega) s
  refine ⟨fun i i0 i1 => ?_, fun i i0 i1 => f4 i (by rw [h.ng]; omega) (by rw [h.ng]; omega)⟩
  rw [f1 i i0 i1]
  unfold gpos
  rw [if_pos hon]
  unfold faceNo stride
  rw [h.bnx, if_neg (by simp)]
  push_cast
  have : (2:ℝ) ^ L = 2 ^ (L - root) * 2 ^ root := by rw [← pow_add]; congr 1; omega
  rw [this]
  field_simp
  ring

theorem match_one (hon : on = false) {il iu : ℤ} (hc : iu = il) (s : Faces) :
    Match (oneCell D.ms.xmin D.ms.xmax il s) (gpos on root D L) 0 il iu := by
  subst hc hon
  refine ⟨fun i i0 i1 => ?_, fun i i0 i1 => ?_⟩
  · have : i = iu ∨ i = iu + 1 := by omega
    unfold oneCell gpos
    rcases this with rfl | rfl
    · simp [Function.update]
    · simp [Function.update]
  · have : i = iu := by omega
    subst this
    simp [oneCell, Function.update]

end

/-! ## Geometry -/

/-- Polar angle kept between `0` and `π`. -/
noncomputable def clamp (c : Sys) (x : ℕ → ℤ → ℝ) : ℕ → ℤ → ℝ :=
  fun L i => if c = .spherical then max 0 (min Real.pi (x L i)) else x L i

theorem clamp_lines {on : Bool} {c : Sys} {x : ℕ → ℤ → ℝ} (hx : Lines on x) : Lines on (clamp c x) := by
  intro L i
  unfold clamp
  rw [hx L i]

/-- Positions that increase, and lie between `0` and `π`. -/
def Polar (x : ℕ → ℤ → ℝ) : Prop := ∀ L i, 0 ≤ x L i ∧ x L i ≤ Real.pi ∧ x L i ≤ x L (i+1)

theorem clamp_polar {x : ℕ → ℤ → ℝ} (hx : ∀ L i, x L i ≤ x L (i+1)) : Polar (clamp .spherical x) := by
  intro L i
  unfold clamp
  have := Real.pi_pos
  simp only [if_true]
  refine ⟨le_max_left _ _, max_le this.le (min_le_left _ _), ?_⟩
  exact max_le_max le_rfl (min_le_min le_rfl (hx L i))

theorem area1_j_eq {X : XF} {j : ℤ} (h0 : 0 ≤ X.x2.xf j) (h1 : X.x2.xf j ≤ X.x2.xf (j+1)) (h2 : X.x2.xf (j+1) ≤ Real.pi) :
    Sph.area1_j X j = Real.cos (X.x2.xf j) - Real.cos (X.x2.xf (j+1)) := by
  unfold Sph.area1_j
  rw [abs_of_nonneg]
  have := Real.cos_le_cos_of_nonneg_of_le_pi h0 h2 h1
  linarith

theorem geom_nested {c : Sys} {m : Tree.Mesh} {d : Dims} {x1 x2 x3 : ℕ → ℤ → ℝ} (l1 : Lines true x1) (l2 : Lines m.f2 x2)
    (l3 : Lines m.f3 x3) (hp : c = .spherical → Polar x2) (hv : m.f3 = true → m.f2 = true)
    (q1 : c ≠ .cartesian → m.ix1 ≠ .periodic) (q2 : c = .spherical → m.f2 = true → m.ix2 ≠ .periodic) :
    (globalGeom c x1 x2 x3).Nested m d := by
  have e1 : ∀ L i, x1 L i = x1 (L+1) (2*i) := fun L i => (l1 L i).symm
  have e1' : ∀ L i, x1 L (i+1) = x1 (L+1) (2*i+1+1) := fun L i => by rw [e1]; congr 1; ring
  have e2 : m.f2 = true → ∀ L i, x2 L i = x2 (L+1) (2*i) ∧ x2 L (i+1) = x2 (L+1) (2*i+1+1) := fun h L i => by
    have h1 := l2 L i
    have h2 := l2 L (i+1)
    rw [if_pos h] at h1 h2
    refine ⟨h1.symm, ?_⟩
    rw [← h2]; congr 1; ring
  have n2 : m.f2 = false → ∀ L i, x2 L i = x2 (L+1) i := fun h L i => by
    have h1 := l2 L i
    rw [if_neg (by simp [h])] at h1
    exact h1.symm
  have e3 : m.f3 = true → ∀ L i, x3 L i = x3 (L+1) (2*i) ∧ x3 L (i+1) = x3 (L+1) (2*i+1+1) := fun h L i => by
    have h1 := l3 L i
    have h2 := l3 L (i+1)
    rw [if_pos h] at h1 h2
    refine ⟨h1.symm, ?_⟩
    rw [← h2]; congr 1; ring
  have n3 : m.f3 = false → ∀ L i, x3 L i = x3 (L+1) i := fun h L i => by
    have h1 := l3 L i
    rw [if_neg (by simp [h])] at h1
    exact h1.symm
  have a1 : c = .spherical → ∀ L j, |Real.cos (x2 L j) - Real.cos (x2 L (j+1))| =
      Real.cos (x2 L j) - Real.cos (x2 L (j+1)) := fun hc L j =>
    area1_j_eq (X := ⟨ofPos (x1 L), ofPos (x2 L), ofPos (x3 L)⟩) (hp hc L j).1 (hp hc L j).2.2 (hp hc L (j+1)).2.1
  refine ⟨⟨?_, ?_, ?_⟩, ?_, ?_, ?_⟩
  · intro hper L k j
    cases c
    · rfl
    · exact absurd hper (q1 (by simp))
    · exact absurd hper (q1 (by simp))
  · intro hf hper L k i
    cases c
    · rfl
    · rfl
    · exact absurd hper (q2 rfl hf)
  · intro hf hper L j i
    cases c <;> rfl
  · intro L k j i
    cases h2 : m.f2 <;> cases h3 : m.f3
    · cases c <;> simp only [globalGeom, geom, ofPos, parts, a1, Sph.area1_j, Sph.area1_i, List.map, List.sum_cons, List.sum_nil, Bool.false_eq_true, if_false,
        ← n2 h2, ← n3 h3, e1 L i] <;> ring
    · exact absurd (hv h3) (by simp [h2])
    · cases c <;> simp only [globalGeom, geom, ofPos, parts, a1, Sph.area1_j, Sph.area1_i, List.map, List.sum_cons, List.sum_nil, Bool.false_eq_true, if_false, if_true,
        (e2 h2 L j).1, (e2 h2 L j).2, ← n3 h3, e1 L i] <;> ring
    · cases c <;> simp only [globalGeom, geom, ofPos, parts, a1, Sph.area1_j, Sph.area1_i, List.map, List.sum_cons, List.sum_nil, if_true,
        (e2 h2 L j).1, (e2 h2 L j).2, (e3 h3 L k).1, (e3 h3 L k).2, e1 L i] <;> ring
  · intro h2 L k j i
    cases h3 : m.f3
    · cases c <;> simp only [globalGeom, geom, ofPos, parts, Sph.area2_i, Sph.area2_j, List.map, List.sum_cons, List.sum_nil, Bool.false_eq_true, if_false, if_true,
        (e2 h2 L j).1, ← n3 h3, e1 L i, e1' L i] <;> ring
    · cases c <;> simp only [globalGeom, geom, ofPos, parts, Sph.area2_i, Sph.area2_j, List.map, List.sum_cons, List.sum_nil, if_true,
        (e2 h2 L j).1, (e3 h3 L k).1, (e3 h3 L k).2, e1 L i, e1' L i] <;> ring
  · intro h3 L k j i
    have h2 := hv h3
    cases c <;> simp only [globalGeom, geom, ofPos, parts, Sph.area3_i, Sph.area2_i, Cyl.area3_i, List.map, List.sum_cons, List.sum_nil, if_true, h2,
        (e2 h2 L j).1, (e2 h2 L j).2, e1 L i, e1' L i] <;> ring


theorem Match.hi {f : Faces} {g : ℤ → ℝ} {a il iu i : ℤ} (h : Match f g a il iu) (i0 : il ≤ i) (i1 : i ≤ iu) :
    f.xf (i+1) = g (a + (i - il) + 1) := by
  rw [h.1 (i+1) (by omega) (by omega)]; congr 1; ring

theorem Match.w {f : Faces} {g : ℤ → ℝ} {a il iu i : ℤ} (h : Match f g a il iu) (i0 : il ≤ i) (i1 : i ≤ iu) :
    f.dxf i = g (a + (i - il) + 1) - g (a + (i - il)) := by
  rw [h.2 i i0 i1, h.hi i0 i1, h.1 i i0 (by omega)]

section
variable {c : Sys} {d : Dims} {X : XF} {x1 x2 x3 : ℕ → ℤ → ℝ} {L : ℕ} {p : Tree.Pos}

/-- The block `(L, p)` has its faces on the grid of the mesh. -/
structure OnGrid (d : Dims) (X : XF) (x1 x2 x3 : ℕ → ℤ → ℝ) (L : ℕ) (p : Tree.Pos) : Prop where
  m1 : Match X.x1 (x1 L) (p.x1 * d.nx1) d.is d.ie
  m2 : Match X.x2 (x2 L) (p.x2 * d.nx2) d.js d.je
  m3 : Match X.x3 (x3 L) (p.x3 * d.nx3) d.ks d.ke

variable (og : OnGrid d X x1 x2 x3 L p)

include og in
theorem geom_local {f : ℕ} (ha : Active d f) {y x : ℤ} (y0 : ylo d f ≤ y) (y1 : y ≤ yhi d f) (x0 : xlo d f ≤ x) (x1' : x ≤ xhi d f)
    (hok : d.Ok) :
    faceArea d (geom X c) f y x = faceArea d (localGeom d (globalGeom c x1 x2 x3) L p) f y x ∧
    faceArea d (moment c X) f y x = faceArea d (localGeom d (globalMoment c x1 x2 x3) L p) f y x := by
  have e1 : d.is ≤ d.ie := by unfold Dims.is Dims.ie; have := hok.x1; omega
  have e2 : d.js ≤ d.je := by unfold Dims.js Dims.je; split_ifs <;> omega
  have e3 : d.ks ≤ d.ke := by unfold Dims.ks Dims.ke; split_ifs <;> omega
  unfold faceArea
  by_cases f2 : f < 2
  · rw [if_pos f2, if_pos f2, if_pos f2, if_pos f2]
    unfold ylo yhi xlo xhi at *
    rw [if_pos (by omega)] at y0 y1
    rw [if_pos f2] at x0 x1'
    have hi : ∃ i, Grid.faceIdx d f y x = (y, x, i) ∧ d.is ≤ i ∧ i ≤ d.ie + 1 := by
      interval_cases f
      · exact ⟨d.is, rfl, by omega, by omega⟩
      · exact ⟨d.ie + 1, rfl, by omega, by omega⟩
    obtain ⟨i, hi, i0, i1⟩ := hi
    rw [hi]
    constructor <;> cases c <;> simp only [geom, moment, globalMoment, localGeom, globalGeom, ofPos, lever, sMid, Sph.area1_i, Sph.area1_j, og.m1.1 i i0 i1, og.m2.w x0 x1', og.m3.w y0 y1,
      og.m2.1 x x0 (by omega), og.m2.hi x0 x1']
  · rw [if_neg f2, if_neg f2, if_neg f2, if_neg f2]
    by_cases f4 : f < 4
    · rw [if_pos f4, if_pos f4, if_pos f4, if_pos f4]
      unfold ylo yhi xlo xhi at *
      rw [if_pos (by omega)] at y0 y1
      rw [if_neg f2] at x0 x1'
      have hi : ∃ j, Grid.faceIdx d f y x = (y, j, x) ∧ d.js ≤ j ∧ j ≤ d.je + 1 := by
        interval_cases f
        · exact ⟨d.js, rfl, by omega, by omega⟩
        · exact ⟨d.je + 1, rfl, by omega, by omega⟩
      obtain ⟨i, hi, i0, i1⟩ := hi
      rw [hi]
      constructor <;> cases c <;> simp only [geom, moment, globalMoment, localGeom, globalGeom, ofPos, lever, rMid, Sph.area2_i, Sph.area2_j, og.m2.1 i i0 i1, og.m1.w x0 x1', og.m3.w y0 y1,
        og.m1.1 x x0 (by omega), og.m1.hi x0 x1']
    · rw [if_neg f4, if_neg f4, if_neg f4, if_neg f4]
      unfold ylo yhi xlo xhi at *
      rw [if_neg (by omega)] at y0 y1
      rw [if_neg f2] at x0 x1'
      have h6 : f < 6 := by unfold Active at ha; omega
      have hi : ∃ j, Grid.faceIdx d f y x = (j, y, x) := by
        interval_cases f <;> first | omega | exact ⟨_, rfl⟩
      obtain ⟨i, hi⟩ := hi
      rw [hi]
      constructor <;> cases c <;> simp only [geom, moment, globalMoment, localGeom, globalGeom, ofPos, lever, rMid, sMid, Cyl.area3_i, Sph.area3_i, Sph.area2_i, og.m1.w x0 x1', og.m2.w y0 y1,
        og.m1.1 x x0 (by omega), og.m1.hi x0 x1', og.m2.1 y y0 (by omega), og.m2.hi y0 y1]
/-! ## The blocks of a mesh -/

theorem moment_wraps {c : Sys} {m : Tree.Mesh} {d : Dims} {x1 x2 x3 : ℕ → ℤ → ℝ}
    (q1 : c ≠ .cartesian → m.ix1 ≠ .periodic) (q2 : c = .spherical → m.f2 = true → m.ix2 ≠ .periodic) :
    (globalMoment c x1 x2 x3).Wraps m d := by
  refine ⟨?_, ?_, ?_⟩
  · intro hper L k j
    cases c
    · rfl
    · exact absurd hper (q1 (by simp))
    · exact absurd hper (q1 (by simp))
  · intro hf hper L k i
    cases c
    · rfl
    · rfl
    · exact absurd hper (q2 rfl hf)
  · intro hf hper L j i
    cases c <;> rfl

end

section
variable {c : Sys} {m : Tree.Mesh} {ml : Bool} {d : Dims} {D1 D2 D3 : Dir} (hD : MeshDirs c m d D1 D2 D3) (hd : Ghost.SizesOk m ml d) (hok : d.Ok)
  {L : ℕ} (hL : m.rootLevel ≤ L) {p : Tree.Pos} (hp : Tree.Dom m L p) (s : XF)

include hd in
theorem dims_js : (d.nx2 > 1 ↔ m.f2 = true) ∧ (d.nx3 > 1 ↔ m.f3 = true) ∧ d.ie + 1 - d.is = d.nx1 ∧
    (m.f2 = true → d.je + 1 - d.js = d.nx2) ∧ (m.f3 = true → d.ke + 1 - d.ks = d.nx3) ∧
    (m.f2 = false → d.je = d.js ∧ d.nx2 = 1) ∧ (m.f3 = false → d.ke = d.ks ∧ d.nx3 = 1) := by
  have a2 : d.nx2 > 1 ↔ m.f2 = true := by
    constructor
    · intro h1; by_contra h2; have := hd.o2 (by simpa using h2); omega
    · intro h1; exact (hd.n2 h1).2
  have a3 : d.nx3 > 1 ↔ m.f3 = true := by
    constructor
    · intro h1; by_contra h2; have := hd.o3 (by simpa using h2); omega
    · intro h1; exact (hd.n3 h1).2
  refine ⟨a2, a3, by unfold Dims.ie Dims.is; ring, ?_, ?_, ?_, ?_⟩
  · intro h; unfold Dims.je Dims.js; rw [if_pos (a2.2 h), if_pos (a2.2 h)]; ring
  · intro h; unfold Dims.ke Dims.ks; rw [if_pos (a3.2 h), if_pos (a3.2 h)]; ring
  · intro h
    have := hd.o2 h
    unfold Dims.je Dims.js; rw [if_neg (by omega), if_neg (by omega)]; exact ⟨rfl, this⟩
  · intro h
    have := hd.o3 h
    unfold Dims.ke Dims.ks; rw [if_neg (by omega), if_neg (by omega)]; exact ⟨rfl, this⟩

theorem cell_range {px n : ℕ} {nx il iu i : ℤ} (hpx : px < n) (hc : iu + 1 - il = nx) (i0 : il ≤ i) (i1 : i ≤ iu + 1) :
    0 ≤ px * nx + (i - il) ∧ px * nx + (i - il) ≤ n * nx ∧ (i ≤ iu → px * nx + (i - il) < n * nx) ∧
    (0 < px → il ≤ iu → 0 < px * nx + (i - il)) ∧ (il < i → 0 < px * nx + (i - il)) ∧
    (px + 1 < n → il ≤ iu → px * nx + (i - il) < n * nx) := by
  have hnx : 0 ≤ nx := by omega
  have h1 : (0:ℤ) ≤ px * nx := by positivity
  have h2 : ((px:ℤ) + 1) * nx ≤ n * nx := by
    apply mul_le_mul_of_nonneg_right _ hnx
    exact_mod_cast hpx
  rw [add_mul, one_mul] at h2
  refine ⟨by omega, by omega, by omega, ?_, by omega, ?_⟩
  · intro h3 h4
    have : (0:ℤ) < px * nx := by apply mul_pos <;> omega
    omega
  · intro h3 h4
    have h5 : ((px:ℤ) + 1 + 1) * nx ≤ n * nx := by
      apply mul_le_mul_of_nonneg_right _ hnx
      exact_mod_cast h3
    rw [add_mul, add_mul, one_mul] at h5
    omega

include hD hd hL hp in
theorem x2_range {i : ℤ} (i0 : d.js ≤ i) (i1 : i ≤ d.je + 1) :
    D2.ms.xmin ≤ gpos m.f2 m.rootLevel D2 L (p.x2 * d.nx2 + (i - d.js)) ∧
    gpos m.f2 m.rootLevel D2 L (p.x2 * d.nx2 + (i - d.js)) ≤ D2.ms.xmax := by
  obtain ⟨a2, a3, c1, c2, c3, o2, o3⟩ := dims_js hd
  obtain ⟨p1, p2, p3⟩ := (Tree.dom_iff_ge hL).1 hp
  have c2' : d.je + 1 - d.js = d.nx2 := by
    cases hf : m.f2
    · have := o2 hf; omega
    · exact c2 hf
  obtain ⟨r1, r2, _⟩ := cell_range p2 c2' i0 i1
  exact gpos_range hD.x2 hL (fun h => (o2 h).2) r1 r2

include hD hd hL hp in
theorem clamp_x2 {i : ℤ} (i0 : d.js ≤ i) (i1 : i ≤ d.je + 1) :
    clamp c (gpos m.f2 m.rootLevel D2) L (p.x2 * d.nx2 + (i - d.js)) =
      gpos m.f2 m.rootLevel D2 L (p.x2 * d.nx2 + (i - d.js)) := by
  unfold clamp
  split_ifs with hc
  · obtain ⟨r1, r2⟩ := x2_range hD hd hL hp i0 i1
    rw [min_eq_right (r2.trans (hD.tp hc)), max_eq_right ((hD.t0 hc).trans r1)]
  · rfl

include hD hd hL hp in
theorem block_onGrid : OnGrid d (blockXF m d D1 D2 D3 s L p) (gpos true m.rootLevel D1)
    (clamp c (gpos m.f2 m.rootLevel D2)) (gpos m.f3 m.rootLevel D3) L p := by
  obtain ⟨a2, a3, c1, c2, c3, o2, o3⟩ := dims_js hd
  obtain ⟨p1, p2, p3⟩ := (Tree.dom_iff_ge hL).1 hp
  have hng := hd.ng
  refine ⟨match_faces hD.x1 hL rfl hd.n1 (by omega) c1 _ _, ?_, ?_⟩
  · have key : Match (blockXF m d D1 D2 D3 s L p).x2 (gpos m.f2 m.rootLevel D2 L) (p.x2 * d.nx2) d.js d.je := by
      unfold blockXF
      simp only
      split_ifs with h1
      · exact match_faces hD.x2 hL (a2.1 h1) (hd.n2 (a2.1 h1)).1 (by omega) (c2 (a2.1 h1)) _ _
      · have hf : m.f2 = false := by rw [← Bool.not_eq_true]; exact fun h => h1 (a2.2 h)
        unfold Tree.Mesh.nmax2 at p2
        rw [hf] at p2
        have : p.x2 = 0 := by simpa using p2
        rw [this]
        simpa using match_one hf (o2 hf).1 s.x2
    refine ⟨fun i i0 i1 => ?_, key.2⟩
    rw [clamp_x2 hD hd hL hp i0 i1]
    exact key.1 i i0 i1
  · unfold blockXF
    simp only
    split_ifs with h1
    · exact match_faces hD.x3 hL (a3.1 h1) (hd.n3 (a3.1 h1)).1 (by omega) (c3 (a3.1 h1)) _ _
    · have hf : m.f3 = false := by rw [← Bool.not_eq_true]; exact fun h => h1 (a3.2 h)
      unfold Tree.Mesh.nmax3 at p3
      rw [hf] at p3
      have : p.x3 = 0 := by simpa using p3
      rw [this]
      simpa using match_one hf (o3 hf).1 s.x3

include hD hd hL hp in
theorem block_good : GoodBlock c (blockXF m d D1 D2 D3 s L p) d := by
  obtain ⟨a2, a3, c1, c2, c3, o2, o3⟩ := dims_js hd
  obtain ⟨p1, p2, p3⟩ := (Tree.dom_iff_ge hL).1 hp
  have c2' : d.je + 1 - d.js = d.nx2 := by
    cases hf : m.f2
    · have := o2 hf; omega
    · exact c2 hf
  have c3' : d.ke + 1 - d.ks = d.nx3 := by
    cases hf : m.f3
    · have := o3 hf; omega
    · exact c3 hf
  have og := block_onGrid hD hd hL hp s
  intro k j i k0 k1 j0 j1 i0 i1
  obtain ⟨u1, u2, u3, _⟩ := cell_range p1 c1 i0 (by omega)
  obtain ⟨v1, v2, v3, _⟩ := cell_range p2 c2' j0 (by omega)
  obtain ⟨w1, w2, w3, _⟩ := cell_range p3 c3' k0 (by omega)
  have e1 := clamp_x2 hD hd hL hp j0 (by omega)
  have e2 := clamp_x2 (i := j + 1) hD hd hL hp (by omega) (by omega)
  have r1 := x2_range hD hd hL hp j0 (by omega)
  have r2 := x2_range (i := j + 1) hD hd hL hp (by omega) (by omega)
  have e3 : (p.x2 * d.nx2 + (j + 1 - d.js)) = p.x2 * d.nx2 + (j - d.js) + 1 := by ring
  refine ⟨og.m1.2 i i0 i1, og.m2.2 j j0 j1, og.m3.2 k k0 k1, ?_, ?_, ?_, ?_, ?_, ?_⟩
  · rw [og.m1.1 i i0 (by omega), og.m1.hi i0 i1]
    exact gpos_cell (nrb := m.nrbx1) hD.x1 (by simp) u1 (by simpa [nblk, Tree.Mesh.nmax1] using u3 i1)
  · rw [og.m2.1 j j0 (by omega), og.m2.hi j0 j1, ← e3, e1, e2, e3]
    exact gpos_cell (nrb := m.nrbx2) hD.x2 (fun h => (o2 h).2) v1 (v3 j1)
  · rw [og.m3.1 k k0 (by omega), og.m3.hi k0 k1]
    exact gpos_cell (nrb := m.nrbx3) hD.x3 (fun h => (o3 h).2) w1 (w3 k1)
  · intro hc
    rw [og.m1.1 i i0 (by omega)]
    exact (hD.r0 hc).trans (gpos_range (nrb := m.nrbx1) hD.x1 hL (by simp) u1 (by simpa [nblk, Tree.Mesh.nmax1] using u2)).1
  · intro hc
    rw [og.m2.1 j j0 (by omega), e1]
    exact (hD.t0 hc).trans r1.1
  · intro hc
    rw [og.m2.hi j0 j1, ← e3, e2]
    exact r2.2.trans (hD.tp hc)

theorem a1_pos {c : Sys} {X : XF} {k j i i' : ℤ} (g : Good c X k j i') (h : c = .cartesian ∨ 0 < X.x1.xf i) : 0 < (geom X c).a1 (k, j, i) := by
  have h2 : 0 < X.x2.dxf j := by rw [g.d2]; linarith [g.l2]
  have h3 : 0 < X.x3.dxf k := by rw [g.d3]; linarith [g.l3]
  cases c
  · exact mul_pos h2 h3
  · exact mul_pos (mul_pos (by simpa using h) h2) h3
  · have hr : 0 < X.x1.xf i := by simpa using h
    refine mul_pos (mul_pos (mul_pos hr hr) ?_) h3
    rw [area1_j_eq (g.t0 rfl) g.l2.le (g.tp rfl)]
    have := Real.cos_lt_cos_of_nonneg_of_le_pi (g.t0 rfl) (g.tp rfl) g.l2
    linarith

theorem a2_pos {c : Sys} {X : XF} {k j j' i : ℤ} (g : Good c X k j' i) (h : c = .spherical → 0 < X.x2.xf j ∧ X.x2.xf j < Real.pi) :
    0 < (geom X c).a2 (k, j, i) := by
  have h1 : 0 < X.x1.dxf i := by rw [g.d1]; linarith [g.l1]
  have h3 : 0 < X.x3.dxf k := by rw [g.d3]; linarith [g.l3]
  cases c
  · exact mul_pos h1 h3
  · exact mul_pos h1 h3
  · refine mul_pos (mul_pos ?_ ?_) h3
    · have := g.r0 (by simp)
      have := g.l1
      unfold Sph.area2_i
      nlinarith
    · exact abs_pos.2 (Real.sin_pos_of_pos_of_lt_pi (h rfl).1 (h rfl).2).ne'

theorem a3_pos {c : Sys} {X : XF} {k k' j i : ℤ} (g : Good c X k' j i) : 0 < (geom X c).a3 (k, j, i) := by
  have h1 : 0 < X.x1.dxf i := by rw [g.d1]; linarith [g.l1]
  have h2 : 0 < X.x2.dxf j := by rw [g.d2]; linarith [g.l2]
  cases c
  · exact mul_pos h1 h2
  · have := g.r0 (by simp)
    have := g.l1
    refine mul_pos ?_ h2
    unfold Cyl.area3_i
    nlinarith
  · have := g.r0 (by simp)
    have := g.l1
    refine mul_pos ?_ h2
    unfold Sph.area3_i Sph.area2_i
    nlinarith

include hD hd hok hL hp in
theorem areas_pos {f : ℕ} (ha : Active d f) (hb : ¬ OnBoundary m L p f) {y x : ℤ} (y0 : ylo d f ≤ y) (y1 : y ≤ yhi d f)
    (x0 : xlo d f ≤ x) (x1 : x ≤ xhi d f) : 0 < faceArea d (geom (blockXF m d D1 D2 D3 s L p) c) f y x := by
  obtain ⟨a2, a3, c1, c2, c3, o2, o3⟩ := dims_js hd
  obtain ⟨p1, p2, p3⟩ := (Tree.dom_iff_ge hL).1 hp
  have og := block_onGrid hD hd hL hp s
  have gd := block_good hD hd hL hp s
  set X := blockXF m d D1 D2 D3 s L p with hX
  have e1 : d.is ≤ d.ie := by unfold Dims.is Dims.ie; have := hok.x1; omega
  have e2 : d.js ≤ d.je := by unfold Dims.js Dims.je; split_ifs <;> omega
  have e3 : d.ks ≤ d.ke := by unfold Dims.ks Dims.ke; split_ifs <;> omega
  have h6 : f < 6 := by unfold Active at ha; omega
  unfold faceArea
  unfold ylo yhi xlo xhi at *
  by_cases f2 : f < 2
  · rw [if_pos f2]
    rw [if_pos (by omega)] at y0 y1
    rw [if_pos f2] at x0 x1
    interval_cases f
    · change 0 < (geom X c).a1 (y, x, d.is)
      refine a1_pos (gd y x d.is y0 y1 x0 x1 le_rfl e1) ?_
      by_cases hc : c = .cartesian
      · exact .inl hc
      right
      have hpx : p.x1 ≠ 0 := fun h0 => hb ⟨h0, hD.per1 hc⟩
      obtain ⟨_, _, _, r1, _⟩ := cell_range p1 c1 (le_refl d.is) (by omega)
      rw [og.m1.1 _ le_rfl (by omega)]
      have := gpos_lt (root := m.rootLevel) (L := L) hD.x1 rfl (r1 (by omega) e1)
      rw [gpos_zero hD.x1] at this
      exact (hD.r0 hc).trans_lt this
    · change 0 < (geom X c).a1 (y, x, d.ie + 1)
      have g := gd y x d.ie y0 y1 x0 x1 e1 le_rfl
      refine a1_pos g ?_
      by_cases hc : c = .cartesian
      · exact .inl hc
      · exact .inr ((g.r0 hc).trans_lt g.l1)
  · by_cases f4 : f < 4
    · rw [if_neg f2, if_pos f4]
      rw [if_pos (by omega)] at y0 y1
      rw [if_neg f2] at x0 x1
      have hf2 : m.f2 = true := a2.1 (by unfold Active at ha; omega)
      interval_cases f
      · change 0 < (geom X c).a2 (y, d.js, x)
        have g := gd y d.js x y0 y1 le_rfl e2 x0 x1
        refine a2_pos g fun hc => ?_
        have hpx : p.x2 ≠ 0 := fun h0 => hb ⟨h0, hD.per2 hc hf2⟩
        obtain ⟨_, _, _, r1, _⟩ := cell_range p2 (c2 hf2) (le_refl d.js) (by omega)
        refine ⟨?_, g.l2.trans_le (g.tp hc)⟩
        rw [og.m2.1 _ le_rfl (by omega), clamp_x2 hD hd hL hp le_rfl (by omega)]
        have := gpos_lt (root := m.rootLevel) (L := L) hD.x2 hf2 (r1 (by omega) e2)
        rw [gpos_zero hD.x2] at this
        exact (hD.t0 hc).trans_lt this
      · change 0 < (geom X c).a2 (y, d.je + 1, x)
        have g := gd y d.je x y0 y1 e2 le_rfl x0 x1
        refine a2_pos g fun hc => ⟨(g.t0 hc).trans_lt g.l2, ?_⟩
        have hpx : p.x2 + 1 ≠ m.nmax2 L := fun h0 => hb ⟨h0, hD.per2 hc hf2⟩
        obtain ⟨_, _, _, _, _, r1⟩ := cell_range (i := d.je + 1) p2 (c2 hf2) (by omega) (by omega)
        rw [og.m2.1 _ (by omega) (by omega), clamp_x2 hD hd hL hp (by omega) (by omega)]
        have := gpos_lt (root := m.rootLevel) (L := L) hD.x2 hf2 (r1 (by omega) e2)
        have he := gpos_end hD.x2 hL (fun h => (o2 h).2)
        exact (this.trans_eq he).trans_le (hD.tp hc)
    · rw [if_neg f2, if_neg f4]
      rw [if_neg (by omega)] at y0 y1
      rw [if_neg f2] at x0 x1
      have g := gd d.ks y x le_rfl e3 y0 y1 x0 x1
      interval_cases f
      · exact a3_pos g
      · exact a3_pos g

end

end Verif.Coord
