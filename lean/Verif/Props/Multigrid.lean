import Verif.Lemmas.MgEnergy
import Mathlib.Tactic.NormNum
import Mathlib.Tactic.FinCases

/-!
# Multigrid solver of self-gravity (C65, C66)

The smoother, the defect, the transfers between levels, the boundary functions and the V-cycle on a mesh without
refinement.
-/
namespace Verif.Mg
open Verif.Arr (loop)
open Verif.Grid (A3)
open scoped Classical

/-! ## The smoother (C65) -/

/-- `MGGravity::Smooth`, which works in place, is the simultaneous over-relaxation of the cells of one colour. -/
theorem smooth_is_sweep (omega rdx : ℝ) (rlev : ℤ) (coffset color : ℕ) (b : Box) (src u : A3 ℝ) :
    smooth omega rdx rlev coffset b color src u
      = sweep omega (dxAt rdx rlev) b (b.il + (color ^^^ coffset : ℕ)) src u :=
  smooth_eq omega rdx rlev coffset b color src u

/-- The neighbours of a cell have the other colour, and with `color` 0 and 1 every cell of the box is relaxed exactly
once, whatever `coffset_`. -/
theorem two_colours (b : Box) (coffset : ℕ) (hc : coffset ≤ 1) (k j i : ℤ) :
    (∀ q ∈ nbrs k j i, (q.1 + q.2.1 + q.2.2 - (k + j + i)) % 2 = 1) ∧
    ((k + j + i - (b.il + (0 ^^^ coffset : ℕ))) % 2 = 0 ↔ ¬ (k + j + i - (b.il + (1 ^^^ coffset : ℕ))) % 2 = 0) := by
  constructor
  · intro q hq
    simp only [nbrs, List.mem_cons, List.not_mem_nil, or_false] at hq
    rcases hq with rfl | rfl | rfl | rfl | rfl | rfl <;> simp only <;> omega
  · have : coffset = 0 ∨ coffset = 1 := by omega
    rcases this with rfl | rfl <;> simp <;> omega

/-- Both colours leave the potential alone exactly when it solves Poisson's equation in the box. -/
theorem smooth_fixed_iff (omega rdx : ℝ) (rlev : ℤ) (coffset : ℕ) (hc : coffset ≤ 1) (b : Box) (src u : A3 ℝ)
    (ho : omega ≠ 0) (hx : rdx ≠ 0) :
    (smooth omega rdx rlev coffset b 0 src u = u ∧ smooth omega rdx rlev coffset b 1 src u = u)
      ↔ Solves (dxAt rdx rlev) b u src := by
  constructor
  · rintro ⟨h0, h1⟩ k j i hin
    have hd : dxAt rdx rlev ^ 2 ≠ 0 := pow_ne_zero 2 (dxAt_ne hx rlev)
    have key : relaxed omega (dxAt rdx rlev) u src k j i = u (k, j, i) := by
      rw [smooth_eq] at h0 h1
      by_cases hp : (k + j + i - (b.il + (0 ^^^ coffset : ℕ))) % 2 = 0
      · have := congrFun h0 (k, j, i)
        unfold sweep at this
        rwa [if_pos ⟨hin, hp⟩] at this
      · have hp' : (k + j + i - (b.il + (1 ^^^ coffset : ℕ))) % 2 = 0 := by
          by_contra hn
          exact hp ((two_colours b coffset hc k j i).2.mpr hn)
        have := congrFun h1 (k, j, i)
        unfold sweep at this
        rwa [if_pos ⟨hin, hp'⟩] at this
    unfold relaxed gaussSeidel at key
    have e : omega * ((nbrSum u k j i - dxAt rdx rlev ^ 2 * src (k, j, i)) / 6 - u (k, j, i)) = 0 := by linarith
    have e' := (mul_eq_zero.mp e).resolve_left ho
    unfold PoissonAt
    rw [div_eq_iff hd]; linarith
  · intro hs
    exact ⟨smooth_solves hx hs _ _, smooth_solves hx hs _ _⟩

example : ∃ omega rdx : ℝ, omega ≠ 0 ∧ rdx ≠ 0 ∧ 0 < omega ∧ omega < 2 := ⟨1.15, 0.1, by norm_num, by norm_num, by norm_num, by norm_num⟩

/-- The defect vanishes exactly when the potential solves Poisson's equation in the box. -/
theorem defect_zero_iff (rdx : ℝ) (rlev : ℤ) (b : Box) (u src d : A3 ℝ) :
    (∀ k j i, b.In k j i → defect rdx rlev b u src d (k, j, i) = 0) ↔ Solves (dxAt rdx rlev) b u src := by
  constructor
  · intro h k j i hin
    have := h k j i hin
    rw [defect_at, if_pos hin] at this
    unfold PoissonAt
    simp only at this; linarith
  · intro h k j i hin
    have := h k j i hin
    unfold PoissonAt at this
    rw [defect_at, if_pos hin]
    simp only; linarith

/-- With `0 < omega_ < 2` a sweep never increases the energy whose minimum is the solution, and lowers it unless it
changes nothing. (`omega_` is 1.15, mg_gravity.cpp:40.) -/
theorem smooth_energy (omega rdx : ℝ) (rlev : ℤ) (coffset color : ℕ) (b : Box) (src u : A3 ℝ)
    (ho : 0 < omega ∧ omega < 2) :
    energy (dxAt rdx rlev) b src (smooth omega rdx rlev coffset b color src u) ≤ energy (dxAt rdx rlev) b src u ∧
    (smooth omega rdx rlev coffset b color src u ≠ u →
      energy (dxAt rdx rlev) b src (smooth omega rdx rlev coffset b color src u) < energy (dxAt rdx rlev) b src u) :=
  smooth_energy_le omega rdx rlev coffset b color src u ho

/-- A MeshBlock whose array, ghost cells included, is a part of an array of the whole level is smoothed as that part of
the whole level, if it starts an even number of cells from the beginning in each direction. -/
theorem smooth_block (omega rdx : ℝ) (rlev : ℤ) (coffset color : ℕ) (b g : Box) (ok oj oi : ℤ)
    (hk : ok % 2 = 0) (hj : oj % 2 = 0) (hi : oi % 2 = 0) (hil : b.il = g.il)
    (hin : ∀ k j i, b.In k j i → g.In (k + ok) (j + oj) (i + oi)) (src u gsrc gu : A3 ℝ)
    (hs : ∀ k j i, b.In k j i → src (k, j, i) = gsrc (k + ok, j + oj, i + oi))
    (hu : ∀ k j i, b.Ext k j i → u (k, j, i) = gu (k + ok, j + oj, i + oi)) (k j i : ℤ) (h : b.In k j i) :
    smooth omega rdx rlev coffset b color src u (k, j, i)
      = smooth omega rdx rlev coffset g color gsrc gu (k + ok, j + oj, i + oi) := by
  have hext : ∀ k' j' i', |k' - k| ≤ 1 → |j' - j| ≤ 1 → |i' - i| ≤ 1 → b.Ext k' j' i' := by
    intro k' j' i' a1 a2 a3
    obtain ⟨⟨_, _⟩, ⟨_, _⟩, _, _⟩ := h
    rw [abs_le] at a1 a2 a3
    exact ⟨⟨by omega, by omega⟩, ⟨by omega, by omega⟩, by omega, by omega⟩
  have hn : nbrSum u k j i = nbrSum gu (k + ok) (j + oj) (i + oi) := by
    rw [nbrSum_eq, nbrSum_eq,
      hu (k-1) j i (hext _ _ _ (by simp) (by simp) (by simp)), hu (k+1) j i (hext _ _ _ (by simp) (by simp) (by simp)),
      hu k (j-1) i (hext _ _ _ (by simp) (by simp) (by simp)), hu k (j+1) i (hext _ _ _ (by simp) (by simp) (by simp)),
      hu k j (i-1) (hext _ _ _ (by simp) (by simp) (by simp)), hu k j (i+1) (hext _ _ _ (by simp) (by simp) (by simp))]
    rw [show k - 1 + ok = k + ok - 1 by ring, show k + 1 + ok = k + ok + 1 by ring, show j - 1 + oj = j + oj - 1 by ring,
      show j + 1 + oj = j + oj + 1 by ring, show i - 1 + oi = i + oi - 1 by ring, show i + 1 + oi = i + oi + 1 by ring]
  have hc := hu k j i h.ext
  rw [smooth_eq, smooth_eq]
  unfold sweep
  by_cases hp : (k + j + i - (b.il + (color ^^^ coffset : ℕ))) % 2 = 0
  · rw [if_pos ⟨h, hp⟩, if_pos ⟨hin k j i h, by simp only; omega⟩]
    simp only [relaxed, gaussSeidel, hn, hc, hs k j i h]
  · rw [if_neg (fun hh => hp hh.2), if_neg (fun hh => hp (by have := hh.2; simp only at this; omega))]
    exact hc

/- The second of two MeshBlocks with 4 cells in x1 on a level with 8 cells. -/
example : let b : Box := ⟨1, 4, 1, 4, 1, 4⟩
    let g : Box := ⟨1, 4, 1, 4, 1, 8⟩
    (4 : ℤ) % 2 = 0 ∧ b.il = g.il ∧ ∀ k j i, b.In k j i → g.In (k + 0) (j + 0) (i + 4) := by
  refine ⟨by norm_num, rfl, ?_⟩
  rintro k j i ⟨⟨_, _⟩, ⟨_, _⟩, _, _⟩
  simp only at *
  exact ⟨⟨by simp only; omega, by simp only; omega⟩, ⟨by simp only; omega, by simp only; omega⟩, by simp only; omega, by simp only; omega⟩

/-- Gauss's law: the sum of the discrete Laplacian over the box is the flux through its surface. -/
theorem gauss_law (b : Box) (hb : b.Nonempty) (u : A3 ℝ) :
    b.total (fun q => nbrSum u q.1 q.2.1 q.2.2 - 6 * u q) =
      (∑ k ∈ Finset.Icc b.kl b.ku, ∑ j ∈ Finset.Icc b.jl b.ju,
        ((u (k, j, b.iu+1) - u (k, j, b.iu)) - (u (k, j, b.il) - u (k, j, b.il-1))))
      + (∑ k ∈ Finset.Icc b.kl b.ku, ∑ i ∈ Finset.Icc b.il b.iu,
        ((u (k, b.ju+1, i) - u (k, b.ju, i)) - (u (k, b.jl, i) - u (k, b.jl-1, i))))
      + (∑ j ∈ Finset.Icc b.jl b.ju, ∑ i ∈ Finset.Icc b.il b.iu,
        ((u (b.ku+1, j, i) - u (b.ku, j, i)) - (u (b.kl, j, i) - u (b.kl-1, j, i)))) :=
  total_laplacian b hb u

/-! ## Boundary functions -/

/-- What a boundary condition means for the ghost cell next to a face: `inner` is the active cell there, `far` the
active cell at the other end of the row, and the value at the face is the mean of ghost cell and active cell. -/
def FaceMeans (bc : Bc) (phi ghost inner far : ℝ) : Prop :=
  match bc with
  | .periodic => ghost = far
  | .zerofixed => (ghost + inner) / 2 = 0
  | .zerograd => ghost - inner = 0
  | .multipole => (ghost + inner) / 2 = phi

theorem bcVal_means (bc : Bc) (phi inner far : ℝ) : FaceMeans bc phi (bcVal bc phi inner far) inner far := by
  cases bc <;> simp [FaceMeans, bcVal]

/-- After `ApplyPhysicalBoundaries` every ghost cell at a face is what the boundary condition of the face means. -/
theorem physical_faces (B : Bcs) (b : Box) (hb : b.Nonempty) (a : A3 ℝ) :
    let r := applyPhys B b a
    (∀ k j, (b.kl ≤ k ∧ k ≤ b.ku) → (b.jl ≤ j ∧ j ≤ b.ju) →
      FaceMeans B.x1i (B.phi1i k j) (r (k, j, b.il - 1)) (r (k, j, b.il)) (r (k, j, b.iu)) ∧
      FaceMeans B.x1o (B.phi1o k j) (r (k, j, b.iu + 1)) (r (k, j, b.iu)) (r (k, j, b.il))) ∧
    (∀ k i, (b.kl ≤ k ∧ k ≤ b.ku) → (b.il ≤ i ∧ i ≤ b.iu) →
      FaceMeans B.x2i (B.phi2i k i) (r (k, b.jl - 1, i)) (r (k, b.jl, i)) (r (k, b.ju, i)) ∧
      FaceMeans B.x2o (B.phi2o k i) (r (k, b.ju + 1, i)) (r (k, b.ju, i)) (r (k, b.jl, i))) ∧
    (∀ j i, (b.jl ≤ j ∧ j ≤ b.ju) → (b.il ≤ i ∧ i ≤ b.iu) →
      FaceMeans B.x3i (B.phi3i j i) (r (b.kl - 1, j, i)) (r (b.kl, j, i)) (r (b.ku, j, i)) ∧
      FaceMeans B.x3o (B.phi3o j i) (r (b.ku + 1, j, i)) (r (b.ku, j, i)) (r (b.kl, j, i))) := by
  intro r
  have hb' := hb
  obtain ⟨h1, h2, h3⟩ := hb'
  have act : ∀ k j i, b.In k j i → r (k, j, i) = a (k, j, i) := fun k j i h => (applyPhys_fills B b hb).active a (k, j, i) h
  refine ⟨?_, ?_, ?_⟩
  · intro k j hk hj
    have e1 : r (k, j, b.il - 1) = bcVal B.x1i (B.phi1i k j) (a (k, j, b.il)) (a (k, j, b.iu)) := by
      show applyPhys B b a _ = _
      rw [applyPhys_eq, phys3_at B b hb, if_neg (by omega), if_neg (by omega), phys2_at B b hb, if_neg (by omega),
        if_neg (by omega), phys1_at B b hb, if_pos ⟨hk, hj, rfl⟩]
    have e2 : r (k, j, b.iu + 1) = bcVal B.x1o (B.phi1o k j) (a (k, j, b.iu)) (a (k, j, b.il)) := by
      show applyPhys B b a _ = _
      rw [applyPhys_eq, phys3_at B b hb, if_neg (by omega), if_neg (by omega), phys2_at B b hb, if_neg (by omega),
        if_neg (by omega), phys1_at B b hb, if_neg (by omega), if_pos ⟨hk, hj, rfl⟩]
    rw [e1, e2, act k j b.il ⟨hk, hj, le_rfl, h3⟩, act k j b.iu ⟨hk, hj, h3, le_rfl⟩]
    exact ⟨bcVal_means _ _ _ _, bcVal_means _ _ _ _⟩
  · intro k i hk hi
    have n1 : ∀ j, (b.jl ≤ j ∧ j ≤ b.ju) → phys1 B b a (k, j, i) = a (k, j, i) := by
      intro j _
      rw [phys1_at B b hb, if_neg (by omega), if_neg (by omega)]
    have e1 : r (k, b.jl - 1, i) = bcVal B.x2i (B.phi2i k i) (a (k, b.jl, i)) (a (k, b.ju, i)) := by
      show applyPhys B b a _ = _
      rw [applyPhys_eq, phys3_at B b hb, if_neg (by omega), if_neg (by omega), phys2_at B b hb,
        if_pos ⟨hk, by omega, rfl⟩, n1 _ (by omega), n1 _ (by omega)]
    have e2 : r (k, b.ju + 1, i) = bcVal B.x2o (B.phi2o k i) (a (k, b.ju, i)) (a (k, b.jl, i)) := by
      show applyPhys B b a _ = _
      rw [applyPhys_eq, phys3_at B b hb, if_neg (by omega), if_neg (by omega), phys2_at B b hb, if_neg (by omega),
        if_pos ⟨hk, by omega, rfl⟩, n1 _ (by omega), n1 _ (by omega)]
    rw [e1, e2, act k b.jl i ⟨hk, ⟨le_rfl, h2⟩, hi⟩, act k b.ju i ⟨hk, ⟨h2, le_rfl⟩, hi⟩]
    exact ⟨bcVal_means _ _ _ _, bcVal_means _ _ _ _⟩
  · intro j i hj hi
    have n1 : ∀ k, (b.kl ≤ k ∧ k ≤ b.ku) → phys2 B b (phys1 B b a) (k, j, i) = a (k, j, i) := by
      intro k _
      rw [phys2_at B b hb, if_neg (by omega), if_neg (by omega), phys1_at B b hb, if_neg (by omega), if_neg (by omega)]
    have e1 : r (b.kl - 1, j, i) = bcVal B.x3i (B.phi3i j i) (a (b.kl, j, i)) (a (b.ku, j, i)) := by
      show applyPhys B b a _ = _
      rw [applyPhys_eq, phys3_at B b hb, if_pos ⟨by omega, by omega, rfl⟩, n1 _ (by omega), n1 _ (by omega)]
    have e2 : r (b.ku + 1, j, i) = bcVal B.x3o (B.phi3o j i) (a (b.ku, j, i)) (a (b.kl, j, i)) := by
      show applyPhys B b a _ = _
      rw [applyPhys_eq, phys3_at B b hb, if_neg (by omega), if_pos ⟨by omega, by omega, rfl⟩, n1 _ (by omega), n1 _ (by omega)]
    rw [e1, e2, act b.kl j i ⟨⟨le_rfl, h1⟩, hj, hi⟩, act b.ku j i ⟨⟨h1, le_rfl⟩, hj, hi⟩]
    exact ⟨bcVal_means _ _ _ _, bcVal_means _ _ _ _⟩

example : (⟨1, 8, 1, 4, 1, 2⟩ : Box).Nonempty := by unfold Box.Nonempty; norm_num

/-- The index a periodic direction with cells `l .. u` identifies with `x`. -/
def wrapIdx (l u x : ℤ) : ℤ := if x < l then u else if u < x then l else x

/-- With periodic boundaries on all six faces the layer of ghost cells, edges and corners included, is the periodic
continuation of the active cells. -/
theorem physical_periodic (B : Bcs) (b : Box) (hb : b.Nonempty)
    (hp : B.x1i = .periodic ∧ B.x1o = .periodic ∧ B.x2i = .periodic ∧ B.x2o = .periodic ∧ B.x3i = .periodic ∧ B.x3o = .periodic)
    (a : A3 ℝ) (k j i : ℤ) (h : b.Ext k j i) :
    applyPhys B b a (k, j, i) = a (wrapIdx b.kl b.ku k, wrapIdx b.jl b.ju j, wrapIdx b.il b.iu i) := by
  have hb' := hb
  obtain ⟨h1, h2, h3⟩ := hb'
  obtain ⟨p1, p2, p3, p4, p5, p6⟩ := hp
  obtain ⟨hk, hj, hi⟩ := h
  have s1 : ∀ k j, (b.kl ≤ k ∧ k ≤ b.ku) → (b.jl ≤ j ∧ j ≤ b.ju) → phys1 B b a (k, j, i) = a (k, j, wrapIdx b.il b.iu i) := by
    intro k j hk hj
    rw [phys1_at B b hb, p1, p2]
    unfold wrapIdx
    by_cases c1 : i = b.il - 1
    · rw [if_pos ⟨hk, hj, c1⟩, if_pos (by omega)]; rfl
    · by_cases c2 : i = b.iu + 1
      · rw [if_neg (fun h => c1 h.2.2), if_pos ⟨hk, hj, c2⟩, if_neg (by omega), if_pos (by omega)]; rfl
      · rw [if_neg (fun h => c1 h.2.2), if_neg (fun h => c2 h.2.2), if_neg (by omega), if_neg (by omega)]
  have s2 : ∀ k, (b.kl ≤ k ∧ k ≤ b.ku) → phys2 B b (phys1 B b a) (k, j, i) = a (k, wrapIdx b.jl b.ju j, wrapIdx b.il b.iu i) := by
    intro k hk
    rw [phys2_at B b hb, p3, p4, s1 k b.jl hk ⟨le_rfl, h2⟩, s1 k b.ju hk ⟨h2, le_rfl⟩]
    by_cases c1 : j = b.jl - 1
    · rw [if_pos ⟨hk, hi, c1⟩]
      have : wrapIdx b.jl b.ju j = b.ju := by unfold wrapIdx; rw [if_pos (by omega)]
      rw [this]; rfl
    · by_cases c2 : j = b.ju + 1
      · rw [if_neg (fun h => c1 h.2.2), if_pos ⟨hk, hi, c2⟩]
        have : wrapIdx b.jl b.ju j = b.jl := by unfold wrapIdx; rw [if_neg (by omega), if_pos (by omega)]
        rw [this]; rfl
      · rw [if_neg (fun h => c1 h.2.2), if_neg (fun h => c2 h.2.2), s1 k j hk (by omega)]
        have : wrapIdx b.jl b.ju j = j := by unfold wrapIdx; rw [if_neg (by omega), if_neg (by omega)]
        rw [this]
  rw [applyPhys_eq, phys3_at B b hb, p5, p6, s2 b.kl ⟨le_rfl, h1⟩, s2 b.ku ⟨h1, le_rfl⟩]
  by_cases c1 : k = b.kl - 1
  · rw [if_pos ⟨hj, hi, c1⟩]
    have : wrapIdx b.kl b.ku k = b.ku := by unfold wrapIdx; rw [if_pos (by omega)]
    rw [this]; rfl
  · by_cases c2 : k = b.ku + 1
    · rw [if_neg (fun h => c1 h.2.2), if_pos ⟨hj, hi, c2⟩]
      have : wrapIdx b.kl b.ku k = b.kl := by unfold wrapIdx; rw [if_neg (by omega), if_pos (by omega)]
      rw [this]; rfl
    · rw [if_neg (fun h => c1 h.2.2), if_neg (fun h => c2 h.2.2), s2 k (by omega)]
      have : wrapIdx b.kl b.ku k = k := by unfold wrapIdx; rw [if_neg (by omega), if_neg (by omega)]
      rw [this]

/-- Neither face of a pair lets flux through, or they are identified. -/
def NoNetFlux (inner outer : Bc) : Prop :=
  (inner = .periodic ∧ outer = .periodic) ∨ (inner = .zerograd ∧ outer = .zerograd)

/-- With periodic or zero-gradient boundaries Poisson's equation is solvable for sources of zero total only, which is
what `fsubtract_average_` is for. -/
theorem closed_source_zero_total (B : Bcs) (b : Box) (hb : b.Nonempty) (hc1 : NoNetFlux B.x1i B.x1o)
    (hc2 : NoNetFlux B.x2i B.x2o) (hc3 : NoNetFlux B.x3i B.x3o) (h : ℝ) (hh : h ≠ 0) (a src : A3 ℝ)
    (hs : Solves h b (applyPhys B b a) src) : b.total src = 0 := by
  obtain ⟨f1, f2, f3⟩ := physical_faces B b hb a
  set r := applyPhys B b a with hr
  have pair : ∀ bi bo p p' gi ii io go, NoNetFlux bi bo → FaceMeans bi p gi ii io → FaceMeans bo p' go io ii →
      (go - io) - (ii - gi) = 0 := by
    intro bi bo p p' gi ii io go hn m1 m2
    rcases hn with ⟨rfl, rfl⟩ | ⟨rfl, rfl⟩ <;> simp only [FaceMeans] at m1 m2 <;> linarith
  have g := gauss_law b hb r
  have h2 : h ^ 2 ≠ 0 := pow_ne_zero 2 hh
  have e : b.total (fun q => nbrSum r q.1 q.2.1 q.2.2 - 6 * r q) = h ^ 2 * b.total src := by
    unfold Box.total
    rw [Finset.mul_sum]
    refine Finset.sum_congr rfl ?_
    rintro ⟨k, j, i⟩ hq
    have := hs k j i ((mem_cells b (k, j, i)).mp hq)
    unfold PoissonAt at this
    rw [div_eq_iff h2] at this
    simp only; linarith
  rw [e] at g
  have z : h ^ 2 * b.total src = 0 := by
    rw [g, Finset.sum_eq_zero, Finset.sum_eq_zero, Finset.sum_eq_zero]
    · ring
    · intro j hj
      refine Finset.sum_eq_zero fun i hi => ?_
      obtain ⟨m1, m2⟩ := f3 j i (Finset.mem_Icc.mp hj) (Finset.mem_Icc.mp hi)
      exact pair _ _ _ _ _ _ _ _ hc3 m1 m2
    · intro k hk
      refine Finset.sum_eq_zero fun i hi => ?_
      obtain ⟨m1, m2⟩ := f2 k i (Finset.mem_Icc.mp hk) (Finset.mem_Icc.mp hi)
      exact pair _ _ _ _ _ _ _ _ hc2 m1 m2
    · intro k hk
      refine Finset.sum_eq_zero fun j hj => ?_
      obtain ⟨m1, m2⟩ := f1 k j (Finset.mem_Icc.mp hk) (Finset.mem_Icc.mp hj)
      exact pair _ _ _ _ _ _ _ _ hc1 m1 m2
  exact (mul_eq_zero.mp z).resolve_left h2

/- Every potential solves the equation with the source computed from it. -/
example (B : Bcs) (b : Box) (h : ℝ) (a : A3 ℝ) :
    Solves h b (applyPhys B b a) (fun q => (nbrSum (applyPhys B b a) q.1 q.2.1 q.2.2 - 6 * applyPhys B b a q) / h ^ 2) := by
  intro k j i _; rfl

/-! ## The mean value -/

theorem block_total (m : MgBlock) : m.total = m.box.total m.a * m.h * m.h * m.h := by
  have e : loop m.box.kl m.box.ku (fun k => loop m.box.jl m.box.ju fun j => loop m.box.il m.box.iu fun i s => s + m.a (k, j, i)) 0
      = m.box.total m.a := by
    rw [loops_eq m.box (fun k j i (s : ℝ) => s + m.a (k, j, i))]
    have hf : ∀ (l : List (ℤ × ℤ × ℤ)) (s : ℝ), l.foldl (fun st q => st + m.a (q.1, q.2.1, q.2.2)) s = s + (l.map m.a).sum := by
      intro l
      induction l with
      | nil => intro s; simp
      | cons q t ih => intro s; rw [List.foldl_cons, ih]; simp; ring
    rw [hf, zero_add, ← List.sum_toFinset m.a (nodup_boxPts m.box)]
    unfold Box.total
    refine Finset.sum_congr ?_ fun _ _ => rfl
    ext q
    rw [List.mem_toFinset, mem_cells]
    exact mem_boxPts m.box q.1 q.2.1 q.2.2
  unfold MgBlock.total
  rw [e]

/-- After `MultigridDriver::SubtractAverage` the total over all MeshBlocks, whatever their levels, is zero. -/
theorem subtract_average_total (vol : ℝ) (hv : vol ≠ 0) (bs : List MgBlock)
    (hvol : (bs.map fun m => (m.n1 : ℝ) * m.n2 * m.n3 * m.h ^ 3).sum = vol) :
    ((driverSubtract vol bs).map MgBlock.total).sum = 0 := by
  have hf : ∀ (l : List MgBlock) (s : ℝ), l.foldl (fun s m => s + m.total) s = s + (l.map MgBlock.total).sum := by
    intro l
    induction l with
    | nil => intro s; simp
    | cons q t ih => intro s; rw [List.foldl_cons, ih]; simp; ring
  unfold driverSubtract
  simp only [hf, zero_add, List.map_map]
  set ave := (bs.map MgBlock.total).sum / vol with hav
  have hone : ∀ m : MgBlock, (MgBlock.subtract ave m).total = m.total - ave * ((m.n1 : ℝ) * m.n2 * m.n3 * m.h ^ 3) := by
    intro m
    rw [block_total, block_total]
    have hbx : (MgBlock.subtract ave m).box = m.box := rfl
    have hh : (MgBlock.subtract ave m).h = m.h := rfl
    have ht : m.box.total (MgBlock.subtract ave m).a = m.box.total m.a - ave * ((m.n1 : ℝ) * m.n2 * m.n3) := by
      have e : ∀ q ∈ m.box.cells, (MgBlock.subtract ave m).a q = m.a q - ave := by
        rintro ⟨k, j, i⟩ hq
        have hin := (mem_cells m.box (k, j, i)).mp hq
        show Box.each _ _ m.a (k, j, i) = _
        rw [each_at _ _ (fun q => m.a q - ave) m.a (fun st k j i _ hst => by rw [hst]), if_pos]
        obtain ⟨⟨a1, a2⟩, ⟨a3, a4⟩, a5, a6⟩ := hin
        simp only [MgBlock.box] at a1 a2 a3 a4 a5 a6
        exact ⟨⟨by simp only; omega, by simp only; omega⟩, ⟨by simp only; omega, by simp only; omega⟩, by simp only; omega,
          by simp only; omega⟩
      unfold Box.total
      rw [Finset.sum_congr rfl e, Finset.sum_sub_distrib, Finset.sum_const]
      have hcard : m.box.cells.card = m.n3 * (m.n2 * m.n1) := by
        simp [Box.cells, MgBlock.box]
      rw [hcard, nsmul_eq_mul]; push_cast; ring
    rw [hbx, hh, ht]; ring
  have hsum : ∀ l : List MgBlock, (l.map (MgBlock.total ∘ MgBlock.subtract ave)).sum
      = (l.map MgBlock.total).sum - ave * (l.map fun m => (m.n1 : ℝ) * m.n2 * m.n3 * m.h ^ 3).sum := by
    intro l
    induction l with
    | nil => simp
    | cons m t ih =>
      simp only [List.map_cons, List.sum_cons, Function.comp_apply] at ih ⊢
      rw [hone, ih]; ring
  rw [hsum, hvol, hav, div_mul_cancel₀ _ hv, sub_self]

/- Two MeshBlocks of different levels. -/
example : ([⟨fun _ => 1, 4, 4, 4, 1⟩, ⟨fun _ => 3, 4, 4, 4, 1/2⟩].map
    fun m : MgBlock => (m.n1 : ℝ) * m.n2 * m.n3 * m.h ^ 3).sum = 72 := by norm_num

/-! ## Transfers between levels (C66) -/

/-- `Restrict` keeps means: a coarse cell is the mean of its eight fine cells, and eight times the coarse sum is the
fine sum. -/
theorem restrict_total (b : Box) (src dst : A3 ℝ) : 8 * b.total (restrict b src dst) = b.fine.total src := by
  rw [← total_fine]
  congr 1
  refine Finset.sum_congr rfl fun q hq => ?_
  rw [restrict_at, if_pos ((mem_cells b q).mp hq)]

/-- Coarse cells outside the box keep their values. -/
theorem restrict_outside (b : Box) (src dst : A3 ℝ) (k j i : ℤ) (h : ¬ b.In k j i) :
    restrict b src dst (k, j, i) = dst (k, j, i) := by
  rw [restrict_at, if_neg h]

/-- `ProlongateAndCorrect` adds to the fine cell `(a, b, c)` of the coarse cell `(k, j, i)` the value at its centre of
every function the interpolation is meant for: polynomials of degree two in each variable with `fprolongation_ == 1`,
trilinear functions otherwise. -/
theorem correction_exact (cubic : Bool) (bx : Box) (fkl fjl fil : ℤ) (src dst : A3 ℝ) (P : ℝ → ℝ → ℝ → ℝ)
    (hP : Tensor (if cubic then Quadratic else Affine) P) (k j i : ℤ) (hin : bx.In k j i) (hs : Samples P src k j i)
    (a b c : ℕ) (ha : a < 2) (hb : b < 2) (hc : c < 2) :
    let q : ℤ × ℤ × ℤ := (fkl + 2 * (k - bx.kl) + a, fjl + 2 * (j - bx.jl) + b, fil + 2 * (i - bx.il) + c)
    prolongateAndCorrect cubic bx fkl fjl fil src dst q
      = dst q + P (k - 1/4 + a/2) (j - 1/4 + b/2) (i - 1/4 + c/2) := by
  intro q
  have hq : q = finePt bx fkl fjl fil k j i a b c := by
    simp only [q, finePt, Prod.mk.injEq]; refine ⟨?_, ?_, ?_⟩ <;> ring
  rw [hq, pac_at bx fkl fjl fil src cubic dst k j i hin a b c ha hb hc]
  congr 1
  cases cubic
  · exact interp_exact w2 Affine (fun f hf a ha k => w2_affine hf a ha k) P (by simpa using hP) src k j i hs a b c ha hb hc
  · exact interp_exact w3 Quadratic (fun f hf a ha k => w3_quad hf a ha k) P (by simpa using hP) src k j i hs a b c ha hb hc

/-- `FMGProlongate` stores that value. -/
theorem fmg_exact (bx : Box) (fkl fjl fil : ℤ) (src dst : A3 ℝ) (P : ℝ → ℝ → ℝ → ℝ)
    (hP : Tensor Quadratic P) (k j i : ℤ) (hin : bx.In k j i) (hs : Samples P src k j i)
    (a b c : ℕ) (ha : a < 2) (hb : b < 2) (hc : c < 2) :
    fmgProlongate bx fkl fjl fil src dst (fkl + 2 * (k - bx.kl) + a, fjl + 2 * (j - bx.jl) + b, fil + 2 * (i - bx.il) + c)
      = P (k - 1/4 + a/2) (j - 1/4 + b/2) (i - 1/4 + c/2) := by
  have hq : (fkl + 2 * (k - bx.kl) + a, fjl + 2 * (j - bx.jl) + b, fil + 2 * (i - bx.il) + c)
      = finePt bx fkl fjl fil k j i a b c := by
    simp only [finePt, Prod.mk.injEq]; refine ⟨?_, ?_, ?_⟩ <;> ring
  rw [hq, fmg_at bx fkl fjl fil src dst k j i hin a b c ha hb hc]
  exact interp_exact w3 Quadratic (fun f hf a ha k => w3_quad hf a ha k) P hP src k j i hs a b c ha hb hc

/- The function `1 + x^2 z` qualifies, and there is an array that samples it. -/
example : Tensor Quadratic (fun z _ x => 1 + x ^ 2 * z) ∧
    Samples (fun z _ x => 1 + x ^ 2 * z) (fun q => 1 + (q.2.2 : ℝ) ^ 2 * q.1) 3 4 5 := by
  constructor
  · refine ⟨2, fun n z => if n = 0 then 1 else z, fun _ _ => 1, fun n x => if n = 0 then 1 else x ^ 2, ?_, ?_⟩
    · intro n
      refine ⟨?_, ⟨1, 0, 0, fun x => by ring⟩, ?_⟩
      · by_cases h : n = 0
        · exact ⟨1, 0, 0, fun x => by simp [h]⟩
        · exact ⟨0, 1, 0, fun x => by simp [h]⟩
      · by_cases h : n = 0
        · exact ⟨1, 0, 0, fun x => by simp [h]⟩
        · exact ⟨0, 0, 1, fun x => by simp [h]⟩
    · intro z y x
      rw [Finset.sum_range_succ, Finset.sum_range_one]; simp; ring
  · intro k' j' i' _ _ _; rfl

/-! ## The V-cycle (C66) -/

theorem check_fold (bcs : Fin 6 → Flag) (en : Fin 6 → Bool) : ∀ (l : List (Fin 6)) (a b x y : Bool),
    l.foldl (checkStep bcs en) (some (a, b)) = some (x, y) ↔
      (∀ f ∈ l, bcs f ≠ .other ∧ (bcs f = .user → en f = true)) ∧
      (x = true ↔ a = true ∧ ∀ f ∈ l, bcs f = .periodic ∨ bcs f = .zerograd ∨ bcs f = .multipole) ∧
      (y = true ↔ b = true ∨ ∃ f ∈ l, bcs f = .multipole) := by
  intro l
  induction l with
  | nil =>
    intro a b x y
    simp only [List.foldl_nil, Option.some.injEq, Prod.mk.injEq, List.not_mem_nil, false_imp_iff, implies_true, and_true,
      false_and, exists_false, or_false, true_and]
    cases a <;> cases b <;> cases x <;> cases y <;> simp
  | cons f t ih =>
    intro a b x y
    have hnone : ∀ l : List (Fin 6), l.foldl (checkStep bcs en) none = none := by
      intro l
      induction l with
      | nil => rfl
      | cons g s ih => rw [List.foldl_cons]; exact ih
    rw [List.foldl_cons]
    simp only [List.forall_mem_cons, List.exists_mem_cons_iff]
    cases hf : bcs f
    · cases he : en f
      · have : checkStep bcs en (some (a, b)) f = none := by simp [checkStep, hf, he]
        rw [this, hnone]; simp
      · have : checkStep bcs en (some (a, b)) f = some (false, b) := by simp [checkStep, hf, he]
        rw [this, ih]; simp
    · have : checkStep bcs en (some (a, b)) f = some (a, b) := by simp [checkStep, hf]
      rw [this, ih]; simp
    · have : checkStep bcs en (some (a, b)) f = some (false, b) := by simp [checkStep, hf]
      rw [this, ih]; simp
    · have : checkStep bcs en (some (a, b)) f = some (a, b) := by simp [checkStep, hf]
      rw [this, ih]; simp
    · have : checkStep bcs en (some (a, b)) f = some (a, true) := by simp [checkStep, hf]
      rw [this, ih]; simp
    · have : checkStep bcs en (some (a, b)) f = none := by simp [checkStep, hf]
      rw [this, hnone]; simp

/-- What `CheckBoundaryFunctions` accepts and decides: every flag is known, user-defined boundaries have a function,
periodic boundaries agree with the main part; the full approximation scheme is used if asked for or if a face has the
multipole boundary; the mean is subtracted exactly when all faces are periodic or zero-gradient. -/
theorem check_spec (bcs : Fin 6 → Flag) (main en : Fin 6 → Bool) (ffas : Bool) (r : Checked) :
    checkBoundaries bcs main en ffas = some r ↔
      (∀ f, bcs f ≠ .other ∧ (bcs f = .user → en f = true)) ∧ (∀ f, main f = true ↔ bcs f = .periodic) ∧
      (r.ffas = true ↔ ffas = true ∨ ∃ f, bcs f = .multipole) ∧
      (r.fsub = true ↔ ∀ f, bcs f = .periodic ∨ bcs f = .zerograd) := by
  have hall : ((List.finRange 6).all fun f => main f == decide (bcs f = .periodic)) = true
      ↔ ∀ f, main f = true ↔ bcs f = .periodic := by
    simp only [List.all_eq_true, List.mem_finRange, forall_const, beq_iff_eq]
    refine forall_congr' fun f => ?_
    by_cases h : bcs f = .periodic <;> cases main f <;> simp [h]
  unfold checkBoundaries
  cases hfold : (List.finRange 6).foldl (checkStep bcs en) (some (true, false)) with
  | none =>
    constructor
    · intro h; exact absurd h (by simp)
    · rintro ⟨h1, _, _, _⟩
      exfalso
      have := (check_fold bcs en (List.finRange 6) true false
        (decide (∀ f, bcs f = .periodic ∨ bcs f = .zerograd ∨ bcs f = .multipole)) (decide (∃ f, bcs f = .multipole))).mpr
        ⟨fun f _ => h1 f, by simp, by simp⟩
      rw [hfold] at this; exact absurd this (by simp)
  | some p =>
    obtain ⟨x, y⟩ := p
    obtain ⟨h1, h2, h3⟩ := (check_fold bcs en (List.finRange 6) true false x y).mp hfold
    simp only [List.mem_finRange, forall_const, true_and, Bool.false_eq_true, false_or] at h1 h2 h3
    simp only
    by_cases hm : ∀ f, main f = true ↔ bcs f = .periodic
    · rw [if_pos (hall.mpr hm)]
      simp only [Option.some.injEq]
      cases hy : y
      · have hno : ¬ ∃ f, bcs f = .multipole := fun h => by have := h3.mpr h; simp [hy] at this
        have hx : x = true ↔ ∀ f, bcs f = .periodic ∨ bcs f = .zerograd := by
          rw [h2]
          refine forall_congr' fun f => ?_
          have : ¬ bcs f = .multipole := fun h => hno ⟨f, h⟩
          simp [this]
        simp only [Bool.false_eq_true, if_false]
        constructor
        · rintro rfl
          exact ⟨h1, hm, by simp [hno], hx⟩
        · rintro ⟨_, _, a3, a4⟩
          obtain ⟨rf, rs⟩ := r
          simp only [hno, or_false] at a3 a4
          rw [← hx] at a4
          congr 1
          · cases ffas <;> cases rf <;> simp_all
          · cases x <;> cases rs <;> simp_all
      · have hyes : ∃ f, bcs f = .multipole := h3.mp hy
        have hx : ¬ ∀ f, bcs f = .periodic ∨ bcs f = .zerograd := by
          intro h; obtain ⟨f, hf⟩ := hyes; rcases h f with e | e <;> rw [hf] at e <;> exact absurd e (by simp)
        simp only [if_true]
        constructor
        · rintro rfl
          exact ⟨h1, hm, by simp [hyes], by simp [hx]⟩
        · rintro ⟨_, _, a3, a4⟩
          obtain ⟨rf, rs⟩ := r
          simp only [hyes, or_true, iff_true] at a3
          simp only [hx, iff_false, Bool.not_eq_true] at a4
          rw [a3, a4]
    · rw [if_neg (fun h => hm (hall.mp h))]
      constructor
      · intro h; exact absurd h (by simp)
      · rintro ⟨_, a2, _, _⟩; exact absurd a2 hm

/- Multipole boundaries are accepted. -/
example : checkBoundaries (fun _ => .multipole) (fun _ => false) (fun _ => false) false = some ⟨true, false⟩ := by decide

/-- Boundary conditions that passed the check, applied on every level. -/
structure Accepted (c : Cfg) (B : ℕ → Bcs) : Prop where
  bnd : ∀ l, c.bnd l = applyPhys (B l) (c.box l)
  check : ∃ flags main en f0, (∀ l, (B l).flags = flags) ∧ checkBoundaries flags main en f0 = some ⟨c.ffas, c.fsub⟩

theorem box_nonempty (c : Cfg) (hpos : 0 < c.n1 ∧ 0 < c.n2 ∧ 0 < c.n3) (l : ℕ) : (c.box l).Nonempty := by
  obtain ⟨h1, h2, h3⟩ := hpos
  have : ∀ n : ℕ, 0 < n → (1 : ℤ) ≤ (n : ℤ) * 2 ^ l := by
    intro n hn
    have : 0 < n * 2 ^ l := by positivity
    exact_mod_cast this
  exact ⟨this _ h3, this _ h2, this _ h1⟩

theorem accepted_bounds {c : Cfg} {B : ℕ → Bcs} (hpos : 0 < c.n1 ∧ 0 < c.n2 ∧ 0 < c.n3) (ha : Accepted c B) : c.Bounds := by
  obtain ⟨hb, flags, main, en, f0, hf, hc⟩ := ha
  obtain ⟨_, _, c3, c4⟩ := (check_spec _ _ _ _ _).mp hc
  refine ⟨?_, ?_⟩
  · intro l; rw [hb]; exact applyPhys_fills _ _ (box_nonempty c hpos l)
  · intro h l
    rw [hb]
    refine applyPhys_zero _ _ (box_nonempty c hpos l) ?_
    have hno : ∀ f, flags f ≠ .multipole := by
      rcases h with h | h
      · intro f hfm
        have := c3.mpr (Or.inr ⟨f, hfm⟩)
        simp only [h] at this; exact absurd this (by simp)
      · intro f hfm
        rcases c4.mp h f with e | e <;> rw [hfm] at e <;> exact absurd e (by simp)
    have key : ∀ (f : Fin 6) (bc : Bc), (B l).flags f = bc.flagOf → bc ≠ .multipole := by
      rintro f bc he rfl
      rw [hf l] at he
      exact hno f he
    exact ⟨key 0 _ rfl, key 1 _ rfl, key 2 _ rfl, key 3 _ rfl, key 4 _ rfl, key 5 _ rfl⟩

/-- The V-cycle leaves a solution alone, with the full approximation scheme as with corrections, on any number of
levels, for any numbers of smoothing passes and all boundary conditions that pass the check: the potential afterwards is
the potential before with its ghost cells filled, and the source is the same. If the mean is subtracted and the full
approximation scheme is used, the solution must have zero mean. -/
theorem vcycle_fixed (c : Cfg) (B : ℕ → Bcs) (ha : Accepted c B) (hh : c.h ≠ 0) (hpos : 0 < c.n1 ∧ 0 < c.n2 ∧ 0 < c.n3)
    (start : ℕ) (h0 : 0 < start) (s : Arrays)
    (hs : Solves (dxAt c.h (c.rlev start)) (c.box start) (applyPhys (B start) (c.box start) (s.u start)) (s.src start))
    (ht : c.ffas = true → c.fsub = true → (c.box start).total (s.u start) = 0) :
    (c.vcycle start s).u start = applyPhys (B start) (c.box start) (s.u start) ∧
      (c.vcycle start s).src start = s.src start := by
  have := Cfg.vcycle_rest (accepted_bounds hpos ha) hh h0 hpos s (by rw [ha.bnd start]; exact hs) ht
  rwa [ha.bnd start] at this

/- Four levels of a mesh with 3 x 2 x 1 cells on the coarsest, multipole boundaries in x1, full approximation scheme. -/
example : ∃ (c : Cfg) (B : ℕ → Bcs) (s : Arrays), Accepted c B ∧ c.h ≠ 0 ∧ (0 < c.n1 ∧ 0 < c.n2 ∧ 0 < c.n3) ∧
    Solves (dxAt c.h (c.rlev 3)) (c.box 3) (applyPhys (B 3) (c.box 3) (s.u 3)) (s.src 3) ∧
    (c.ffas = true → c.fsub = true → (c.box 3).total (s.u 3) = 0) := by
  let B : ℕ → Bcs := fun _ => ⟨.multipole, .multipole, .zerograd, .zerograd, .zerofixed, .zerofixed, fun _ _ => 5, fun _ _ => 7,
    fun _ _ => 0, fun _ _ => 0, fun _ _ => 0, fun _ _ => 0⟩
  let c : Cfg := { n1 := 3, n2 := 2, n3 := 1, rtop := 1, top := 3, h := 1/10, vol := 1, omega := 1.15, coffset := 1, ffas := true, fsub := false, redblack := true, cubic := true, npre := 1, npost := 1, bnd := fun l => applyPhys (B l) ⟨1, 1 * 2 ^ l, 1, 2 * 2 ^ l, 1, 3 * 2 ^ l⟩ }
  let u : A3 ℝ := fun q => q.1 + q.2.1 * q.2.2
  let a := applyPhys (B 3) (c.box 3) u
  refine ⟨c, B, ⟨fun _ => u, fun _ => u, fun _ q => (nbrSum a q.1 q.2.1 q.2.2 - 6 * a q) / (dxAt c.h (c.rlev 3)) ^ 2⟩,
    ⟨fun l => ?_, ![.multipole, .multipole, .zerograd, .zerograd, .zerofixed, .zerofixed], fun _ => false, fun _ => false, false, fun _ => rfl, by decide⟩,
    by norm_num [c], by norm_num [c], fun k j i _ => rfl, fun _ h => by simp [c] at h⟩
  simp [c, Cfg.box]

/-- Subtracting the mean on the coarsest level does nothing there if the root grid has more than one level: the array
that is changed is the one of the finest level of the root grid. -/
theorem subtract_wrong_level (c : Cfg) (h : c.rtop ≠ 0) (s : Arrays) :
    (c.subtractAverage s).u 0 = s.u 0 ∧ c.average (c.subtractAverage s) = c.average s ∧
    ∀ k j i, (c.box c.rtop).In k j i → (c.subtractAverage s).u c.rtop (k, j, i) = s.u c.rtop (k, j, i) - c.average s := by
  have e : (c.subtractAverage s).u 0 = s.u 0 := by
    unfold Cfg.subtractAverage
    simp [Ne.symm h]
  refine ⟨e, ?_, ?_⟩
  · unfold Cfg.average; rw [e]
  · intro k j i hin
    simp only [Cfg.subtractAverage, Function.update_self]
    rw [each_at _ _ (fun q => s.u c.rtop q - c.average s) (s.u c.rtop) (fun st k j i _ hst => by rw [hst]), if_pos]
    obtain ⟨⟨a1, a2⟩, ⟨a3, a4⟩, a5, a6⟩ := hin
    have b1 : (c.box c.rtop).kl = 1 := rfl
    have b2 : (c.box c.rtop).jl = 1 := rfl
    have b3 : (c.box c.rtop).il = 1 := rfl
    exact ⟨⟨by simp only; omega, by simp only; omega⟩, ⟨by simp only; omega, by simp only; omega⟩, by simp only; omega,
      by simp only; omega⟩

/- The mean on the coarsest level stays 1 where it should become 0: two levels of the root grid, 3 cells each way on the
coarsest. -/
example : ∃ (c : Cfg) (s : Arrays), c.rtop ≠ 0 ∧ c.average (c.subtractAverage s) = 1 := by
  let c : Cfg := { n1 := 3, n2 := 3, n3 := 3, rtop := 1, top := 2, h := 1, vol := 27 * 64, omega := 1.15, coffset := 0, ffas := true, fsub := true, redblack := true, cubic := true, npre := 1, npost := 1, bnd := fun _ a => a }
  refine ⟨c, ⟨fun _ _ => 1, fun _ _ => 0, fun _ _ => 0⟩, by simp [c], ?_⟩
  rw [(subtract_wrong_level c (by simp [c]) _).2.1]
  simp only [Cfg.average, Cfg.rlev, dxAt, c]
  rw [Finset.sum_const]
  simp [Finset.card_product]
  norm_num

end Verif.Mg
