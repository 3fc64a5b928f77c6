import Verif.Lemmas.MgFlux
import Verif.Spec.Multigrid

/-!
# Multigrid solver of self-gravity: boundaries between levels of refinement (C67)

A MeshBlock `C` with `2N` cells in each direction has at its face in direction `o` (`1` or `-1`) finer MeshBlocks. One of
them is `F`; `f1, f2` (`0` or `1`) say which quarter of the face it covers. `uc`, `uf` are the arrays of the two blocks.
Both blocks exchange their messages and fill the ghost cells at this face.
-/
namespace Verif.Mg
open Verif.Grid (A3)

/-- The last active cell before the face in direction `o`. -/
def faceCell (N o : ℤ) : ℤ := if o > 0 then 2 * N else 1

/-- The ghost cell behind it. -/
def ghostCell (N o : ℤ) : ℤ := if o > 0 then 2 * N + 1 else 0

theorem fieldFlux_eq (h a b : ℝ) (hh : h ≠ 0) : fieldFlux h a b = h * (b - a) := by
  unfold fieldFlux; field_simp

theorem names1 : Names fun o t x => (o, t, x) := fun o t x o' t' x' h => by
  simp only [Prod.mk.injEq] at h; omega

theorem names2 : Names fun o t x => (o, x, t) := fun o t x o' t' x' h => by
  simp only [Prod.mk.injEq] at h; omega

theorem names3 : Names fun o t x => (x, o, t) := fun o t x o' t' x' h => by
  simp only [Prod.mk.injEq] at h; omega

/-- The cell of `cbuf_` behind the face. -/
def cbufCell (N o : ℤ) : ℤ := if o > 0 then N + 1 else 0

theorem send_x1 (N o a b : ℤ) (hN : 0 ≤ N) (ho : o = 1 ∨ o = -1) (u : A3 ℝ) (s t : ℤ) :
    loadToCoarser (2 * N) ⟨-o, 0, 0, a, b⟩ u
      = (plane s t N N).map fun q => avg4 (fun o t x => (o, t, x)) u (1 + 2 * (q.1 - s)) (1 + 2 * (q.2 - t)) (faceCell N (-o)) := by
  rw [← sendGen_eq (fun o t x => (o, t, x)) N (faceCell N (-o)) hN u s t]
  rcases ho with rfl | rfl
  · simp only [loadToCoarser, sendGen, avg4, faceCell]; norm_num
  · simp only [loadToCoarser, sendGen, avg4, faceCell]; norm_num

theorem recv_x1 (N o f1 f2 : ℤ) (ho : o = 1 ∨ o = -1) (h1 : f1 = 0 ∨ f1 = 1) (h2 : f2 = 0 ∨ f2 = 1) (buf : List ℝ) (dst : A3 ℝ) :
    setFromFiner (2 * N) ⟨o, 0, 0, f1, f2⟩ buf dst
      = recvGen (fun o t x => (o, t, x)) (1 + N * f2) (1 + N * f1) N (ghostCell N o) (faceCell N o) buf dst := by
  have hh : 2 * N / 2 = N := by omega
  have a1 : 1 + 2 * N - 1 = 2 * N := by ring
  have a2 : 1 + N * 1 + N - 1 = 2 * N := by ring
  have a3 : 1 + N * 0 + N - 1 = 2 * N - N := by ring
  have a4 : 1 + N * 1 = 1 + N := by ring
  have a5 : 1 + N * 0 = 1 := by ring
  have a6 : 2 * N + 1 + -1 = 2 * N := by ring
  have a7 : 2 * N - N = N := by ring
  have a8 : 1 + N + N - 1 = 2 * N := by ring
  rcases ho with rfl | rfl <;> rcases h1 with rfl | rfl <;> rcases h2 with rfl | rfl <;>
    simp only [setFromFiner, recvGen, fromFinerBox, inward, ghostCell, faceCell, hh, a1, a2, a3, a4, a5] <;>
    norm_num [loop_one', hh, a1, a6, a7, a8]

theorem shape_x1 (N o f1 f2 : ℤ) (ho : o = 1 ∨ o = -1) (h1 : f1 = 0 ∨ f1 = 1) (h2 : f2 = 0 ∨ f2 = 1) (lx1 lx2 lx3 a b : ℤ)
    (hl1 : lx2 % 2 = f1) (hl2 : lx3 % 2 = f2) :
    toFinerBox (2 * N) ⟨o, 0, 0, f1, f2⟩ = (fromCoarserBox (2 * N) ⟨-o, 0, 0, a, b⟩ lx1 lx2 lx3).shift (N * f2) (N * f1) (faceCell N o - cbufCell N (-o)) := by
  have hh : 2 * N / 2 = N := by omega
  rcases ho with rfl | rfl <;> rcases h1 with rfl | rfl <;> rcases h2 with rfl | rfl <;>
    (unfold toFinerBox fromCoarserBox Box.shift faceCell cbufCell
     simp only [hh, hl1, hl2]
     norm_num
     try (refine ⟨?_, ?_⟩ <;> ring)
     try ring)

theorem pro_x1 (N o : ℤ) (ho : o = 1 ∨ o = -1) (cbuf dst : A3 ℝ) :
    prolongFluxX1 (2 * N) (-o) cbuf dst
      = proGen (fun o t x => (o, t, x)) N (cbufCell N (-o)) (faceCell N (-o)) (ghostCell N (-o)) cbuf dst := by
  have hh : 2 * N / 2 = N := by omega
  have a1 : 1 + 2 * N - 1 = 2 * N := by ring
  have a2 : 1 + N - 1 = N := by ring
  rcases ho with rfl | rfl <;>
    (unfold prolongFluxX1 proGen cbufCell faceCell ghostCell
     simp only [hh, a1, a2, neg_neg, show ¬ ((-1 : ℤ) > 0) by norm_num, show ((1 : ℤ) > 0) by norm_num, if_true, if_false]
     try rfl)

/-- **The coarse cells next to the boundary arrive in `cbuf_`** (x1 faces): `(k, j)` of the quarter and one more cell
towards the middle of the face. -/
theorem coarse_arrives_x1 (N o f1 f2 : ℤ) (ho : o = 1 ∨ o = -1) (h1 : f1 = 0 ∨ f1 = 1) (h2 : f2 = 0 ∨ f2 = 1)
    (lx1 lx2 lx3 a b : ℤ) (hl1 : lx2 % 2 = f1) (hl2 : lx3 % 2 = f2) (uc cb0 : A3 ℝ) (m n : ℤ)
    (hm : 1 - f2 ≤ m ∧ m ≤ N + 1 - f2) (hn : 1 - f1 ≤ n ∧ n ≤ N + 1 - f1) :
    setFromCoarser (2 * N) ⟨-o, 0, 0, a, b⟩ lx1 lx2 lx3 (loadToFiner (2 * N) ⟨o, 0, 0, f1, f2⟩ uc) cb0
      (m, n, if o > 0 then 0 else N + 1) = uc (m + N * f2, n + N * f1, faceCell N o) := by
  have hc : (if o > 0 then 0 else N + 1) = cbufCell N (-o) := by
    rcases ho with rfl | rfl <;> simp [cbufCell]
  unfold setFromCoarser loadToFiner
  rw [shape_x1 N o f1 f2 ho h1 h2 lx1 lx2 lx3 a b hl1 hl2, hc, unpackBox_at]
  · rw [show cbufCell N (-o) + (faceCell N o - cbufCell N (-o)) = faceCell N o by ring]
  · have hh : 2 * N / 2 = N := by omega
    rcases ho with rfl | rfl <;> rcases h1 with rfl | rfl <;> rcases h2 with rfl | rfl <;>
      (unfold fromCoarserBox Box.In cbufCell
       simp only [hh, hl1, hl2]
       norm_num
       omega)

/-- **Nothing is created at the boundary between two levels** (x1 faces): the flux of the gravitational field through the
face of a coarse cell, with the ghost cell that `C` computes from the message of `F`, is the sum of the fluxes through
the four faces of fine cells that make it up, with the ghost cells that `F` computes from the message of `C`. -/
theorem flux_x1 (N o f1 f2 : ℤ) (ho : o = 1 ∨ o = -1) (h1 : f1 = 0 ∨ f1 = 1) (h2 : f2 = 0 ∨ f2 = 1)
    (lx1 lx2 lx3 a b : ℤ) (hl1 : lx2 % 2 = f1) (hl2 : lx3 % 2 = f2) (uc uf cb0 : A3 ℝ) (h : ℝ) (hh : h ≠ 0) (m n : ℤ)
    (hm : 1 ≤ m ∧ m ≤ N) (hn : 1 ≤ n ∧ n ≤ N) :
    let coarse := setFromFiner (2 * N) ⟨o, 0, 0, f1, f2⟩ (loadToCoarser (2 * N) ⟨-o, 0, 0, a, b⟩ uf) uc
    let cbuf := setFromCoarser (2 * N) ⟨-o, 0, 0, a, b⟩ lx1 lx2 lx3 (loadToFiner (2 * N) ⟨o, 0, 0, f1, f2⟩ uc) cb0
    let fine := prolongFluxX1 (2 * N) (-o) cbuf uf
    let fluxF (k j : ℤ) := fieldFlux h (fine (k, j, ghostCell N (-o))) (uf (k, j, faceCell N (-o)))
    fieldFlux (2 * h) (uc (m + N * f2, n + N * f1, faceCell N o)) (coarse (m + N * f2, n + N * f1, ghostCell N o))
      = fluxF (2 * m - 1) (2 * n - 1) + fluxF (2 * m - 1) (2 * n) + fluxF (2 * m) (2 * n - 1) + fluxF (2 * m) (2 * n) := by
  intro coarse cbuf fine fluxF
  have hN : 0 ≤ N := by omega
  have nf : faceCell N o ≠ ghostCell N o := by unfold faceCell ghostCell; split <;> omega
  have nf' : faceCell N (-o) ≠ ghostCell N (-o) := by unfold faceCell ghostCell; split <;> omega
  have hfs : N * f1 = 0 ∨ N * f1 = N := by rcases h1 with rfl | rfl <;> simp
  have hfs2 : N * f2 = 0 ∨ N * f2 = N := by rcases h2 with rfl | rfl <;> simp
  have G : coarse (m + N * f2, n + N * f1, ghostCell N o)
      = 1/3 * (4 * avg4 (fun o t x => (o, t, x)) uf (2 * m - 1) (2 * n - 1) (faceCell N (-o)) - uc (m + N * f2, n + N * f1, faceCell N o)) := by
    simp only [coarse]
    rw [recv_x1 N o f1 f2 ho h1 h2, send_x1 N o a b hN ho uf (1 + N * f2) (1 + N * f1)]
    rw [recvGen_at (fun o t x => (o, t, x)) names1 (1 + N * f2) (1 + N * f1) N _ _ nf _ uc (m + N * f2) (n + N * f1) (by omega) (by omega)]
    have e1 : 1 + 2 * (m + N * f2 - (1 + N * f2)) = 2 * m - 1 := by ring
    have e2 : 1 + 2 * (n + N * f1 - (1 + N * f1)) = 2 * n - 1 := by ring
    simp only [e1, e2]
  have U : cbuf (m, n, cbufCell N (-o)) = uc (m + N * f2, n + N * f1, faceCell N o) := by
    have := coarse_arrives_x1 N o f1 f2 ho h1 h2 lx1 lx2 lx3 a b hl1 hl2 uc cb0 m n
      (by rcases h2 with rfl | rfl <;> omega) (by rcases h1 with rfl | rfl <;> omega)
    rw [← this]
    have hc : (if o > 0 then 0 else N + 1) = cbufCell N (-o) := by
      rcases ho with rfl | rfl <;> simp [cbufCell]
    rw [hc]
  have F : ∀ p q : ℤ, (p = 0 ∨ p = 1) → (q = 0 ∨ q = 1) → fine (2 * m - 1 + p, 2 * n - 1 + q, ghostCell N (-o))
      = proVal (fun o t x => (o, t, x)) (cbufCell N (-o)) (faceCell N (-o)) cbuf uf m n p q := by
    intro p q hp hq
    simp only [fine]
    rw [pro_x1 N o ho]
    exact proGen_at (fun o t x => (o, t, x)) names1 N _ _ _ nf' cbuf uf m n p q hm hn hp hq
  have bal := flux_balance (fun o t x => (o, t, x)) uf cbuf (cbufCell N (-o)) (faceCell N (-o)) m n _ U
  have F00 := F 0 0 (by simp) (by simp)
  have F01 := F 0 1 (by simp) (by simp)
  have F10 := F 1 0 (by simp) (by simp)
  have F11 := F 1 1 (by simp) (by simp)
  simp only [add_zero, sub_add_cancel] at F00 F01 F10 F11 bal
  simp only [fluxF]
  rw [fieldFlux_eq _ _ _ (by simpa using hh), fieldFlux_eq _ _ _ hh, fieldFlux_eq _ _ _ hh, fieldFlux_eq _ _ _ hh,
    fieldFlux_eq _ _ _ hh, G, F00, F01, F10, F11]
  linear_combination h * bal

/-- **Linear potentials are continued exactly** (x1 faces): if the cells of both blocks hold samples of one affine
function, so do the ghost cells that `C` and `F` compute. Lengths are in units of the coarse cell, the coordinates of
`C` are its indices; cell `m` of `F` is then at `m / 2 + 1 / 4` plus the offset of the quarter. -/
theorem affine_x1 (N o f1 f2 : ℤ) (ho : o = 1 ∨ o = -1) (h1 : f1 = 0 ∨ f1 = 1) (h2 : f2 = 0 ∨ f2 = 1)
    (a b : ℤ) (uc uf cbuf : A3 ℝ) (g0 gk gj gn : ℝ) (m n p q : ℤ)
    (hm : 1 ≤ m ∧ m ≤ N) (hn : 1 ≤ n ∧ n ≤ N) (hp : p = 0 ∨ p = 1) (hq : q = 0 ∨ q = 1) :
    let phi : ℝ → ℝ → ℝ → ℝ := fun y z x => g0 + gk * y + gj * z + gn * x
    let face : ℝ := faceCell N o + o / 2
    (∀ k j : ℤ, uc (k, j, faceCell N o) = phi k j (faceCell N o)) →
    (∀ k j : ℤ, uf (k, j, faceCell N (-o)) = phi (k / 2 + 1 / 4 + N * f2) (j / 2 + 1 / 4 + N * f1) (face + o / 4)) →
    (∀ k j : ℤ, cbuf (k, j, if o > 0 then 0 else N + 1) = phi (k + N * f2) (j + N * f1) (faceCell N o)) →
    setFromFiner (2 * N) ⟨o, 0, 0, f1, f2⟩ (loadToCoarser (2 * N) ⟨-o, 0, 0, a, b⟩ uf) uc
        (m + N * f2, n + N * f1, ghostCell N o) = phi (m + N * f2) (n + N * f1) (face + o / 2) ∧
    prolongFluxX1 (2 * N) (-o) cbuf uf (2 * m - 1 + p, 2 * n - 1 + q, ghostCell N (-o))
        = phi ((2 * m - 1 + p : ℤ) / 2 + 1 / 4 + N * f2) ((2 * n - 1 + q : ℤ) / 2 + 1 / 4 + N * f1) (face - o / 4) := by
  intro phi face huc huf hcb
  have hN : 0 ≤ N := by omega
  have nf : faceCell N o ≠ ghostCell N o := by unfold faceCell ghostCell; split <;> omega
  have nf' : faceCell N (-o) ≠ ghostCell N (-o) := by unfold faceCell ghostCell; split <;> omega
  have hfs : N * f1 = 0 ∨ N * f1 = N := by rcases h1 with rfl | rfl <;> simp
  have hfs2 : N * f2 = 0 ∨ N * f2 = N := by rcases h2 with rfl | rfl <;> simp
  have hc : (if o > 0 then 0 else N + 1) = cbufCell N (-o) := by
    rcases ho with rfl | rfl <;> simp [cbufCell]
  rw [hc] at hcb
  constructor
  · rw [recv_x1 N o f1 f2 ho h1 h2, send_x1 N o a b hN ho uf (1 + N * f2) (1 + N * f1)]
    rw [recvGen_at (fun o t x => (o, t, x)) names1 (1 + N * f2) (1 + N * f1) N _ _ nf _ uc (m + N * f2) (n + N * f1) (by omega) (by omega)]
    have e1 : 1 + 2 * (m + N * f2 - (1 + N * f2)) = 2 * m - 1 := by ring
    have e2 : 1 + 2 * (n + N * f1 - (1 + N * f1)) = 2 * n - 1 := by ring
    simp only [e1, e2, avg4, huc, huf, phi, face]
    push_cast
    ring
  · rw [pro_x1 N o ho, proGen_at (fun o t x => (o, t, x)) names1 N _ _ _ nf' cbuf uf m n p q hm hn hp hq]
    simp only [proVal, hcb, huf, phi, face]
    push_cast
    ring

theorem send_x2 (N o a b : ℤ) (hN : 0 ≤ N) (ho : o = 1 ∨ o = -1) (u : A3 ℝ) (s t : ℤ) :
    loadToCoarser (2 * N) ⟨0, -o, 0, a, b⟩ u
      = (plane s t N N).map fun q => avg4 (fun o t x => (o, x, t)) u (1 + 2 * (q.1 - s)) (1 + 2 * (q.2 - t)) (faceCell N (-o)) := by
  rw [← sendGen_eq (fun o t x => (o, x, t)) N (faceCell N (-o)) hN u s t]
  rcases ho with rfl | rfl
  · simp only [loadToCoarser, sendGen, avg4, faceCell]; norm_num
  · simp only [loadToCoarser, sendGen, avg4, faceCell]; norm_num

theorem recv_x2 (N o f1 f2 : ℤ) (ho : o = 1 ∨ o = -1) (h1 : f1 = 0 ∨ f1 = 1) (h2 : f2 = 0 ∨ f2 = 1) (buf : List ℝ) (dst : A3 ℝ) :
    setFromFiner (2 * N) ⟨0, o, 0, f1, f2⟩ buf dst
      = recvGen (fun o t x => (o, x, t)) (1 + N * f2) (1 + N * f1) N (ghostCell N o) (faceCell N o) buf dst := by
  have hh : 2 * N / 2 = N := by omega
  have a1 : 1 + 2 * N - 1 = 2 * N := by ring
  have a2 : 1 + N * 1 + N - 1 = 2 * N := by ring
  have a3 : 1 + N * 0 + N - 1 = 2 * N - N := by ring
  have a4 : 1 + N * 1 = 1 + N := by ring
  have a5 : 1 + N * 0 = 1 := by ring
  have a6 : 2 * N + 1 + -1 = 2 * N := by ring
  have a7 : 2 * N - N = N := by ring
  have a8 : 1 + N + N - 1 = 2 * N := by ring
  rcases ho with rfl | rfl <;> rcases h1 with rfl | rfl <;> rcases h2 with rfl | rfl <;>
    simp only [setFromFiner, recvGen, fromFinerBox, inward, ghostCell, faceCell, hh, a1, a2, a3, a4, a5] <;>
    norm_num [loop_one', hh, a1, a6, a7, a8]

theorem shape_x2 (N o f1 f2 : ℤ) (ho : o = 1 ∨ o = -1) (h1 : f1 = 0 ∨ f1 = 1) (h2 : f2 = 0 ∨ f2 = 1) (lx1 lx2 lx3 a b : ℤ)
    (hl1 : lx1 % 2 = f1) (hl2 : lx3 % 2 = f2) :
    toFinerBox (2 * N) ⟨0, o, 0, f1, f2⟩ = (fromCoarserBox (2 * N) ⟨0, -o, 0, a, b⟩ lx1 lx2 lx3).shift (N * f2) (faceCell N o - cbufCell N (-o)) (N * f1) := by
  have hh : 2 * N / 2 = N := by omega
  rcases ho with rfl | rfl <;> rcases h1 with rfl | rfl <;> rcases h2 with rfl | rfl <;>
    (unfold toFinerBox fromCoarserBox Box.shift faceCell cbufCell
     simp only [hh, hl1, hl2]
     norm_num
     try (refine ⟨?_, ?_⟩ <;> ring)
     try ring)

theorem pro_x2 (N o : ℤ) (ho : o = 1 ∨ o = -1) (cbuf dst : A3 ℝ) :
    prolongFluxX2 (2 * N) (-o) cbuf dst
      = proGen (fun o t x => (o, x, t)) N (cbufCell N (-o)) (faceCell N (-o)) (ghostCell N (-o)) cbuf dst := by
  have hh : 2 * N / 2 = N := by omega
  have a1 : 1 + 2 * N - 1 = 2 * N := by ring
  have a2 : 1 + N - 1 = N := by ring
  rcases ho with rfl | rfl <;>
    (unfold prolongFluxX2 proGen cbufCell faceCell ghostCell
     simp only [hh, a1, a2, neg_neg, show ¬ ((-1 : ℤ) > 0) by norm_num, show ((1 : ℤ) > 0) by norm_num, if_true, if_false]
     try rfl)

/-- **The coarse cells next to the boundary arrive in `cbuf_`** (x2 faces): `(k, j)` of the quarter and one more cell
towards the middle of the face. -/
theorem coarse_arrives_x2 (N o f1 f2 : ℤ) (ho : o = 1 ∨ o = -1) (h1 : f1 = 0 ∨ f1 = 1) (h2 : f2 = 0 ∨ f2 = 1)
    (lx1 lx2 lx3 a b : ℤ) (hl1 : lx1 % 2 = f1) (hl2 : lx3 % 2 = f2) (uc cb0 : A3 ℝ) (m n : ℤ)
    (hm : 1 - f2 ≤ m ∧ m ≤ N + 1 - f2) (hn : 1 - f1 ≤ n ∧ n ≤ N + 1 - f1) :
    setFromCoarser (2 * N) ⟨0, -o, 0, a, b⟩ lx1 lx2 lx3 (loadToFiner (2 * N) ⟨0, o, 0, f1, f2⟩ uc) cb0
      (m, if o > 0 then 0 else N + 1, n) = uc (m + N * f2, faceCell N o, n + N * f1) := by
  have hc : (if o > 0 then 0 else N + 1) = cbufCell N (-o) := by
    rcases ho with rfl | rfl <;> simp [cbufCell]
  unfold setFromCoarser loadToFiner
  rw [shape_x2 N o f1 f2 ho h1 h2 lx1 lx2 lx3 a b hl1 hl2, hc, unpackBox_at]
  · rw [show cbufCell N (-o) + (faceCell N o - cbufCell N (-o)) = faceCell N o by ring]
  · have hh : 2 * N / 2 = N := by omega
    rcases ho with rfl | rfl <;> rcases h1 with rfl | rfl <;> rcases h2 with rfl | rfl <;>
      (unfold fromCoarserBox Box.In cbufCell
       simp only [hh, hl1, hl2]
       norm_num
       omega)

/-- **Nothing is created at the boundary between two levels** (x2 faces): the flux of the gravitational field through the
face of a coarse cell, with the ghost cell that `C` computes from the message of `F`, is the sum of the fluxes through
the four faces of fine cells that make it up, with the ghost cells that `F` computes from the message of `C`. -/
theorem flux_x2 (N o f1 f2 : ℤ) (ho : o = 1 ∨ o = -1) (h1 : f1 = 0 ∨ f1 = 1) (h2 : f2 = 0 ∨ f2 = 1)
    (lx1 lx2 lx3 a b : ℤ) (hl1 : lx1 % 2 = f1) (hl2 : lx3 % 2 = f2) (uc uf cb0 : A3 ℝ) (h : ℝ) (hh : h ≠ 0) (m n : ℤ)
    (hm : 1 ≤ m ∧ m ≤ N) (hn : 1 ≤ n ∧ n ≤ N) :
    let coarse := setFromFiner (2 * N) ⟨0, o, 0, f1, f2⟩ (loadToCoarser (2 * N) ⟨0, -o, 0, a, b⟩ uf) uc
    let cbuf := setFromCoarser (2 * N) ⟨0, -o, 0, a, b⟩ lx1 lx2 lx3 (loadToFiner (2 * N) ⟨0, o, 0, f1, f2⟩ uc) cb0
    let fine := prolongFluxX2 (2 * N) (-o) cbuf uf
    let fluxF (k j : ℤ) := fieldFlux h (fine (k, ghostCell N (-o), j)) (uf (k, faceCell N (-o), j))
    fieldFlux (2 * h) (uc (m + N * f2, faceCell N o, n + N * f1)) (coarse (m + N * f2, ghostCell N o, n + N * f1))
      = fluxF (2 * m - 1) (2 * n - 1) + fluxF (2 * m - 1) (2 * n) + fluxF (2 * m) (2 * n - 1) + fluxF (2 * m) (2 * n) := by
  intro coarse cbuf fine fluxF
  have hN : 0 ≤ N := by omega
  have nf : faceCell N o ≠ ghostCell N o := by unfold faceCell ghostCell; split <;> omega
  have nf' : faceCell N (-o) ≠ ghostCell N (-o) := by unfold faceCell ghostCell; split <;> omega
  have hfs : N * f1 = 0 ∨ N * f1 = N := by rcases h1 with rfl | rfl <;> simp
  have hfs2 : N * f2 = 0 ∨ N * f2 = N := by rcases h2 with rfl | rfl <;> simp
  have G : coarse (m + N * f2, ghostCell N o, n + N * f1)
      = 1/3 * (4 * avg4 (fun o t x => (o, x, t)) uf (2 * m - 1) (2 * n - 1) (faceCell N (-o)) - uc (m + N * f2, faceCell N o, n + N * f1)) := by
    simp only [coarse]
    rw [recv_x2 N o f1 f2 ho h1 h2, send_x2 N o a b hN ho uf (1 + N * f2) (1 + N * f1)]
    rw [recvGen_at (fun o t x => (o, x, t)) names2 (1 + N * f2) (1 + N * f1) N _ _ nf _ uc (m + N * f2) (n + N * f1) (by omega) (by omega)]
    have e1 : 1 + 2 * (m + N * f2 - (1 + N * f2)) = 2 * m - 1 := by ring
    have e2 : 1 + 2 * (n + N * f1 - (1 + N * f1)) = 2 * n - 1 := by ring
    simp only [e1, e2]
  have U : cbuf (m, cbufCell N (-o), n) = uc (m + N * f2, faceCell N o, n + N * f1) := by
    have := coarse_arrives_x2 N o f1 f2 ho h1 h2 lx1 lx2 lx3 a b hl1 hl2 uc cb0 m n
      (by rcases h2 with rfl | rfl <;> omega) (by rcases h1 with rfl | rfl <;> omega)
    rw [← this]
    have hc : (if o > 0 then 0 else N + 1) = cbufCell N (-o) := by
      rcases ho with rfl | rfl <;> simp [cbufCell]
    rw [hc]
  have F : ∀ p q : ℤ, (p = 0 ∨ p = 1) → (q = 0 ∨ q = 1) → fine (2 * m - 1 + p, ghostCell N (-o), 2 * n - 1 + q)
      = proVal (fun o t x => (o, x, t)) (cbufCell N (-o)) (faceCell N (-o)) cbuf uf m n p q := by
    intro p q hp hq
    simp only [fine]
    rw [pro_x2 N o ho]
    exact proGen_at (fun o t x => (o, x, t)) names2 N _ _ _ nf' cbuf uf m n p q hm hn hp hq
  have bal := flux_balance (fun o t x => (o, x, t)) uf cbuf (cbufCell N (-o)) (faceCell N (-o)) m n _ U
  have F00 := F 0 0 (by simp) (by simp)
  have F01 := F 0 1 (by simp) (by simp)
  have F10 := F 1 0 (by simp) (by simp)
  have F11 := F 1 1 (by simp) (by simp)
  simp only [add_zero, sub_add_cancel] at F00 F01 F10 F11 bal
  simp only [fluxF]
  rw [fieldFlux_eq _ _ _ (by simpa using hh), fieldFlux_eq _ _ _ hh, fieldFlux_eq _ _ _ hh, fieldFlux_eq _ _ _ hh,
    fieldFlux_eq _ _ _ hh, G, F00, F01, F10, F11]
  linear_combination h * bal

/-- **Linear potentials are continued exactly** (x2 faces): if the cells of both blocks hold samples of one affine
function, so do the ghost cells that `C` and `F` compute. Lengths are in units of the coarse cell, the coordinates of
`C` are its indices; cell `m` of `F` is then at `m / 2 + 1 / 4` plus the offset of the quarter. -/
theorem affine_x2 (N o f1 f2 : ℤ) (ho : o = 1 ∨ o = -1) (h1 : f1 = 0 ∨ f1 = 1) (h2 : f2 = 0 ∨ f2 = 1)
    (a b : ℤ) (uc uf cbuf : A3 ℝ) (g0 gk gj gn : ℝ) (m n p q : ℤ)
    (hm : 1 ≤ m ∧ m ≤ N) (hn : 1 ≤ n ∧ n ≤ N) (hp : p = 0 ∨ p = 1) (hq : q = 0 ∨ q = 1) :
    let phi : ℝ → ℝ → ℝ → ℝ := fun y z x => g0 + gk * y + gj * z + gn * x
    let face : ℝ := faceCell N o + o / 2
    (∀ k j : ℤ, uc (k, faceCell N o, j) = phi k j (faceCell N o)) →
    (∀ k j : ℤ, uf (k, faceCell N (-o), j) = phi (k / 2 + 1 / 4 + N * f2) (j / 2 + 1 / 4 + N * f1) (face + o / 4)) →
    (∀ k j : ℤ, cbuf (k, if o > 0 then 0 else N + 1, j) = phi (k + N * f2) (j + N * f1) (faceCell N o)) →
    setFromFiner (2 * N) ⟨0, o, 0, f1, f2⟩ (loadToCoarser (2 * N) ⟨0, -o, 0, a, b⟩ uf) uc
        (m + N * f2, ghostCell N o, n + N * f1) = phi (m + N * f2) (n + N * f1) (face + o / 2) ∧
    prolongFluxX2 (2 * N) (-o) cbuf uf (2 * m - 1 + p, ghostCell N (-o), 2 * n - 1 + q)
        = phi ((2 * m - 1 + p : ℤ) / 2 + 1 / 4 + N * f2) ((2 * n - 1 + q : ℤ) / 2 + 1 / 4 + N * f1) (face - o / 4) := by
  intro phi face huc huf hcb
  have hN : 0 ≤ N := by omega
  have nf : faceCell N o ≠ ghostCell N o := by unfold faceCell ghostCell; split <;> omega
  have nf' : faceCell N (-o) ≠ ghostCell N (-o) := by unfold faceCell ghostCell; split <;> omega
  have hfs : N * f1 = 0 ∨ N * f1 = N := by rcases h1 with rfl | rfl <;> simp
  have hfs2 : N * f2 = 0 ∨ N * f2 = N := by rcases h2 with rfl | rfl <;> simp
  have hc : (if o > 0 then 0 else N + 1) = cbufCell N (-o) := by
    rcases ho with rfl | rfl <;> simp [cbufCell]
  rw [hc] at hcb
  constructor
  · rw [recv_x2 N o f1 f2 ho h1 h2, send_x2 N o a b hN ho uf (1 + N * f2) (1 + N * f1)]
    rw [recvGen_at (fun o t x => (o, x, t)) names2 (1 + N * f2) (1 + N * f1) N _ _ nf _ uc (m + N * f2) (n + N * f1) (by omega) (by omega)]
    have e1 : 1 + 2 * (m + N * f2 - (1 + N * f2)) = 2 * m - 1 := by ring
    have e2 : 1 + 2 * (n + N * f1 - (1 + N * f1)) = 2 * n - 1 := by ring
    simp only [e1, e2, avg4, huc, huf, phi, face]
    push_cast
    ring
  · rw [pro_x2 N o ho, proGen_at (fun o t x => (o, x, t)) names2 N _ _ _ nf' cbuf uf m n p q hm hn hp hq]
    simp only [proVal, hcb, huf, phi, face]
    push_cast
    ring

theorem send_x3 (N o a b : ℤ) (hN : 0 ≤ N) (ho : o = 1 ∨ o = -1) (u : A3 ℝ) (s t : ℤ) :
    loadToCoarser (2 * N) ⟨0, 0, -o, a, b⟩ u
      = (plane s t N N).map fun q => avg4 (fun o t x => (x, o, t)) u (1 + 2 * (q.1 - s)) (1 + 2 * (q.2 - t)) (faceCell N (-o)) := by
  rw [← sendGen_eq (fun o t x => (x, o, t)) N (faceCell N (-o)) hN u s t]
  rcases ho with rfl | rfl
  · simp only [loadToCoarser, sendGen, avg4, faceCell]; norm_num
  · simp only [loadToCoarser, sendGen, avg4, faceCell]; norm_num

theorem recv_x3 (N o f1 f2 : ℤ) (ho : o = 1 ∨ o = -1) (h1 : f1 = 0 ∨ f1 = 1) (h2 : f2 = 0 ∨ f2 = 1) (buf : List ℝ) (dst : A3 ℝ) :
    setFromFiner (2 * N) ⟨0, 0, o, f1, f2⟩ buf dst
      = recvGen (fun o t x => (x, o, t)) (1 + N * f2) (1 + N * f1) N (ghostCell N o) (faceCell N o) buf dst := by
  have hh : 2 * N / 2 = N := by omega
  have a1 : 1 + 2 * N - 1 = 2 * N := by ring
  have a2 : 1 + N * 1 + N - 1 = 2 * N := by ring
  have a3 : 1 + N * 0 + N - 1 = 2 * N - N := by ring
  have a4 : 1 + N * 1 = 1 + N := by ring
  have a5 : 1 + N * 0 = 1 := by ring
  have a6 : 2 * N + 1 + -1 = 2 * N := by ring
  have a7 : 2 * N - N = N := by ring
  have a8 : 1 + N + N - 1 = 2 * N := by ring
  rcases ho with rfl | rfl <;> rcases h1 with rfl | rfl <;> rcases h2 with rfl | rfl <;>
    simp only [setFromFiner, recvGen, fromFinerBox, inward, ghostCell, faceCell, hh, a1, a2, a3, a4, a5] <;>
    norm_num [loop_one', hh, a1, a6, a7, a8]

theorem shape_x3 (N o f1 f2 : ℤ) (ho : o = 1 ∨ o = -1) (h1 : f1 = 0 ∨ f1 = 1) (h2 : f2 = 0 ∨ f2 = 1) (lx1 lx2 lx3 a b : ℤ)
    (hl1 : lx1 % 2 = f1) (hl2 : lx2 % 2 = f2) :
    toFinerBox (2 * N) ⟨0, 0, o, f1, f2⟩ = (fromCoarserBox (2 * N) ⟨0, 0, -o, a, b⟩ lx1 lx2 lx3).shift (faceCell N o - cbufCell N (-o)) (N * f2) (N * f1) := by
  have hh : 2 * N / 2 = N := by omega
  rcases ho with rfl | rfl <;> rcases h1 with rfl | rfl <;> rcases h2 with rfl | rfl <;>
    (unfold toFinerBox fromCoarserBox Box.shift faceCell cbufCell
     simp only [hh, hl1, hl2]
     norm_num
     try (refine ⟨?_, ?_⟩ <;> ring)
     try ring)

theorem pro_x3 (N o : ℤ) (ho : o = 1 ∨ o = -1) (cbuf dst : A3 ℝ) :
    prolongFluxX3 (2 * N) (-o) cbuf dst
      = proGen (fun o t x => (x, o, t)) N (cbufCell N (-o)) (faceCell N (-o)) (ghostCell N (-o)) cbuf dst := by
  have hh : 2 * N / 2 = N := by omega
  have a1 : 1 + 2 * N - 1 = 2 * N := by ring
  have a2 : 1 + N - 1 = N := by ring
  rcases ho with rfl | rfl <;>
    (unfold prolongFluxX3 proGen cbufCell faceCell ghostCell
     simp only [hh, a1, a2, neg_neg, show ¬ ((-1 : ℤ) > 0) by norm_num, show ((1 : ℤ) > 0) by norm_num, if_true, if_false]
     try rfl)

/-- **The coarse cells next to the boundary arrive in `cbuf_`** (x3 faces): `(k, j)` of the quarter and one more cell
towards the middle of the face. -/
theorem coarse_arrives_x3 (N o f1 f2 : ℤ) (ho : o = 1 ∨ o = -1) (h1 : f1 = 0 ∨ f1 = 1) (h2 : f2 = 0 ∨ f2 = 1)
    (lx1 lx2 lx3 a b : ℤ) (hl1 : lx1 % 2 = f1) (hl2 : lx2 % 2 = f2) (uc cb0 : A3 ℝ) (m n : ℤ)
    (hm : 1 - f2 ≤ m ∧ m ≤ N + 1 - f2) (hn : 1 - f1 ≤ n ∧ n ≤ N + 1 - f1) :
    setFromCoarser (2 * N) ⟨0, 0, -o, a, b⟩ lx1 lx2 lx3 (loadToFiner (2 * N) ⟨0, 0, o, f1, f2⟩ uc) cb0
      (if o > 0 then 0 else N + 1, m, n) = uc (faceCell N o, m + N * f2, n + N * f1) := by
  have hc : (if o > 0 then 0 else N + 1) = cbufCell N (-o) := by
    rcases ho with rfl | rfl <;> simp [cbufCell]
  unfold setFromCoarser loadToFiner
  rw [shape_x3 N o f1 f2 ho h1 h2 lx1 lx2 lx3 a b hl1 hl2, hc, unpackBox_at]
  · rw [show cbufCell N (-o) + (faceCell N o - cbufCell N (-o)) = faceCell N o by ring]
  · have hh : 2 * N / 2 = N := by omega
    rcases ho with rfl | rfl <;> rcases h1 with rfl | rfl <;> rcases h2 with rfl | rfl <;>
      (unfold fromCoarserBox Box.In cbufCell
       simp only [hh, hl1, hl2]
       norm_num
       omega)

/-- **Nothing is created at the boundary between two levels** (x3 faces): the flux of the gravitational field through the
face of a coarse cell, with the ghost cell that `C` computes from the message of `F`, is the sum of the fluxes through
the four faces of fine cells that make it up, with the ghost cells that `F` computes from the message of `C`. -/
theorem flux_x3 (N o f1 f2 : ℤ) (ho : o = 1 ∨ o = -1) (h1 : f1 = 0 ∨ f1 = 1) (h2 : f2 = 0 ∨ f2 = 1)
    (lx1 lx2 lx3 a b : ℤ) (hl1 : lx1 % 2 = f1) (hl2 : lx2 % 2 = f2) (uc uf cb0 : A3 ℝ) (h : ℝ) (hh : h ≠ 0) (m n : ℤ)
    (hm : 1 ≤ m ∧ m ≤ N) (hn : 1 ≤ n ∧ n ≤ N) :
    let coarse := setFromFiner (2 * N) ⟨0, 0, o, f1, f2⟩ (loadToCoarser (2 * N) ⟨0, 0, -o, a, b⟩ uf) uc
    let cbuf := setFromCoarser (2 * N) ⟨0, 0, -o, a, b⟩ lx1 lx2 lx3 (loadToFiner (2 * N) ⟨0, 0, o, f1, f2⟩ uc) cb0
    let fine := prolongFluxX3 (2 * N) (-o) cbuf uf
    let fluxF (k j : ℤ) := fieldFlux h (fine (ghostCell N (-o), k, j)) (uf (faceCell N (-o), k, j))
    fieldFlux (2 * h) (uc (faceCell N o, m + N * f2, n + N * f1)) (coarse (ghostCell N o, m + N * f2, n + N * f1))
      = fluxF (2 * m - 1) (2 * n - 1) + fluxF (2 * m - 1) (2 * n) + fluxF (2 * m) (2 * n - 1) + fluxF (2 * m) (2 * n) := by
  intro coarse cbuf fine fluxF
  have hN : 0 ≤ N := by omega
  have nf : faceCell N o ≠ ghostCell N o := by unfold faceCell ghostCell; split <;> omega
  have nf' : faceCell N (-o) ≠ ghostCell N (-o) := by unfold faceCell ghostCell; split <;> omega
  have hfs : N * f1 = 0 ∨ N * f1 = N := by rcases h1 with rfl | rfl <;> simp
  have hfs2 : N * f2 = 0 ∨ N * f2 = N := by rcases h2 with rfl | rfl <;> simp
  have G : coarse (ghostCell N o, m + N * f2, n + N * f1)
      = 1/3 * (4 * avg4 (fun o t x => (x, o, t)) uf (2 * m - 1) (2 * n - 1) (faceCell N (-o)) - uc (faceCell N o, m + N * f2, n + N * f1)) := by
    simp only [coarse]
    rw [recv_x3 N o f1 f2 ho h1 h2, send_x3 N o a b hN ho uf (1 + N * f2) (1 + N * f1)]
    rw [recvGen_at (fun o t x => (x, o, t)) names3 (1 + N * f2) (1 + N * f1) N _ _ nf _ uc (m + N * f2) (n + N * f1) (by omega) (by omega)]
    have e1 : 1 + 2 * (m + N * f2 - (1 + N * f2)) = 2 * m - 1 := by ring
    have e2 : 1 + 2 * (n + N * f1 - (1 + N * f1)) = 2 * n - 1 := by ring
    simp only [e1, e2]
  have U : cbuf (cbufCell N (-o), m, n) = uc (faceCell N o, m + N * f2, n + N * f1) := by
    have := coarse_arrives_x3 N o f1 f2 ho h1 h2 lx1 lx2 lx3 a b hl1 hl2 uc cb0 m n
      (by rcases h2 with rfl | rfl <;> omega) (by rcases h1 with rfl | rfl <;> omega)
    rw [← this]
    have hc : (if o > 0 then 0 else N + 1) = cbufCell N (-o) := by
      rcases ho with rfl | rfl <;> simp [cbufCell]
    rw [hc]
  have F : ∀ p q : ℤ, (p = 0 ∨ p = 1) → (q = 0 ∨ q = 1) → fine (ghostCell N (-o), 2 * m - 1 + p, 2 * n - 1 + q)
      = proVal (fun o t x => (x, o, t)) (cbufCell N (-o)) (faceCell N (-o)) cbuf uf m n p q := by
    intro p q hp hq
    simp only [fine]
    rw [pro_x3 N o ho]
    exact proGen_at (fun o t x => (x, o, t)) names3 N _ _ _ nf' cbuf uf m n p q hm hn hp hq
  have bal := flux_balance (fun o t x => (x, o, t)) uf cbuf (cbufCell N (-o)) (faceCell N (-o)) m n _ U
  have F00 := F 0 0 (by simp) (by simp)
  have F01 := F 0 1 (by simp) (by simp)
  have F10 := F 1 0 (by simp) (by simp)
  have F11 := F 1 1 (by simp) (by simp)
  simp only [add_zero, sub_add_cancel] at F00 F01 F10 F11 bal
  simp only [fluxF]
  rw [fieldFlux_eq _ _ _ (by simpa using hh), fieldFlux_eq _ _ _ hh, fieldFlux_eq _ _ _ hh, fieldFlux_eq _ _ _ hh,
    fieldFlux_eq _ _ _ hh, G, F00, F01, F10, F11]
  linear_combination h * bal

/-- **Linear potentials are continued exactly** (x3 faces): if the cells of both blocks hold samples of one affine
function, so do the ghost cells that `C` and `F` compute. Lengths are in units of the coarse cell, the coordinates of
`C` are its indices; cell `m` of `F` is then at `m / 2 + 1 / 4` plus the offset of the quarter. -/
theorem affine_x3 (N o f1 f2 : ℤ) (ho : o = 1 ∨ o = -1) (h1 : f1 = 0 ∨ f1 = 1) (h2 : f2 = 0 ∨ f2 = 1)
    (a b : ℤ) (uc uf cbuf : A3 ℝ) (g0 gk gj gn : ℝ) (m n p q : ℤ)
    (hm : 1 ≤ m ∧ m ≤ N) (hn : 1 ≤ n ∧ n ≤ N) (hp : p = 0 ∨ p = 1) (hq : q = 0 ∨ q = 1) :
    let phi : ℝ → ℝ → ℝ → ℝ := fun y z x => g0 + gk * y + gj * z + gn * x
    let face : ℝ := faceCell N o + o / 2
    (∀ k j : ℤ, uc (faceCell N o, k, j) = phi k j (faceCell N o)) →
    (∀ k j : ℤ, uf (faceCell N (-o), k, j) = phi (k / 2 + 1 / 4 + N * f2) (j / 2 + 1 / 4 + N * f1) (face + o / 4)) →
    (∀ k j : ℤ, cbuf (if o > 0 then 0 else N + 1, k, j) = phi (k + N * f2) (j + N * f1) (faceCell N o)) →
    setFromFiner (2 * N) ⟨0, 0, o, f1, f2⟩ (loadToCoarser (2 * N) ⟨0, 0, -o, a, b⟩ uf) uc
        (ghostCell N o, m + N * f2, n + N * f1) = phi (m + N * f2) (n + N * f1) (face + o / 2) ∧
    prolongFluxX3 (2 * N) (-o) cbuf uf (ghostCell N (-o), 2 * m - 1 + p, 2 * n - 1 + q)
        = phi ((2 * m - 1 + p : ℤ) / 2 + 1 / 4 + N * f2) ((2 * n - 1 + q : ℤ) / 2 + 1 / 4 + N * f1) (face - o / 4) := by
  intro phi face huc huf hcb
  have hN : 0 ≤ N := by omega
  have nf : faceCell N o ≠ ghostCell N o := by unfold faceCell ghostCell; split <;> omega
  have nf' : faceCell N (-o) ≠ ghostCell N (-o) := by unfold faceCell ghostCell; split <;> omega
  have hfs : N * f1 = 0 ∨ N * f1 = N := by rcases h1 with rfl | rfl <;> simp
  have hfs2 : N * f2 = 0 ∨ N * f2 = N := by rcases h2 with rfl | rfl <;> simp
  have hc : (if o > 0 then 0 else N + 1) = cbufCell N (-o) := by
    rcases ho with rfl | rfl <;> simp [cbufCell]
  rw [hc] at hcb
  constructor
  · rw [recv_x3 N o f1 f2 ho h1 h2, send_x3 N o a b hN ho uf (1 + N * f2) (1 + N * f1)]
    rw [recvGen_at (fun o t x => (x, o, t)) names3 (1 + N * f2) (1 + N * f1) N _ _ nf _ uc (m + N * f2) (n + N * f1) (by omega) (by omega)]
    have e1 : 1 + 2 * (m + N * f2 - (1 + N * f2)) = 2 * m - 1 := by ring
    have e2 : 1 + 2 * (n + N * f1 - (1 + N * f1)) = 2 * n - 1 := by ring
    simp only [e1, e2, avg4, huc, huf, phi, face]
    push_cast
    ring
  · rw [pro_x3 N o ho, proGen_at (fun o t x => (x, o, t)) names3 N _ _ _ nf' cbuf uf m n p q hm hn hp hq]
    simp only [proVal, hcb, huf, phi, face]
    push_cast
    ring

/-- A case in which the ghost cells differ from the cells: `N = 1`, a coarse cell with 3 and fine cells with 0. -/
example : setFromFiner 2 ⟨1, 0, 0, 0, 0⟩ (loadToCoarser 2 ⟨-1, 0, 0, 0, 0⟩ fun _ => 0) (fun _ => 3) (1, 1, 3) = -1 := by
  have := recvGen_at (fun o t x => (o, t, x)) names1 1 1 1 3 2 (by norm_num)
    (fun q => avg4 (fun o t x => (o, t, x)) (fun _ => 0) (1 + 2 * (q.1 - 1)) (1 + 2 * (q.2 - 1)) (faceCell 1 (-1))) (fun _ => 3) 1 1
    (by norm_num) (by norm_num)
  have r := recv_x1 1 1 0 0 (by simp) (by simp) (by simp) (loadToCoarser 2 ⟨-1, 0, 0, 0, 0⟩ fun _ => 0) (fun _ => 3)
  have s := send_x1 1 1 0 0 (by simp) (by simp) (fun _ => (0 : ℝ)) 1 1
  norm_num [ghostCell, faceCell] at r s this
  rw [r, s, this]
  norm_num [avg4]

end Verif.Mg
