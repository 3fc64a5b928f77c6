import Verif.Model.Multigrid

/-!
# Multigrid solver of self-gravity: boundaries between levels of refinement

The messages between MeshBlocks of different levels and the formulas for ghost cells of
`MGGravityBoundaryValues` (bvals_mg_gravity.cpp), for gravity: one variable, `ngh_ = 1`. A message is a list of
numbers, the buffer `buf` up to the number of entries that the function returns.
-/
namespace Verif.Mg
open Verif.Arr (loop)
open Verif.Grid (A3 rng2)

/-- `nb.ni`: where the neighbour is (`ox1, ox2, ox3`) and which of the finer neighbours it is (`fi1, fi2`). -/
structure NbIdx where
  ox1 : ℤ
  ox2 : ℤ
  ox3 : ℤ
  fi1 : ℤ
  fi2 : ℤ

/-- `LoadMultigridBoundaryBufferToCoarserFluxCons` (bvals_mg_gravity.cpp:48-95). -/
noncomputable def loadToCoarser (nc : ℤ) (nb : NbIdx) (u : A3 ℝ) : List ℝ :=
  let fs : ℤ := 1
  let fe := fs + nc - 1
  if nb.ox1 ≠ 0 then
    let fi := if nb.ox1 < 0 then fs else fe
    (rng2 fs fe).foldl (fun buf fk => (rng2 fs fe).foldl (fun buf fj =>
      buf ++ [0.25 * ((u (fk, fj, fi) + u (fk, fj+1, fi)) + (u (fk+1, fj, fi) + u (fk+1, fj+1, fi)))]) buf) []
  else if nb.ox2 ≠ 0 then
    let fj := if nb.ox2 < 0 then fs else fe
    (rng2 fs fe).foldl (fun buf fk => (rng2 fs fe).foldl (fun buf fi =>
      buf ++ [0.25 * ((u (fk, fj, fi) + u (fk, fj, fi+1)) + (u (fk+1, fj, fi) + u (fk+1, fj, fi+1)))]) buf) []
  else
    let fk := if nb.ox3 < 0 then fs else fe
    (rng2 fs fe).foldl (fun buf fj => (rng2 fs fe).foldl (fun buf fi =>
      buf ++ [0.25 * ((u (fk, fj, fi) + u (fk, fj, fi+1)) + (u (fk, fj+1, fi) + u (fk, fj+1, fi+1)))]) buf) []

/-- The ranges of `LoadMultigridBoundaryBufferToFinerFluxCons` (bvals_mg_gravity.cpp:103-139). -/
def toFinerBox (nc : ℤ) (nb : NbIdx) : Box :=
  let ngh : ℤ := 1
  let cn := ngh - 1
  let fs := ngh
  let fe := fs + nc - 1
  let nred := nc / 2 - ngh
  let si := if nb.ox1 > 0 then fe - cn else fs
  let ei := if nb.ox1 < 0 then fs + cn else fe
  let sj := if nb.ox2 > 0 then fe - cn else fs
  let ej := if nb.ox2 < 0 then fs + cn else fe
  let sk := if nb.ox3 > 0 then fe - cn else fs
  let ek := if nb.ox3 < 0 then fs + cn else fe
  let f1 := nb.fi1
  let f2 := if nb.ox1 ≠ 0 then nb.fi1 else nb.fi2
  let f3 := if nb.ox1 ≠ 0 ∧ nb.ox2 ≠ 0 then nb.fi1 else nb.fi2
  { il := if nb.ox1 = 0 ∧ f1 = 1 then si + nred else si
    iu := if nb.ox1 = 0 ∧ f1 ≠ 1 then ei - nred else ei
    jl := if nb.ox2 = 0 ∧ f2 = 1 then sj + nred else sj
    ju := if nb.ox2 = 0 ∧ f2 ≠ 1 then ej - nred else ej
    kl := if nb.ox3 = 0 ∧ f3 = 1 then sk + nred else sk
    ku := if nb.ox3 = 0 ∧ f3 ≠ 1 then ek - nred else ek }

/-- `BufferUtility::PackData` for one variable (buffer_utils.cpp:47-57). -/
def packBox (b : Box) (u : A3 ℝ) : List ℝ :=
  loop b.kl b.ku (fun k => loop b.jl b.ju fun j => loop b.il b.iu fun i buf => buf ++ [u (k, j, i)]) []

/-- `LoadMultigridBoundaryBufferToFinerFluxCons` (bvals_mg_gravity.cpp:103-145). -/
def loadToFiner (nc : ℤ) (nb : NbIdx) (u : A3 ℝ) : List ℝ := packBox (toFinerBox nc nb) u

/-- The ranges of `SetMultigridBoundaryFromCoarserFluxCons` (bvals_mg_gravity.cpp:152-187); `lx1, lx2, lx3` is the
location of the receiving MeshBlock. -/
def fromCoarserBox (nc : ℤ) (nb : NbIdx) (lx1 lx2 lx3 : ℤ) : Box :=
  let cng : ℤ := 1
  let cs := cng
  let ce := cng + nc / 2 - 1
  let lo (ox lx : ℤ) : ℤ := if ox = 0 then (if lx % 2 = 0 then cs else cs - cng) else if ox > 0 then ce + 1 else cs - cng
  let hi (ox lx : ℤ) : ℤ := if ox = 0 then (if lx % 2 = 0 then ce + cng else ce) else if ox > 0 then ce + cng else cs - 1
  ⟨lo nb.ox3 lx3, hi nb.ox3 lx3, lo nb.ox2 lx2, hi nb.ox2 lx2, lo nb.ox1 lx1, hi nb.ox1 lx1⟩

/-- `BufferUtility::UnpackData` for one variable (buffer_utils.cpp:105-116). -/
def unpackBox (b : Box) (buf : List ℝ) (a : A3 ℝ) : A3 ℝ :=
  (loop b.kl b.ku (fun k => loop b.jl b.ju fun j => loop b.il b.iu fun i (st : A3 ℝ × ℕ) =>
    (Function.update st.1 (k, j, i) (buf.getD st.2 0), st.2 + 1)) (a, 0)).1

/-- `SetMultigridBoundaryFromCoarserFluxCons` (bvals_mg_gravity.cpp:152-192); the array is `cbuf_`. -/
def setFromCoarser (nc : ℤ) (nb : NbIdx) (lx1 lx2 lx3 : ℤ) (buf : List ℝ) (cbuf : A3 ℝ) : A3 ℝ :=
  unpackBox (fromCoarserBox nc nb lx1 lx2 lx3) buf cbuf

/-- The ranges of `SetMultigridBoundaryFromFinerFluxCons` (bvals_mg_gravity.cpp:199-246). -/
def fromFinerBox (nc : ℤ) (nb : NbIdx) : Box :=
  let ngh : ℤ := 1
  let fs := ngh
  let fe := fs + nc - 1
  let f1 := nb.fi1
  let f2 := if nb.ox1 ≠ 0 then nb.fi1 else nb.fi2
  let f3 := if nb.ox1 ≠ 0 ∧ nb.ox2 ≠ 0 then nb.fi1 else nb.fi2
  let lo (ox f : ℤ) : ℤ := if ox = 0 then (if f = 1 then fs + nc / 2 else fs) else if ox > 0 then fe + 1 else fs - ngh
  let hi (ox f : ℤ) : ℤ := if ox = 0 then (if f = 1 then fe else fe - nc / 2) else if ox > 0 then fe + ngh else fs - 1
  ⟨lo nb.ox3 f3, hi nb.ox3 f3, lo nb.ox2 f2, hi nb.ox2 f2, lo nb.ox1 f1, hi nb.ox1 f1⟩

/-- `oi`, `oj`, `ok` there: from the ghost cell to the active cell at the boundary. -/
def inward (ox : ℤ) : ℤ := if ox = 0 then 0 else if ox > 0 then -1 else 1

/-- `SetMultigridBoundaryFromFinerFluxCons` (bvals_mg_gravity.cpp:199-262). -/
noncomputable def setFromFiner (nc : ℤ) (nb : NbIdx) (buf : List ℝ) (dst : A3 ℝ) : A3 ℝ :=
  let b := fromFinerBox nc nb
  (loop b.kl b.ku (fun k => loop b.jl b.ju fun j => loop b.il b.iu fun i (st : A3 ℝ × ℕ) =>
    (Function.update st.1 (k, j, i)
      (1/3 * (4 * buf.getD st.2 0 - st.1 (k + inward nb.ox3, j + inward nb.ox2, i + inward nb.ox1))), st.2 + 1)) (dst, 0)).1

/-- The loops of `ProlongateMultigridBoundariesFluxCons` at an x1 face (bvals_mg_gravity.cpp:283-314), after the boundary
functions have been applied to `cbuf_`. -/
noncomputable def prolongFluxX1 (nc ox : ℤ) (cbuf dst : A3 ℝ) : A3 ℝ :=
  let cs : ℤ := 1
  let ce := cs + nc / 2 - 1
  let fs : ℤ := 1
  let fe := fs + nc - 1
  let i := if ox > 0 then ce + 1 else cs - 1
  let fi := if ox > 0 then fe else fs
  let fig := if ox > 0 then fe + 1 else fs - 1
  loop cs ce (fun k => loop cs ce fun j dst =>
    let fk := (k - cs) * 2 + fs
    let fj := (j - cs) * 2 + fs
    let cc := cbuf (k, j, i)
    let gt := 0.125 * (cbuf (k, j+1, i) - cbuf (k, j-1, i))
    let go := 0.125 * (cbuf (k+1, j, i) - cbuf (k-1, j, i))
    let dst := Function.update dst (fk, fj, fig) (1/3 * (2 * (cc - gt - go) + dst (fk, fj, fi)))
    let dst := Function.update dst (fk, fj+1, fig) (1/3 * (2 * (cc + gt - go) + dst (fk, fj+1, fi)))
    let dst := Function.update dst (fk+1, fj, fig) (1/3 * (2 * (cc - gt + go) + dst (fk+1, fj, fi)))
    let dst := Function.update dst (fk+1, fj+1, fig) (1/3 * (2 * (cc + gt + go) + dst (fk+1, fj+1, fi)))
    dst) dst

/-- The loops of `ProlongateMultigridBoundariesFluxCons` at an x2 face (bvals_mg_gravity.cpp:317-353), after the boundary
functions have been applied to `cbuf_`. -/
noncomputable def prolongFluxX2 (nc ox : ℤ) (cbuf dst : A3 ℝ) : A3 ℝ :=
  let cs : ℤ := 1
  let ce := cs + nc / 2 - 1
  let fs : ℤ := 1
  let fe := fs + nc - 1
  let j := if ox > 0 then ce + 1 else cs - 1
  let fj := if ox > 0 then fe else fs
  let fjg := if ox > 0 then fe + 1 else fs - 1
  loop cs ce (fun k => loop cs ce fun i dst =>
    let fk := (k - cs) * 2 + fs
    let fi := (i - cs) * 2 + fs
    let cc := cbuf (k, j, i)
    let gt := 0.125 * (cbuf (k, j, i+1) - cbuf (k, j, i-1))
    let go := 0.125 * (cbuf (k+1, j, i) - cbuf (k-1, j, i))
    let dst := Function.update dst (fk, fjg, fi) (1/3 * (2 * (cc - gt - go) + dst (fk, fj, fi)))
    let dst := Function.update dst (fk, fjg, fi+1) (1/3 * (2 * (cc + gt - go) + dst (fk, fj, fi+1)))
    let dst := Function.update dst (fk+1, fjg, fi) (1/3 * (2 * (cc - gt + go) + dst (fk+1, fj, fi)))
    let dst := Function.update dst (fk+1, fjg, fi+1) (1/3 * (2 * (cc + gt + go) + dst (fk+1, fj, fi+1)))
    dst) dst

/-- The loops of `ProlongateMultigridBoundariesFluxCons` at an x3 face (bvals_mg_gravity.cpp:356-395), after the boundary
functions have been applied to `cbuf_`. -/
noncomputable def prolongFluxX3 (nc ox : ℤ) (cbuf dst : A3 ℝ) : A3 ℝ :=
  let cs : ℤ := 1
  let ce := cs + nc / 2 - 1
  let fs : ℤ := 1
  let fe := fs + nc - 1
  let k := if ox > 0 then ce + 1 else cs - 1
  let fk := if ox > 0 then fe else fs
  let fkg := if ox > 0 then fe + 1 else fs - 1
  loop cs ce (fun j => loop cs ce fun i dst =>
    let fj := (j - cs) * 2 + fs
    let fi := (i - cs) * 2 + fs
    let cc := cbuf (k, j, i)
    let gt := 0.125 * (cbuf (k, j, i+1) - cbuf (k, j, i-1))
    let go := 0.125 * (cbuf (k, j+1, i) - cbuf (k, j-1, i))
    let dst := Function.update dst (fkg, fj, fi) (1/3 * (2 * (cc - gt - go) + dst (fk, fj, fi)))
    let dst := Function.update dst (fkg, fj, fi+1) (1/3 * (2 * (cc + gt - go) + dst (fk, fj, fi+1)))
    let dst := Function.update dst (fkg, fj+1, fi) (1/3 * (2 * (cc - gt + go) + dst (fk, fj+1, fi)))
    let dst := Function.update dst (fkg, fj+1, fi+1) (1/3 * (2 * (cc + gt + go) + dst (fk, fj+1, fi+1)))
    dst) dst

end Verif.Mg
