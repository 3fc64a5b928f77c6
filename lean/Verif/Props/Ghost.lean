import Verif.Lemmas.GhostMsg
import Verif.Props.Neighbors
import Verif.Props.Array

/-!
# Ghost-zone messages of cell-centred variables

`MessageOk`, `SizesOk`, `Wide`, `SamePlace`, `activeBox`, `Beyond`, `Facing` are in
`Verif/Spec/Ghost.lean`; the boxes packed and unpacked, `loadBox` and `setBox`, in
`Verif/Model/Ghost.lean`.
-/
namespace Verif.Ghost
open Verif.Grid Verif.Tree

section
variable {m : Mesh} (hm : m.Valid) (hnp : NoPolar m) (hns : NoShear m) {s : St} (h : Reach m s)
  {ml : Bool} (hml : LevelsOk m ml s.tree)

include hm hnp hns h hml in
/-- **C36** The buffers `send[bufid]` and `recv[bufid]` of an entry are allocated for the direction
of that entry (bvals_base.cpp:155-251 fills `ni[]`, bvals_var.cpp:56-79 allocates with `ni[n]`). -/
theorem ghost_buffer {L : Nat} {p : Pos} {g : Int} (hb : (L, p, g) ∈ meshBlocks m s.tree)
    {es : List Entry} (he : searchNeighbors m ml s.tree L p = some es) {e : Entry} (hee : e ∈ es) :
    (niList m.f2 m.f3 ml)[e.bufid]? = some e.ni := by
  have hi := h.inv hm hnp
  obtain ⟨hp, hl⟩ := (block_iff hm hi.wf).1 hb
  obtain ⟨h1, _⟩ := search_listed hm hnp hns h hml hb he
  exact (listed_facts hm hi.wf (hml.at hm hi.wf) hp hl ((h1 e).1 hee)).2.2.1

include hm hnp hns h hml in
/-- **C36** Every message sent under an entry of a neighbour list is expected by the neighbour under
its own entry for the sending block, which names the sending buffer: the same number of cells, in
the same order the same cells of the mesh, into ghost cells, with the announced length, within both
buffers. -/
theorem ghost_message {d : Dims} (hd : SizesOk m ml d) {nv : Int} (hnv : 0 ≤ nv) {L : Nat} {p : Pos}
    {g : Int} (hb : (L, p, g) ∈ meshBlocks m s.tree) {es : List Entry}
    (he : searchNeighbors m ml s.tree L p = some es) {e : Entry} (hee : e ∈ es) :
    ∃ q, (e.level, q, e.gid) ∈ meshBlocks m s.tree ∧
      ∀ es', searchNeighbors m ml s.tree e.level q = some es' → ∃ e' ∈ es', e'.gid = g ∧ e'.level = L ∧
        (e'.bufid : Int) = e.targetid ∧ e'.targetid = e.bufid ∧
        MessageOk m ml d nv L p e.ni e.level q e'.ni (loadBox d L e.level e.ni)
          (setBox d e.level q L e'.ni) := by
  have hi := h.inv hm hnp
  obtain ⟨hp, hl⟩ := (block_iff hm hi.wf).1 hb
  obtain ⟨h1, h2⟩ := search_listed hm hnp hns h hml hb he
  obtain ⟨q, e', k1, k2, k3, k4, k5, k6, k7, k8, k9, k10, _, k12⟩ :=
    ((h1 e).1 hee).pair_geo hm hnp hi (hml.at hm hi.wf) hp hl
  have hB : (e.level, q, e.gid) ∈ meshBlocks m s.tree := (block_iff hm hi.wf).2 ⟨k1, k2⟩
  obtain ⟨f1, f2, _, f4⟩ := listed_facts hm hi.wf (hml.at hm hi.wf) hp hl ((h1 e).1 hee)
  refine ⟨q, hB, ?_⟩
  intro es' hes'
  exact ⟨e', ((search_listed hm hnp hns h hml hB hes').1 e').2 k3, k4, k5, k6, k7,
    .mk' nv hnv hm hd (hi.wf.leaf L p g hp hl) (hi.wf.leaf _ _ _ k1 k2) f4 hp k1 f1 f2 k8 k9 k10 k12⟩

include hm hnp hns h hml in
/-- **C36** If blocks of a refined mesh have at least twice as many cells as ghost cells, messages
are made of active cells only. -/
theorem ghost_message_active {d : Dims} (hd : SizesOk m ml d) (hw : Wide m ml d) {L : Nat} {p : Pos}
    {g : Int} (hb : (L, p, g) ∈ meshBlocks m s.tree) {es : List Entry}
    (he : searchNeighbors m ml s.tree L p = some es) {e : Entry} (hee : e ∈ es) :
    (loadBox d L e.level e.ni).In (activeBox d L e.level) := by
  have hi := h.inv hm hnp
  obtain ⟨hp, hl⟩ := (block_iff hm hi.wf).1 hb
  obtain ⟨h1, _⟩ := search_listed hm hnp hns h hml hb he
  obtain ⟨⟨_, f2, f3⟩, _, _, f4⟩ := listed_facts hm hi.wf (hml.at hm hi.wf) hp hl ((h1 e).1 hee)
  rw [mem_offs] at f2 f3
  obtain ⟨⟨b1, b2⟩, ⟨b3, b4⟩, b5, b6⟩ := load_active hd hw f4 f2.2 f3.2
  rintro k j i ⟨a1, a2, a3, a4, a5, a6⟩
  exact ⟨by omega, by omega, by omega, by omega, by omega, by omega⟩

include hm hnp hns h hml in
/-- **C37** A ghost cell that faces a block of the same or a higher level is filled from exactly one
entry of the neighbour list. -/
theorem ghost_filled_once {d : Dims} (hd : SizesOk m ml d) {L : Nat} {p : Pos} {g : Int}
    (hb : (L, p, g) ∈ meshBlocks m s.tree) {es : List Entry}
    (he : searchNeighbors m ml s.tree L p = some es) {k j i o1 o2 o3 : Int}
    (ha : (arrayBox d L L).Has k j i) (hg : ¬ (activeBox d L L).Has k j i)
    (hbe : Beyond d k j i o1 o2 o3) (hf : Facing m s.tree L p o1 o2 o3) :
    ∃! e, e ∈ es ∧ L ≤ e.level ∧ (setBox d L p e.level e.ni).Has k j i := by
  have hi := h.inv hm hnp
  obtain ⟨hp, hl⟩ := (block_iff hm hi.wf).1 hb
  obtain ⟨h1, h2⟩ := search_listed hm hnp hns h hml hb he
  have hM := hml.at hm hi.wf
  obtain ⟨q, hs, hq⟩ := hf.at hm hi.wf
  have h0 : ¬ (o1 = 0 ∧ o2 = 0 ∧ o3 = 0) := by
    rintro ⟨rfl, rfl, rfl⟩
    apply hg
    obtain ⟨b1, b2, b3⟩ := hbe
    simp only [activeBox, lt_irrefl, if_false]
    constructor <;> simp only <;> omega
  obtain ⟨e, e1, e2, e3⟩ := facing_listed hm hnp hi hd hM hp hl h0 ha hbe hs hq
  refine ⟨e, ⟨(h1 e).2 e1, e2, e3⟩, ?_⟩
  rintro e' ⟨e4, e5, e6⟩
  have hni := listed_once hm hi hd hM hp hl ha hbe ((h1 e').1 e4) e5 e6 e1 e2 e3
  have hid : e'.bufid = e.bufid := by
    have l1 := listed_bufid ((h1 e').1 e4)
    have l2 := listed_bufid e1
    rw [hni, l2] at l1
    exact_mod_cast l1.symm
  exact List.inj_on_of_nodup_map (h2.imp (fun h => h.ne)) e4 ((h1 e).2 e1) hid

include hm hnp hns h hml in
/-- **C37** A ghost cell that faces no block, or a coarser one, is not touched by the messages of
blocks of the same or a higher level. -/
theorem ghost_not_filled {d : Dims} (hd : SizesOk m ml d) {L : Nat} {p : Pos} {g : Int}
    (hb : (L, p, g) ∈ meshBlocks m s.tree) {es : List Entry}
    (he : searchNeighbors m ml s.tree L p = some es) {k j i o1 o2 o3 : Int}
    (ha : (arrayBox d L L).Has k j i)
    (hbe : Beyond d k j i o1 o2 o3) (hf : ¬ Facing m s.tree L p o1 o2 o3) :
    ∀ e ∈ es, L ≤ e.level → ¬ (setBox d L p e.level e.ni).Has k j i := by
  have hi := h.inv hm hnp
  obtain ⟨hp, hl⟩ := (block_iff hm hi.wf).1 hb
  have hL := hi.wf.leaf L p g hp hl
  obtain ⟨h1, _⟩ := search_listed hm hnp hns h hml hb he
  intro e hee hle hh
  apply hf
  obtain ⟨q, hs, h'⟩ := listed_box hm hi hd (hml.at hm hi.wf) hp hl ha hbe ((h1 e).1 hee) hle hh
  rcases h' with ⟨a, _⟩ | ⟨n, hn, _, a, _⟩
  · exact ⟨q, hs, L, q, _, (block_iff hm hi.wf).2 ⟨hs.dom hL, a⟩, ⟨le_refl _, by simp, by simp, by simp⟩⟩
  · refine ⟨q, hs, L + 1, q.child n, _, (block_iff hm hi.wf).2 ⟨(hs.dom hL).child hm hL hn, a⟩,
      ⟨by omega, ?_, ?_, ?_⟩⟩
    all_goals
      rw [show L + 1 - L = 1 by omega]
      simp only [Pos.child]
      omega

end

/-- **C36** What happens to the data: the sender packs the `nv` variables of its box, the announced
number of values reaches the receive buffer (`memcpy` or MPI), the receiver unpacks. Afterwards each
cell of the box of the receiver has the values of the same cell of the mesh, all other cells are as
before. -/
theorem ghost_data {α : Type} {m : Mesh} {ml : Bool} {d : Dims} {nv : Int} {L : Nat} {p : Pos} {e : NI}
    {K : Nat} {q : Pos} {e' : NI} {B B' : Box} (h : MessageOk m ml d nv L p e K q e' B B')
    (hnv : 0 ≤ nv) {src dst : Arr.Arr}
    (s1 : src.nx1 = (arrayBox d L K).ei + 1) (s2 : src.nx2 = (arrayBox d L K).ej + 1)
    (s3 : src.nx3 = (arrayBox d L K).ek + 1) (s4 : src.nx4 = nv) (s5 : src.nx5 = 1) (s6 : src.nx6 = 1)
    (d1 : dst.nx1 = (arrayBox d K L).ei + 1) (d2 : dst.nx2 = (arrayBox d K L).ej + 1)
    (d3 : dst.nx3 = (arrayBox d K L).ek + 1) (d4 : dst.nx4 = nv) (d5 : dst.nx5 = 1) (d6 : dst.nx6 = 1)
    {buf buf' : Int} (hsrc : src.base + src.size ≤ buf ∨ buf + bufSize d ml nv e ≤ src.base)
    (hdst : dst.base + dst.size ≤ buf' ∨ buf' + bufSize d ml nv e' ≤ dst.base) (μ μ' : Arr.Mem α)
    (sent : ∀ t, 0 ≤ t → t < (mpiSizes d m.f2 m.f3 nv L K e).1 → μ' (buf' + t) =
      (Arr.pack4 src buf 0 (nv - 1) B.si B.ei B.sj B.ej B.sk B.ek (μ, 0)).1 (buf + t)) :
    let r := Arr.unpack4 buf' dst 0 (nv - 1) B'.si B'.ei B'.sj B'.ej B'.sk B'.ek (μ', 0)
    (∀ n k j i, 0 ≤ n → n < nv → B'.Has k j i → ∃ k' j' i', B.Has k' j' i' ∧
      SamePlace m d L p K q k' j' i' k j i ∧ r.1 (dst.at4 n k j i) = μ (src.at4 n k' j' i')) ∧
    (∀ n k j i, 0 ≤ n → n < nv → (arrayBox d K L).Has k j i → ¬ B'.Has k j i →
      r.1 (dst.at4 n k j i) = μ' (dst.at4 n k j i)) ∧
    r.2 = (mpiSizes d m.f2 m.f3 nv K L e').2 := by
  obtain ⟨x1, x2, x3, hplace, hsome, hin, hin', _, hss, hrs, hsb, hrb⟩ := h
  intro r
  obtain ⟨y1, y2, y3⟩ := hsome
  have c0 := hin _ _ _ (⟨le_refl _, y1, le_refl _, y2, le_refl _, y3⟩ : B.Has B.sk B.sj B.si)
  have c1 := hin _ _ _ (⟨y1, le_refl _, y2, le_refl _, y3, le_refl _⟩ : B.Has B.ek B.ej B.ei)
  have c0' := hin' _ _ _ (⟨le_refl _, by omega, le_refl _, by omega, le_refl _, by omega⟩ :
    B'.Has B'.sk B'.sj B'.si)
  have c1' := hin' _ _ _ (⟨by omega, le_refl _, by omega, le_refl _, by omega, le_refl _⟩ :
    B'.Has B'.ek B'.ej B'.ei)
  have z : ∀ L K, (arrayBox d L K).si = 0 ∧ (arrayBox d L K).sj = 0 ∧ (arrayBox d L K).sk = 0 := by
    intro L K; unfold arrayBox; split_ifs <;> exact ⟨rfl, rfl, rfl⟩
  obtain ⟨z1, z2, z3⟩ := z L K
  obtain ⟨z1', z2', z3'⟩ := z K L
  obtain ⟨i0, _, j0, _, k0, _⟩ := c0
  obtain ⟨_, i1, _, j1, _, k1⟩ := c1
  obtain ⟨i0', _, j0', _, k0', _⟩ := c0'
  obtain ⟨_, i1', _, j1', _, k1'⟩ := c1'
  have hN : (((nv - 1 + 1 - 0).toNat * (B.ek + 1 - B.sk).toNat * (B.ej + 1 - B.sj).toNat *
      (B.ei + 1 - B.si).toNat : Nat) : Int) = nv * B.count := by
    push_cast
    rw [Int.toNat_of_nonneg (by omega), Int.toNat_of_nonneg (by omega), Int.toNat_of_nonneg (by omega),
      Int.toNat_of_nonneg (by omega)]
    unfold Box.count; ring
  have key := Arr.pack_unpack4 src dst μ μ' buf 0 buf' 0 0 (nv - 1) B.si B.ei B.sj B.ej B.sk B.ek 0
    (B'.sk - B.sk) (B'.sj - B.sj) (B'.si - B.si) ⟨by omega, by omega⟩ ⟨by omega, by omega⟩
    ⟨by omega, by omega⟩ ⟨by omega, by omega⟩ ⟨by omega, by omega⟩ ⟨by omega, by omega⟩
    ⟨by omega, by omega⟩ ⟨by omega, by omega⟩ (by omega) (by omega) (by omega) (by omega)
    (by rw [hN]; omega) (by rw [hN]; omega) (by rw [hN]; intro t t0 t1; rw [add_zero, add_zero]
                                                exact sent t t0 (by rw [hss]; exact t1))
  rw [hN] at key
  simp only [show B.si + (B'.si - B.si) = B'.si by omega, show B.sj + (B'.sj - B.sj) = B'.sj by omega,
    show B.sk + (B'.sk - B.sk) = B'.sk by omega, show B.ei + (B'.si - B.si) = B'.ei by omega,
    show B.ej + (B'.sj - B.sj) = B'.ej by omega, show B.ek + (B'.sk - B.sk) = B'.ek by omega, add_zero,
    zero_add] at key
  obtain ⟨g1, g2, g3⟩ := key
  refine ⟨?_, ?_, ?_⟩
  · rintro n k j i n0 n1 ⟨a1, a2, a3, a4, a5, a6⟩
    have hB : B.Has (k - B'.sk + B.sk) (j - B'.sj + B.sj) (i - B'.si + B.si) :=
      ⟨by omega, by omega, by omega, by omega, by omega, by omega⟩
    refine ⟨_, _, _, hB, ?_, ?_⟩
    · have := hplace _ _ _ hB
      rwa [show k - B'.sk + B.sk - B.sk + B'.sk = k by omega, show j - B'.sj + B.sj - B.sj + B'.sj = j by omega,
        show i - B'.si + B.si - B.si + B'.si = i by omega] at this
    · have := g1 n _ _ _ n0 (by omega) hB.k0 hB.k1 hB.j0 hB.j1 hB.i0 hB.i1
      rwa [show k - B'.sk + B.sk + (B'.sk - B.sk) = k by omega,
        show j - B'.sj + B.sj + (B'.sj - B.sj) = j by omega,
        show i - B'.si + B.si + (B'.si - B.si) = i by omega] at this
  · rintro n k j i n0 n1 ⟨a1, a2, a3, a4, a5, a6⟩ hn
    apply g2
    intro n' k' j' i' b1 b2 b3 b4 b5 b6 b7 b8 heq
    simp only [Arr.Arr.at4] at heq
    obtain ⟨e1, f1⟩ := Arr.horner_inj (n := dst.nx1) (i := i) (i' := i' + (B'.si - B.si))
      (q := j + dst.nx2 * (k + dst.nx3 * n))
      (q' := j' + (B'.sj - B.sj) + dst.nx2 * (k' + (B'.sk - B.sk) + dst.nx3 * n'))
      (by omega) (by omega) (by omega) (by omega) (by linarith)
    obtain ⟨e2, f2⟩ := Arr.horner_inj (n := dst.nx2) (by omega) (by omega) (by omega) (by omega) f1
    obtain ⟨e3, f3⟩ := Arr.horner_inj (n := dst.nx3) (by omega) (by omega) (by omega) (by omega) f2
    exact hn ⟨by omega, by omega, by omega, by omega, by omega, by omega⟩
  · rw [hrs]; exact g3

/-! ## Examples -/

/-- 8x4 cells per block, two ghost cells. -/
def exDims : Dims := ⟨2, 8, 4, 1⟩

theorem exDims_ok : SizesOk exMesh true exDims ∧ Wide exMesh true exDims :=
  ⟨⟨by decide, by decide, by decide, by decide, by decide, by decide, by decide, by decide, by decide,
    by decide⟩, ⟨by decide, by decide, by decide⟩⟩

theorem exBlock {L : Nat} {p : Pos} (h : (L, p) ∈ (exState.map (fun s => (meshBlocks exMesh s.tree).map
    (fun b => (b.1, b.2.1)))).getD []) :
    ∃ s, exState = some s ∧ Reach exMesh s ∧ ∃ g, (L, p, g) ∈ meshBlocks exMesh s.tree := by
  obtain ⟨s, hs, hr⟩ := exReach
  refine ⟨s, hs, hr, ?_⟩
  rw [hs] at h
  simpa using h

/-- The hypotheses of `ghost_message`, `ghost_message_active`: a block with coarser neighbours and
its messages. -/
example : ∃ s, Reach exMesh s ∧ LevelsOk exMesh true s.tree ∧ ∃ g, (4, ⟨0, 3, 0⟩, g) ∈ meshBlocks exMesh s.tree ∧
    ∃ es, searchNeighbors exMesh true s.tree 4 ⟨0, 3, 0⟩ = some es ∧
      es.map (fun e => (e.level, loadBox exDims 4 e.level e.ni)) =
      [(3, ⟨2, 3, 2, 3, 0, 0⟩), (4, ⟨8, 9, 2, 5, 0, 0⟩), (4, ⟨2, 9, 2, 3, 0, 0⟩), (3, ⟨2, 5, 2, 3, 0, 0⟩),
        (4, ⟨8, 9, 2, 3, 0, 0⟩), (3, ⟨2, 3, 2, 3, 0, 0⟩)] := by
  obtain ⟨s, h, hr, g, hg⟩ := exBlock (L := 4) (p := ⟨0, 3, 0⟩) (by rw [exState_blocks]; decide)
  refine ⟨s, hr, .inl rfl, g, hg, ?_⟩
  have h2 : exState.map (fun s => (searchNeighbors exMesh true s.tree 4 ⟨0, 3, 0⟩).map (·.map fun e =>
      (e.level, loadBox exDims 4 e.level e.ni))) =
      some (some [(3, ⟨2, 3, 2, 3, 0, 0⟩), (4, ⟨8, 9, 2, 5, 0, 0⟩), (4, ⟨2, 9, 2, 3, 0, 0⟩),
        (3, ⟨2, 5, 2, 3, 0, 0⟩), (4, ⟨8, 9, 2, 3, 0, 0⟩), (3, ⟨2, 3, 2, 3, 0, 0⟩)]) := by
    decide +kernel
  rw [h] at h2
  simpa using h2

/-- The hypotheses of `ghost_filled_once`: across the periodic boundary block `(3, (5, 1, 0))` faces
two finer blocks; the upper one fills cell `(0, 5, 10)`. -/
example : ∃ s, Reach exMesh s ∧ LevelsOk exMesh true s.tree ∧ ∃ g, (3, ⟨5, 1, 0⟩, g) ∈ meshBlocks exMesh s.tree ∧
    (arrayBox exDims 3 3).Has 0 5 10 ∧ ¬ (activeBox exDims 3 3).Has 0 5 10 ∧ Beyond exDims 0 5 10 1 0 0 ∧
    Facing exMesh s.tree 3 ⟨5, 1, 0⟩ 1 0 0 := by
  obtain ⟨s, h, hr, g, hg⟩ := exBlock (L := 3) (p := ⟨5, 1, 0⟩) (by rw [exState_blocks]; decide)
  obtain ⟨s', h', _, g', hg'⟩ := exBlock (L := 4) (p := ⟨0, 2, 0⟩) (by rw [exState_blocks]; decide)
  rw [h] at h'
  obtain rfl : s = s' := by simpa using h'
  refine ⟨s, hr, .inl rfl, g, hg, ⟨by decide, by decide, by decide, by decide, by decide, by decide⟩,
    fun h => absurd h.i1 (by decide), ⟨by decide, by decide, by decide⟩,
    ⟨0, 1, 0⟩, ⟨by decide, by decide, ⟨by decide, by decide, by decide, by decide⟩,
      ⟨by decide, by decide, by decide, by decide⟩, ⟨by decide, by decide, by decide, by decide⟩⟩,
    4, ⟨0, 2, 0⟩, g', hg', ⟨by decide, by decide, by decide, by decide⟩⟩

example : exState.map (fun s => (searchNeighbors exMesh true s.tree 3 ⟨5, 1, 0⟩).map fun es =>
    (es.filter (fun e => 3 < e.level)).map fun e => setBox exDims 3 ⟨5, 1, 0⟩ e.level e.ni) =
    some (some [⟨10, 11, 2, 3, 0, 0⟩, ⟨10, 11, 4, 5, 0, 0⟩]) := by decide +kernel

/-- The hypotheses of `ghost_not_filled`: the lower edge of the mesh. -/
example (s : St) : Beyond exDims 0 1 4 0 (-1) 0 ∧ ¬ Facing exMesh s.tree 3 ⟨4, 0, 0⟩ 0 (-1) 0 := by
  refine ⟨⟨by decide, by decide, by decide⟩, ?_⟩
  rintro ⟨q, hs, _⟩
  have := hs.s2.eq
  simp [exMesh] at this

/-- The hypotheses of `ghost_data`: variables, coarse buffer and buffers side by side in memory. -/
example : let src := Arr.new4 0 5 1 6 8; let dst := Arr.new4 1000 5 1 8 12
    src.nx1 = (arrayBox exDims 4 3).ei + 1 ∧ src.nx2 = (arrayBox exDims 4 3).ej + 1 ∧
    src.nx3 = (arrayBox exDims 4 3).ek + 1 ∧ dst.nx1 = (arrayBox exDims 3 4).ei + 1 ∧
    dst.nx2 = (arrayBox exDims 3 4).ej + 1 ∧ dst.nx3 = (arrayBox exDims 3 4).ek + 1 ∧
    src.base + src.size ≤ 3000 ∧ dst.base + dst.size ≤ 5000 := by decide

/-! ## Small blocks -/

/-- 4x4 cells per block and four ghost cells. -/
def smallDims : Dims := ⟨4, 4, 4, 1⟩

/-- With refinement the constructor demands no more than `NGHOST` cells per block (mesh.cpp:254-275;
`2*(xorder-1)` is smaller), but `LoadBoundaryBufferToCoarser` restricts and sends `2*NGHOST` cells:
with four cells per block and `NGHOST = 4` ghost cells, which have not been set yet in this stage,
are sent to coarser and to finer neighbours. -/
theorem ghost_small_blocks_witness : SizesOk exMesh true smallDims ∧ ∃ s, Reach exMesh s ∧
    (∃ g es e, (4, ⟨0, 3, 0⟩, g) ∈ meshBlocks exMesh s.tree ∧
      searchNeighbors exMesh true s.tree 4 ⟨0, 3, 0⟩ = some es ∧ e ∈ es ∧ e.level = 3 ∧
      (loadBox smallDims 4 3 e.ni).Has 0 4 6 ∧ ¬ (activeBox smallDims 4 3).Has 0 4 6) ∧
    ∃ g es e, (3, ⟨5, 1, 0⟩, g) ∈ meshBlocks exMesh s.tree ∧
      searchNeighbors exMesh true s.tree 3 ⟨5, 1, 0⟩ = some es ∧ e ∈ es ∧ e.level = 4 ∧
      (loadBox smallDims 3 4 e.ni).Has 0 3 5 ∧ ¬ (activeBox smallDims 3 4).Has 0 3 5 := by
  refine ⟨⟨by decide, by decide, by decide, by decide, by decide, by decide, by decide, by decide, by decide,
    by decide⟩, ?_⟩
  obtain ⟨s, h, hr, g, hg⟩ := exBlock (L := 3) (p := ⟨5, 1, 0⟩) (by rw [exState_blocks]; decide)
  obtain ⟨s', h', _, g', hg'⟩ := exBlock (L := 4) (p := ⟨0, 3, 0⟩) (by rw [exState_blocks]; decide)
  rw [h] at h'
  obtain rfl : s = s' := by simpa using h'
  have h2 : exState.map (fun s => (searchNeighbors exMesh true s.tree 4 ⟨0, 3, 0⟩).map fun es =>
      es.any fun e => e.level == 3 && loadBox smallDims 4 3 e.ni == loadBox smallDims 4 3 ⟨-1, 0, 0, 0, 0⟩) =
      some (some true) := by decide +kernel
  have h3 : exState.map (fun s => (searchNeighbors exMesh true s.tree 3 ⟨5, 1, 0⟩).map fun es =>
      es.any fun e => e.level == 4 && loadBox smallDims 3 4 e.ni == loadBox smallDims 3 4 ⟨1, 0, 0, 1, 0⟩) =
      some (some true) := by decide +kernel
  rw [h] at h2 h3
  simp only [Option.map_some, Option.some.injEq, Option.map_eq_some_iff, List.any_eq_true, Bool.and_eq_true,
    beq_iff_eq] at h2 h3
  obtain ⟨es, e1, e, e2, e3, e4⟩ := h2
  obtain ⟨es', e1', e', e2', e3', e4'⟩ := h3
  refine ⟨s, hr, ⟨g', es, e, hg', e1, e2, e3, ?_, fun h => absurd h.i1 (by decide)⟩,
    ⟨g, es', e', hg, e1', e2', e3', ?_, fun h => absurd h.j0 (by decide)⟩⟩
  · rw [e4]; exact ⟨by decide, by decide, by decide, by decide, by decide, by decide⟩
  · rw [e4']; exact ⟨by decide, by decide, by decide, by decide, by decide, by decide⟩

end Verif.Ghost
