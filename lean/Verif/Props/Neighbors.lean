import Verif.Lemmas.NeighborsPair
import Mathlib.Data.Nat.Bitwise

/-!
# Neighbour lists, buffer slots and message tags

`Touch`, `meshBlocks`, `Reach` are in `Verif/Spec/Tree.lean`, `Entry` (one element of `neighbor[]`)
and `searchNeighbors` in `Verif/Model/Neighbors.lean`.
-/
namespace Verif.Tree

/-- `multilevel` is only false if all blocks have the level of the root grid (mesh.cpp:233-240 sets
it for refined meshes). -/
def LevelsOk (m : Mesh) (ml : Bool) (t : Tree) : Prop :=
  ml = true ∨ ∀ L p g, (L, p, g) ∈ meshBlocks m t → L = m.rootLevel

theorem LevelsOk.at {m : Mesh} (hm : m.Valid) {ml : Bool} {t : Tree} (hw : WF m t)
    (h : LevelsOk m ml t) :
    ml = true ∨ ∀ K q g, Dom m K q → t.at K q = .leaf g → K = m.rootLevel :=
  h.imp id fun h K q g hq hl => h K q g ((block_iff hm hw).2 ⟨hq, hl⟩)

theorem search_run {m : Mesh} {ml : Bool} {t : Tree} {L : Nat} {p : Pos} {es : List Entry}
    (h : searchNeighbors m ml t L p = some es) : runAll m t L p 0 (scfg m ml L p).visits = some es := by
  unfold searchNeighbors at h
  split at h
  · simp at h
  · rename_i es' h1
    split at h
    · rw [h1]; exact h
    · simp at h

section
variable {m : Mesh} (hm : m.Valid) (hnp : NoPolar m) (hns : NoShear m) {s : St} (h : Reach m s)
  {ml : Bool} (hml : LevelsOk m ml s.tree)

include hm hnp hns h hml in
theorem search_listed {L : Nat} {p : Pos} {g : Int} (hb : (L, p, g) ∈ meshBlocks m s.tree)
    {es : List Entry} (he : searchNeighbors m ml s.tree L p = some es) :
    (∀ e, e ∈ es ↔ Listed m ml s.tree L p e) ∧ (es.map (·.bufid)).Pairwise (· < ·) := by
  have hi := h.inv hm hnp
  obtain ⟨hp, hl⟩ := (block_iff hm hi.wf).1 hb
  obtain ⟨es', h1, h2, h3⟩ := search_spec hm hnp hns hi (hml.at hm hi.wf) hp hl
  rw [search_run he] at h1
  obtain rfl : es = es' := by simpa using h1
  exact ⟨h2, h3⟩

include hm hnp hns h hml in
/-- **C35** The neighbour search never stops the run when there is no polar or polar-wedge
boundary. -/
theorem neighbor_list_total (hw : m.f2 = true → m.ix2 ≠ .polarWedge ∧ m.ox2 ≠ .polarWedge)
    {L : Nat} {p : Pos} {g : Int} (hb : (L, p, g) ∈ meshBlocks m s.tree) :
    ∃ es, searchNeighbors m ml s.tree L p = some es := by
  have hi := h.inv hm hnp
  obtain ⟨hp, hl⟩ := (block_iff hm hi.wf).1 hb
  obtain ⟨es', h1, h2, h3⟩ := search_spec hm hnp hns hi (hml.at hm hi.wf) hp hl
  have key : ∀ f : BFlag, (m.f2 = true → f ≠ .polar ∧ f ≠ .polarWedge) → polarOk m s.tree L p f = true := by
    intro f hf
    unfold polarOk
    cases h2 : m.f2
    · simp
    · have := hf h2
      simp [this.1, this.2]
  refine ⟨es', ?_⟩
  unfold searchNeighbors
  rw [h1]
  simp only
  rw [if_pos]
  rw [Bool.and_eq_true]
  constructor
  · apply key
    intro h2
    unfold blockIx2
    split
    · exact ⟨(hnp h2).1, (hw h2).1⟩
    · simp
  · apply key
    intro h2
    unfold blockOx2
    split
    · exact ⟨(hnp h2).2, (hw h2).2⟩
    · simp

include hm hnp hns h hml in
/-- **C35** The list holds exactly the blocks that share a face, an edge or a corner with this
block, also through periodic boundaries: every entry is such a block, and every other such block
has an entry. -/
theorem neighbor_list_exact {L : Nat} {p : Pos} {g : Int} (hb : (L, p, g) ∈ meshBlocks m s.tree)
    {es : List Entry} (he : searchNeighbors m ml s.tree L p = some es) :
    (∀ e ∈ es, ∃ q, (e.level, q, e.gid) ∈ meshBlocks m s.tree ∧ Touch m L p e.level q) ∧
    (∀ K q g', (K, q, g') ∈ meshBlocks m s.tree → Touch m L p K q → ¬ (K = L ∧ q = p) →
      ∃ e ∈ es, e.level = K ∧ e.gid = g') := by
  have hi := h.inv hm hnp
  obtain ⟨hp, hl⟩ := (block_iff hm hi.wf).1 hb
  obtain ⟨h1, h2⟩ := search_listed hm hnp hns h hml hb he
  constructor
  · intro e hee
    obtain ⟨q, e', k1, k2, _, _, _, _, _, _, _, _, k3⟩ :=
      ((h1 e).1 hee).pair hm hnp hi (hml.at hm hi.wf) hp hl
    exact ⟨q, (block_iff hm hi.wf).2 ⟨k1, k2⟩, k3⟩
  · intro K q g' hB ht hne
    obtain ⟨hq, hl'⟩ := (block_iff hm hi.wf).1 hB
    obtain ⟨e, he1, he2⟩ := listed_of_touch hm hi (ml := ml) hp hl (hml.at hm hi.wf) hq hl' hne ht
      (touching_blocks_balanced hm hnp h hb hB ht)
    exact ⟨e, (h1 e).2 he1, he2⟩

include hm hnp hns h hml in
/-- **C35** The slots (`bufid`) used by a block are distinct and below 56; the slots stored for the
other side (`targetid`) are valid slot numbers too. -/
theorem neighbor_slots {L : Nat} {p : Pos} {g : Int} (hb : (L, p, g) ∈ meshBlocks m s.tree)
    {es : List Entry} (he : searchNeighbors m ml s.tree L p = some es) :
    (es.map (·.bufid)).Nodup ∧ ∀ e ∈ es, e.bufid < 56 ∧ 0 ≤ e.targetid ∧ e.targetid < 56 := by
  have hi := h.inv hm hnp
  obtain ⟨hp, hl⟩ := (block_iff hm hi.wf).1 hb
  obtain ⟨h1, h2⟩ := search_listed hm hnp hns h hml hb he
  have key : ∀ {L p e}, Listed m ml s.tree L p e → e.bufid < 56 := by
    intro L p e h
    cases h <;> assumption
  refine ⟨h2.imp (fun h => by omega), ?_⟩
  intro e hee
  obtain ⟨q, e', k1, k2, k3, _, _, k4, _, _, _, _, _⟩ :=
    ((h1 e).1 hee).pair hm hnp hi (hml.at hm hi.wf) hp hl
  have := key k3
  exact ⟨key ((h1 e).1 hee), by omega, by omega⟩

include hm hnp hns h hml in
/-- **C35** Both sides agree: if block A lists block B in slot `bufid` with target slot `targetid`,
then B lists A, in the opposite direction, in slot `targetid` with target slot `bufid`. -/
theorem neighbor_slots_pair {L : Nat} {p : Pos} {g : Int} (hb : (L, p, g) ∈ meshBlocks m s.tree)
    {es : List Entry} (he : searchNeighbors m ml s.tree L p = some es) {e : Entry} (hee : e ∈ es) :
    ∃ q, (e.level, q, e.gid) ∈ meshBlocks m s.tree ∧
      ∀ es', searchNeighbors m ml s.tree e.level q = some es' → ∃ e' ∈ es', e'.gid = g ∧ e'.level = L ∧
        (e'.bufid : Int) = e.targetid ∧ e'.targetid = e.bufid ∧ e'.ni.ox1 = -e.ni.ox1 ∧
        e'.ni.ox2 = -e.ni.ox2 ∧ e'.ni.ox3 = -e.ni.ox3 := by
  have hi := h.inv hm hnp
  obtain ⟨hp, hl⟩ := (block_iff hm hi.wf).1 hb
  obtain ⟨h1, h2⟩ := search_listed hm hnp hns h hml hb he
  obtain ⟨q, e', k1, k2, k3, k4, k5, k6, k7, k8, k9, k10, k11⟩ :=
    ((h1 e).1 hee).pair hm hnp hi (hml.at hm hi.wf) hp hl
  have hB : (e.level, q, e.gid) ∈ meshBlocks m s.tree := (block_iff hm hi.wf).2 ⟨k1, k2⟩
  refine ⟨q, hB, ?_⟩
  intro es' hes'
  exact ⟨e', ((search_listed hm hnp hns h hml hB hes').1 e').2 k3, k4, k5, k6, k7, k8, k9, k10⟩

end

/-! The example: a periodic mesh with refined blocks; same, finer and coarser neighbours occur. -/

example : exState.map (fun s => (searchNeighbors exMesh true s.tree 4 ⟨0, 3, 0⟩).map (·.map fun e =>
      [(e.level : Int), e.ni.ox1, e.ni.ox2, e.bufid, e.targetid])) =
    some (some [[3, -1, 0, 0, 3], [4, 1, 0, 2, 0], [4, 0, -1, 4, 6], [3, 0, 1, 6, 4], [4, 1, -1, 9, 10],
      [3, -1, 1, 10, 9]]) := by
  decide +kernel

example : exState.map (fun s => (searchNeighbors exMesh true s.tree 3 ⟨5, 1, 0⟩).map (·.map fun e =>
      [(e.level : Int), e.ni.ox1, e.ni.ox2, e.bufid, e.targetid])) =
    some (some [[3, -1, 0, 0, 2], [4, 1, 0, 2, 0], [4, 1, 0, 3, 0], [3, 0, -1, 4, 6], [3, 0, 1, 6, 4],
      [3, -1, -1, 8, 11], [3, 1, -1, 9, 10], [3, -1, 1, 10, 9], [3, 1, 1, 11, 8]]) := by
  decide +kernel

example : ∃ s, Reach exMesh s ∧ LevelsOk exMesh true s.tree :=
  exReach.imp fun _ h => ⟨h.2, .inl rfl⟩

/-! ## C34 tags -/

/-- **C34** Within the widths of the bit fields the tag determines local block id, buffer and
physics id. -/
theorem bvalsTag_injective {l b p l' b' p' : Nat} (hb : b < 64) (hp : p < 32) (hb' : b' < 64)
    (hp' : p' < 32) (h : bvalsTag l b p = bvalsTag l' b' p') : l = l' ∧ b = b' ∧ p = p' := by
  have key : ∀ l b p, b < 64 → p < 32 → bvalsTag l b p = l * 2048 + b * 32 + p := by
    intro l b p hb hp
    unfold bvalsTag
    rw [Nat.or_assoc, ← Nat.shiftLeft_add_eq_or_of_lt (a := b) (b := p) (i := 5) (by omega),
      ← Nat.shiftLeft_add_eq_or_of_lt (a := l) (i := 11) (by rw [Nat.shiftLeft_eq]; omega)]
    simp only [Nat.shiftLeft_eq]
    omega
  rw [key _ _ _ hb hp, key _ _ _ hb' hp'] at h
  omega

example : bvalsTag 3 55 31 = 7935 := by decide

/-- A message of `SetupPersistentMPI` (bvals_cc.cpp:628-690, bvals_fc.cpp:1262-1300): source rank,
destination rank, tag. -/
abbrev MsgKey := Nat × Nat × Nat

/-- The send started by block `g` for entry `e`: to the rank of the neighbour, tag made of the
neighbour's local id and `targetid`. -/
def sendKey (rank lid : Int → Nat) (phys : Nat) (g : Int) (e : Entry) : MsgKey :=
  (rank g, rank e.gid, bvalsTag (lid e.gid) e.targetid.toNat phys)

/-- The receive posted by block `g` for entry `e`: from the rank of the neighbour, tag made of the
own local id and `bufid`. -/
def recvKey (rank lid : Int → Nat) (phys : Nat) (g : Int) (e : Entry) : MsgKey :=
  (rank e.gid, rank g, bvalsTag (lid g) e.bufid phys)

/-- Entry `e` of the list of the block with gid `g`. -/
def HasEntry (m : Mesh) (ml : Bool) (t : Tree) (g : Int) (e : Entry) : Prop :=
  ∃ L p es, (L, p, g) ∈ meshBlocks m t ∧ searchNeighbors m ml t L p = some es ∧ e ∈ es

theorem gid_unique {m : Mesh} (hm : m.Valid) {s : St} (h : Reach m s) {L K : Nat} {p q : Pos} {g : Int}
    (ha : (L, p, g) ∈ meshBlocks m (s.tree.number m 0).1)
    (hb : (K, q, g) ∈ meshBlocks m (s.tree.number m 0).1) : L = K ∧ p = q := by
  have h1 := (numbering_bijective hm h).1
  have h2 : ((meshBlocks m (s.tree.number m 0).1).map (fun b => b.2.2)).Nodup := by
    rw [h1]
    exact List.Nodup.map (fun a b hab => by simpa using hab) List.nodup_range
  have := List.inj_on_of_nodup_map h2 ha hb rfl
  simpa using this

section
variable {m : Mesh} (hm : m.Valid) (hnp : NoPolar m) (hns : NoShear m)
  (hw : m.f2 = true → m.ix2 ≠ .polarWedge ∧ m.ox2 ≠ .polarWedge) {s : St} (h : Reach m s)
  {ml : Bool} (hml : LevelsOk m ml (s.tree.number m 0).1) {rank lid : Int → Nat}
  (hrl : ∀ g g', 0 ≤ g → 0 ≤ g' → rank g = rank g' → lid g = lid g' → g = g') {phys : Nat} (hph : phys < 32)

include hm hnp hns hw h hml in
theorem entry_pair {g : Int} {e : Entry} (he : HasEntry m ml (s.tree.number m 0).1 g e) :
    ∃ e', HasEntry m ml (s.tree.number m 0).1 e.gid e' ∧ e'.gid = g ∧ (e'.bufid : Int) = e.targetid ∧
      e'.targetid = e.bufid := by
  obtain ⟨L, p, es, h1, h2, h3⟩ := he
  have hr : Reach m ⟨(s.tree.number m 0).1, 0⟩ := .number 0 h
  obtain ⟨q, k1, k2⟩ := neighbor_slots_pair hm hnp hns hr hml h1 h2 h3
  obtain ⟨es', h4⟩ := neighbor_list_total hm hnp hns hr hml hw k1
  obtain ⟨e', h5, h6, _, h7, h8, _⟩ := k2 es' h4
  exact ⟨e', ⟨_, _, _, k1, h4, h5⟩, h6, h7, h8⟩

include hm hnp hns h hml in
theorem entry_unique {g : Int} {e e' : Entry} (he : HasEntry m ml (s.tree.number m 0).1 g e)
    (he' : HasEntry m ml (s.tree.number m 0).1 g e') (hb : e.bufid = e'.bufid) : e = e' := by
  obtain ⟨L, p, es, h1, h2, h3⟩ := he
  obtain ⟨L', p', es', h1', h2', h3'⟩ := he'
  have hr : Reach m ⟨(s.tree.number m 0).1, 0⟩ := .number 0 h
  obtain ⟨rfl, rfl⟩ := gid_unique hm h h1 h1'
  rw [h2] at h2'
  obtain rfl : es = es' := by simpa using h2'
  exact List.inj_on_of_nodup_map (neighbor_slots hm hnp hns hr hml h1 h2).1 h3 h3' hb

include hm h in
theorem entry_nonneg {g : Int} {e : Entry} (he : HasEntry m ml (s.tree.number m 0).1 g e) : 0 ≤ g := by
  obtain ⟨L, p, es, h1, h2, h3⟩ := he
  have h4 : g ∈ (meshBlocks m (s.tree.number m 0).1).map (fun b => b.2.2) := List.mem_map.2 ⟨_, h1, rfl⟩
  rw [(numbering_bijective hm h).1] at h4
  obtain ⟨n, _, rfl⟩ := List.mem_map.1 h4
  exact Int.natCast_nonneg n

include hm hnp hns h hml in
theorem entry_range {g : Int} {e : Entry} (he : HasEntry m ml (s.tree.number m 0).1 g e) :
    e.bufid < 64 ∧ 0 ≤ e.targetid ∧ e.targetid < 64 := by
  obtain ⟨L, p, es, h1, h2, h3⟩ := he
  have hr : Reach m ⟨(s.tree.number m 0).1, 0⟩ := .number 0 h
  have := (neighbor_slots hm hnp hns hr hml h1 h2).2 e h3
  omega

include hm hnp hns hw h hml hrl hph in
/-- **C34** Every boundary message has exactly one receive: for each send there is one and only one
(block, entry) whose receive has the same source, destination and tag, and it is the block the
message is meant for, listing the sender. -/
theorem send_has_unique_receive {g : Int} {e : Entry} (he : HasEntry m ml (s.tree.number m 0).1 g e) :
    ∃ e', HasEntry m ml (s.tree.number m 0).1 e.gid e' ∧ e'.gid = g ∧
      recvKey rank lid phys e.gid e' = sendKey rank lid phys g e ∧
      ∀ g2 e2, HasEntry m ml (s.tree.number m 0).1 g2 e2 →
        recvKey rank lid phys g2 e2 = sendKey rank lid phys g e → g2 = e.gid ∧ e2 = e' := by
  obtain ⟨e', k1, k2, k3, k4⟩ := entry_pair hm hnp hns hw h hml he
  have r := entry_range hm hnp hns h hml he
  have r' := entry_range hm hnp hns h hml k1
  refine ⟨e', k1, k2, ?_, ?_⟩
  · simp only [recvKey, sendKey, k2, ← k3, Int.toNat_natCast]
  · intro g2 e2 h2 hk
    simp only [recvKey, sendKey, Prod.mk.injEq] at hk
    obtain ⟨_, hk2, hk3⟩ := hk
    have r2 := entry_range hm hnp hns h hml h2
    obtain ⟨t1, t2, _⟩ := bvalsTag_injective r2.1 hph (by omega) hph hk3
    obtain rfl := hrl _ _ (entry_nonneg hm h h2) (entry_nonneg hm h k1) hk2 t1
    exact ⟨rfl, entry_unique hm hnp hns h hml h2 k1 (by omega)⟩

include hm hnp hns hw h hml hrl hph in
/-- **C34** Every posted receive has exactly one matching send, made by the block listed in the
entry. -/
theorem receive_has_unique_send {g : Int} {e : Entry} (he : HasEntry m ml (s.tree.number m 0).1 g e) :
    ∃ e', HasEntry m ml (s.tree.number m 0).1 e.gid e' ∧ e'.gid = g ∧
      sendKey rank lid phys e.gid e' = recvKey rank lid phys g e ∧
      ∀ g2 e2, HasEntry m ml (s.tree.number m 0).1 g2 e2 →
        sendKey rank lid phys g2 e2 = recvKey rank lid phys g e → g2 = e.gid ∧ e2 = e' := by
  obtain ⟨e', k1, k2, k3, k4⟩ := entry_pair hm hnp hns hw h hml he
  have r := entry_range hm hnp hns h hml he
  have r' := entry_range hm hnp hns h hml k1
  refine ⟨e', k1, k2, ?_, ?_⟩
  · simp only [recvKey, sendKey, k2, k4, Int.toNat_natCast]
  · intro g2 e2 h2 hk
    obtain ⟨e3, j1, j2, j3, j4⟩ := entry_pair hm hnp hns hw h hml h2
    have r2 := entry_range hm hnp hns h hml h2
    simp only [recvKey, sendKey, Prod.mk.injEq] at hk
    obtain ⟨_, hk2, hk3⟩ := hk
    obtain ⟨t1, t2, _⟩ := bvalsTag_injective (by omega) hph r.1 hph hk3
    have hg : e2.gid = g := hrl _ _ (entry_nonneg hm h j1) (entry_nonneg hm h he) hk2 t1
    rw [hg] at j1
    obtain rfl := entry_unique hm hnp hns h hml j1 he (by omega)
    obtain rfl : g2 = e3.gid := j2.symm
    exact ⟨rfl, entry_unique hm hnp hns h hml h2 k1 (by omega)⟩

end

/-- The hypothesis on ranks and local ids holds for the lists of the code: block `g` on rank `r`
has local id `g - nslist[r]`. Here: two ranks, the second starts at 9. -/
example : ∀ g g' : Int, 0 ≤ g → 0 ≤ g' → (if g < 9 then 0 else 1) = (if g' < 9 then 0 else 1) →
    (if g < 9 then g.toNat else (g - 9).toNat) = (if g' < 9 then g'.toNat else (g' - 9).toNat) → g = g' := by
  intro g g' h0 h0' h1 h2
  split at h1 <;> split at h1 <;> first | (simp at h1; done) | skip
  all_goals simp_all <;> omega

/-! ### Pole flux correction -/

/-- Tag of the field fluxes sent around a pole (bvals_fc.cpp:1370 and 1388): the azimuthal location
`lx3` of the sender is put into the field of the buffer id. -/
def poleTag (lid lx3 phys : Nat) : Nat := bvalsTag lid lx3 phys

/-- **C34** The tags of the pole correction are distinct as long as there are at most 64 blocks
around the pole. -/
theorem poleTag_injective_partial {l b p l' b' p' : Nat} (hb : b < 64) (hp : p < 32) (hb' : b' < 64)
    (hp' : p' < 32) (h : poleTag l b p = poleTag l' b' p') : l = l' ∧ b = b' ∧ p = p' :=
  bvalsTag_injective hb hp hb' hp' h

/-- **C34** (fails beyond) With more than 64 blocks around the pole two messages to the same block,
from different senders, have the same tag; so have messages from one sender to different blocks of
the same rank. -/
theorem pole_tags_collide :
    (∀ phys, poleTag 1 64 phys = poleTag 1 0 phys) ∧ (∀ phys, poleTag 0 64 phys = poleTag 1 0 phys) := by
  constructor <;> intro phys <;> simp [poleTag, bvalsTag]

end Verif.Tree
