import Verif.Lemmas.FluxGeom
import Verif.Lemmas.FluxMesh
import Verif.Props.Ghost

/-!
# Flux correction on every mesh (C61)

`AtFace`, `OnBoundary`, `FaceList`, `Delivered`, `blockSum` are in `Verif/Spec/FluxMsg.lean`; the
messages and the fluxes after all of them have been received in `Verif/Model/FluxMsg.lean`.
-/
namespace Verif.FluxMsg
open Verif.Grid Verif.Tree Verif.Ghost

section
variable {m : Mesh} (hm : m.Valid) (hnp : NoPolar m) (hns : NoShear m) {s : St} (h : Reach m s)
  {ml : Bool} (hml : LevelsOk m ml s.tree)

include hm hnp hns h hml in
/-- The loops that stop at the first entry that is not a face miss no face; the buffers of all faces
are among the allocated ones, those of other entries are not. -/
theorem faces_first {L : Nat} {p : Pos} {g : Int} (hb : (L, p, g) ∈ meshBlocks m s.tree)
    {es : List Entry} (he : searchNeighbors m ml s.tree L p = some es) :
    (∀ e, e ∈ sends L es ↔ e ∈ es ∧ isFace e.ni = true ∧ e.level < L) ∧
    (∀ e, e ∈ recvs L es ↔ e ∈ es ∧ isFace e.ni = true ∧ L < e.level) ∧
    ∀ e ∈ es, isFace e.ni = true ↔ e.bufid < nbmax m.f2 m.f3 ml := by
  obtain ⟨h1, h2⟩ := search_listed hm hnp hns h hml hb he
  have h3 : ∀ e ∈ es, isFace e.ni = true ↔ e.bufid < nbmax m.f2 m.f3 ml := fun e hee =>
    nbmax_core _ _ _ _ ((neighbor_slots hm hnp hns h hml hb he).2 e hee).1 _
      (ghost_buffer hm hnp hns h hml hb he hee)
  have h4 : es.takeWhile (fun e => isFace e.ni) = es.filter fun e => isFace e.ni :=
    takeWhile_sorted _ (·.bufid) _ es h2 h3
  refine ⟨?_, ?_, h3⟩
  · intro e
    unfold sends
    rw [h4]; simp only [List.mem_filter, decide_eq_true_eq, and_assoc]
  · intro e
    unfold recvs
    rw [h4]; simp only [List.mem_filter, decide_eq_true_eq, and_assoc]

include hm hnp hns h hml in
/-- What a neighbour list has at each face: nothing at the boundary of the mesh; otherwise one block of
the same or the next coarser level, or a block of the next finer level at each position. -/
theorem face_entries {d : Dims} (hd : SizesOk m ml d) (hok : d.Ok) {L : Nat} {p : Pos} {g : Int}
    (hb : (L, p, g) ∈ meshBlocks m s.tree) {es : List Entry} (he : searchNeighbors m ml s.tree L p = some es)
    {f : Nat} (ha : Active d f) :
    (OnBoundary m L p f ∧ ∀ e ∈ es, ¬ AtFace f e.ni) ∨ (¬ OnBoundary m L p f ∧ FaceList d L f es) := by
  have hi := h.inv hm hnp
  obtain ⟨hp, hl⟩ := (block_iff hm hi.wf).1 hb
  exact face_list hm hnp hi hd hok (hml.at hm hi.wf) hp hl (search_listed hm hnp hns h hml hb he).1 ha

include hm hnp hns h hml in
/-- Each message of flux corrections is expected by its receiver. The block named in the entry exists
and is one level coarser; it has an entry for the sending block among those whose data it uses, with
the buffer the message is written to, at the opposite face, and its position indices are the parities
of the coordinates of the sending block. -/
theorem correction_message {d : Dims} (hd : SizesOk m ml d) (hok : d.Ok) {L : Nat} {p : Pos} {g : Int}
    (hb : (L, p, g) ∈ meshBlocks m s.tree) {es : List Entry} (he : searchNeighbors m ml s.tree L p = some es)
    {e : Entry} (hee : e ∈ sends L es) :
    ∃ q, (e.level, q, e.gid) ∈ meshBlocks m s.tree ∧ e.level + 1 = L ∧
      ∀ es', searchNeighbors m ml s.tree e.level q = some es' → ∃ e' ∈ recvs e.level es',
        e'.gid = g ∧ e'.level = L ∧ (e'.bufid : Int) = e.targetid ∧ e'.targetid = e.bufid ∧
        faceId e'.ni = opp (faceId e.ni) ∧ (e'.ni.fi1, e'.ni.fi2) = position (faceId e.ni) p := by
  have hi := h.inv hm hnp
  obtain ⟨hp, hl⟩ := (block_iff hm hi.wf).1 hb
  obtain ⟨m1, m2, m3⟩ := ((faces_first hm hnp hns h hml hb he).1 e).1 hee
  have hL := ((search_listed hm hnp hns h hml hb he).1 e).1 m1
  obtain ⟨a1, a2⟩ := listed_face hd hok hL m2
  have h6 : faceId e.ni < 6 := by unfold Active at a2; omega
  obtain ⟨q, e', k1, k2, k3, k4, k5, k6, k7, k8, k9, k10, _, kg⟩ := hL.pair_geo hm hnp hi (hml.at hm hi.wf) hp hl
  have hq := (block_iff hm hi.wf).2 ⟨k1, k2⟩
  have b1 := atFace_opp h6 a1 k8 k9 k10
  obtain ⟨b2, b3⟩ := atFace_id (opp_facts (d := d) h6).1 b1
  rcases kg with ⟨j, _⟩ | ⟨j, _⟩ | ⟨j, r, _, _, _, j5⟩
  · omega
  · omega
  · refine ⟨q, hq, j.symm, fun es' he' => ⟨e', ?_, k4, k5, k6, k7, b2, ?_⟩⟩
    · exact ((faces_first hm hnp hns h hml hq he').2.1 e').2
        ⟨((search_listed hm hnp hns h hml hq he').1 e').2 k3, b3, by omega⟩
    · rw [j5]
      rw [atFace_iff h6] at a1
      obtain ⟨i1, i2, i3⟩ := a1
      rw [i1, i2, i3]
      generalize faceId e.ni = f at h6
      interval_cases f <;> simp [off1, off2, off3, Tree.trans, position]

include hm hnp hns h hml in
/-- Conversely the blocks whose data a block waits for send them. -/
theorem correction_expected {d : Dims} (hd : SizesOk m ml d) (hok : d.Ok) {L : Nat} {p : Pos} {g : Int}
    (hb : (L, p, g) ∈ meshBlocks m s.tree) {es : List Entry} (he : searchNeighbors m ml s.tree L p = some es)
    {e : Entry} (hee : e ∈ recvs L es) :
    ∃ q, (e.level, q, e.gid) ∈ meshBlocks m s.tree ∧ e.level = L + 1 ∧
      ∀ es', searchNeighbors m ml s.tree e.level q = some es' → ∃ e' ∈ sends e.level es',
        e'.gid = g ∧ e'.level = L ∧ (e'.bufid : Int) = e.targetid ∧ e'.targetid = e.bufid ∧
        faceId e'.ni = opp (faceId e.ni) ∧ (e.ni.fi1, e.ni.fi2) = position (faceId e.ni) q := by
  have hi := h.inv hm hnp
  obtain ⟨hp, hl⟩ := (block_iff hm hi.wf).1 hb
  obtain ⟨m1, m2, m3⟩ := ((faces_first hm hnp hns h hml hb he).2.1 e).1 hee
  have hL := ((search_listed hm hnp hns h hml hb he).1 e).1 m1
  obtain ⟨a1, a2⟩ := listed_face hd hok hL m2
  have h6 : faceId e.ni < 6 := by unfold Active at a2; omega
  obtain ⟨q, e', k1, k2, k3, k4, k5, k6, k7, k8, k9, k10, _, kg⟩ := hL.pair_geo hm hnp hi (hml.at hm hi.wf) hp hl
  have hq := (block_iff hm hi.wf).2 ⟨k1, k2⟩
  have b1 := atFace_opp h6 a1 k8 k9 k10
  obtain ⟨b2, b3⟩ := atFace_id (opp_facts (d := d) h6).1 b1
  rcases kg with ⟨j, _⟩ | ⟨j, r, n, j1, j2, j3, j4, j5⟩ | ⟨j, _⟩
  · omega
  · refine ⟨q, hq, j, fun es' he' => ⟨e', ?_, k4, k5, k6, k7, b2, ?_⟩⟩
    · exact ((faces_first hm hnp hns h hml hq he').1 e').2
        ⟨((search_listed hm hnp hns h hml hq he').1 e').2 k3, b3, by omega⟩
    · rw [j5, j2]
      rw [atFace_iff h6] at a1
      obtain ⟨i1, i2, i3⟩ := a1
      rw [i1, i2, i3]
      generalize faceId e.ni = f at h6
      have c1 : (r.child n).x1 = 2 * r.x1 + n.val % 2 := rfl
      have c2 : (r.child n).x2 = 2 * r.x2 + n.val / 2 % 2 := rfl
      have c3 : (r.child n).x3 = 2 * r.x3 + n.val / 4 % 2 := rfl
      have d1 : (r.child n).x1 % 2 = n.val % 2 := by omega
      have d2 : (r.child n).x2 % 2 = n.val / 2 % 2 := by omega
      have d3 : (r.child n).x3 % 2 = n.val / 4 % 2 := by omega
      interval_cases f <;> simp [off1, off2, off3, Tree.trans, position, d1, d2, d3]
  · omega

include hm hnp hns h hml in
/-- Sizes: a message holds as many values as the persistent requests on both sides say, at least one,
fits into the buffers of both sides, and unpacking reads all of it. -/
theorem correction_size {K : Type} [Field K] {d : Dims} (hd : SizesOk m ml d) (hok : d.Ok) {L : Nat} {p : Pos} {g : Int}
    (hb : (L, p, g) ∈ meshBlocks m s.tree) {es : List Entry} (he : searchNeighbors m ml s.tree L p = some es)
    {e : Entry} (hee : e ∈ sends L es) {nv : Nat} (hnv : 0 < nv) (G : Geom K) (F F' : Flx K) :
    let msg := loadToCoarser d 0 (nv - 1) G F (faceId e.ni)
    ∃ q, (e.level, q, e.gid) ∈ meshBlocks m s.tree ∧ ∀ es', searchNeighbors m ml s.tree e.level q = some es' →
    ∃ e' ∈ recvs e.level es', e'.gid = g ∧ (e'.bufid : Int) = e.targetid ∧
    0 < msg.length ∧ (msg.length : Int) = mpiSize d nv (faceId e.ni) ∧ (msg.length : Int) = mpiSize d nv (faceId e'.ni) ∧
    (msg.length : Int) ≤ bufSize d ml nv e.ni ∧ (msg.length : Int) ≤ bufSize d ml nv e'.ni ∧
    ∀ buf : Nat → K, (∀ (i : Nat) (v : K), msg[i]? = some v → buf i = v) →
      (setFromFiner d 0 (nv - 1) (faceId e'.ni) e'.ni.fi1 e'.ni.fi2 buf F').2 = msg.length := by
  have hi := h.inv hm hnp
  obtain ⟨hp, hl⟩ := (block_iff hm hi.wf).1 hb
  obtain ⟨m1, m2, m3⟩ := ((faces_first hm hnp hns h hml hb he).1 e).1 hee
  have hL := ((search_listed hm hnp hns h hml hb he).1 e).1 m1
  obtain ⟨a1, a2⟩ := listed_face hd hok hL m2
  have h6 : faceId e.ni < 6 := by unfold Active at a2; omega
  obtain ⟨q, hq, k2, k3⟩ := correction_message hm hnp hns h hml hd hok hb he hee
  refine ⟨q, hq, fun es' he' => ?_⟩
  obtain ⟨e', n1, n2, n3, n4, n5, n6, n7⟩ := k3 es' he'
  have r1 := (((faces_first hm hnp hns h hml hq he').2.1 e').1 n1)
  obtain ⟨b1, b2⟩ := listed_face hd hok (((search_listed hm hnp hns h hml hq he').1 e').1 r1.1) r1.2.1
  have hml' : ml = true := by
    rcases hml with h1 | h1
    · exact h1
    · have := h1 _ _ _ hb
      have := h1 _ _ _ hq
      omega
  subst hml'
  have e1 := load_length hok (nv := nv) G F a2
  have hpos := mpi_pos hok hnv (faceId e.ni)
  have hop : mpiSize d nv (faceId e'.ni) = mpiSize d nv (faceId e.ni) := by rw [n6, mpi_opp h6]
  have h6' : faceId e'.ni < 6 := by unfold Active at b2; omega
  refine ⟨e', n1, n2, n4, by omega, e1, by rw [hop]; exact e1, by rw [e1]; exact mpi_fits hok nv h6 a1,
    by rw [e1, ← hop]; exact mpi_fits hok nv h6' b1, ?_⟩
  intro buf hbuf
  have hsl : Slot d (faceId e'.ni) e'.ni.fi1 e'.ni.fi2 := by
    rcases face_entries hm hnp hns h (.inl rfl) hd hok hq he' b2 with ⟨_, h1⟩ | ⟨_, h1⟩
    · exact absurd b1 (h1 e' r1.1)
    · cases h1 with
      | one e3 c1 c2 c3 c4 c5 =>
        obtain rfl := c5 e' r1.1 b1
        have := r1.2.2
        omega
      | many c1 c2 => exact (c1 e' r1.1 b1).2
  have := message_length hok 0 (nv - 1) G F F' b2 hsl buf
    (by unfold BufOf; rw [n6, (opp_facts (d := d) h6).2.1]; exact hbuf)
  rw [this, n6, (opp_facts (d := d) h6).2.1]

end

section
variable {m : Mesh} (hm : m.Valid) (hnp : NoPolar m) (hns : NoShear m) {s : St} (h : Reach m s)
  {ml : Bool} (hml : LevelsOk m ml (s.tree.number m 0).1)
  {d : Dims} (hd : SizesOk m ml d) (hok : d.Ok) {K : Type} [Field K]
  {nbrs : Int → List Entry}
  (hnb : ∀ L p g, (L, p, g) ∈ meshBlocks m (s.tree.number m 0).1 →
    searchNeighbors m ml (s.tree.number m 0).1 L p = some (nbrs g))

local notation "tr" => Prod.fst (Tree.number m s.tree 0)

include hm hnp hns h hml hd hok hnb in
/-- Different messages go to different buffers. -/
theorem correction_buffers {L L' : Nat} {p p' : Pos} {g g' : Int} (hb : (L, p, g) ∈ meshBlocks m tr)
    (hb' : (L', p', g') ∈ meshBlocks m tr) {e e' : Entry} (he : e ∈ sends L (nbrs g)) (he' : e' ∈ sends L' (nbrs g'))
    (h1 : e.gid = e'.gid) (h2 : e.targetid = e'.targetid) : g = g' ∧ e = e' := by
  have hr : Reach m ⟨tr, 0⟩ := .number 0 h
  obtain ⟨q, k1, _, k3⟩ := correction_message hm hnp hns hr hml hd hok hb (hnb _ _ _ hb) he
  obtain ⟨q', j1, _, j3⟩ := correction_message hm hnp hns hr hml hd hok hb' (hnb _ _ _ hb') he'
  rw [← h1] at j1
  obtain ⟨hl, rfl⟩ := gid_unique hm h k1 j1
  rw [← hl] at j1 j3
  obtain ⟨a, a1, a2, a3, a4, a5, _⟩ := k3 _ (hnb _ _ _ k1)
  obtain ⟨b, b1, b2, b3, b4, b5, _⟩ := j3 _ (hnb _ _ _ k1)
  have ha := (((faces_first hm hnp hns hr hml k1 (hnb _ _ _ k1)).2.1 a).1 a1).1
  have hb1 := (((faces_first hm hnp hns hr hml k1 (hnb _ _ _ k1)).2.1 b).1 b1).1
  obtain rfl : a = b := List.inj_on_of_nodup_map (neighbor_slots hm hnp hns hr hml k1 (hnb _ _ _ k1)).1 ha hb1 (by omega)
  obtain rfl : g = g' := a2.symm.trans b2
  obtain ⟨rfl, rfl⟩ := gid_unique hm h hb hb'
  refine ⟨rfl, ?_⟩
  have hf := faces_first hm hnp hns hr hml hb (hnb _ _ _ hb)
  exact List.inj_on_of_nodup_map (neighbor_slots hm hnp hns hr hml hb (hnb _ _ _ hb)).1 ((hf.1 e).1 he).1
    ((hf.1 e').1 he').1 (by omega)

include hm hnp hns h hml hd hok hnb in
/-- So all messages can be in their buffers at the same time. -/
theorem delivered_exists (nl nu : Int) (G : Int → Geom K) (F : Int → Flx K) :
    ∃ recv, Delivered m tr d nl nu G F nbrs recv := by
  classical
  refine ⟨fun r b i => if hx : ∃ x : (Nat × Pos × Int) × Entry, x.1 ∈ meshBlocks m tr ∧
      x.2 ∈ sends x.1.1 (nbrs x.1.2.2) ∧ x.2.gid = r ∧ x.2.targetid.toNat = b
    then ((loadToCoarser d nl nu (G hx.choose.1.2.2) (F hx.choose.1.2.2) (faceId hx.choose.2.ni))[i]?).getD 0 else 0, ?_⟩
  intro L p g hb e he i v hv
  have hx : ∃ x : (Nat × Pos × Int) × Entry, x.1 ∈ meshBlocks m tr ∧ x.2 ∈ sends x.1.1 (nbrs x.1.2.2) ∧
      x.2.gid = e.gid ∧ x.2.targetid.toNat = e.targetid.toNat := ⟨((L, p, g), e), hb, he, rfl, rfl⟩
  have hr : Reach m ⟨tr, 0⟩ := .number 0 h
  have hpos : ∀ {L p g} {e : Entry}, (L, p, g) ∈ meshBlocks m tr → e ∈ sends L (nbrs g) → 0 ≤ e.targetid := by
    intro L p g e hb he
    exact ((neighbor_slots hm hnp hns hr hml hb (hnb _ _ _ hb)).2 e
      (((faces_first hm hnp hns hr hml hb (hnb _ _ _ hb)).1 e).1 he).1).2.1
  simp only
  rw [dif_pos hx]
  obtain ⟨c1, c2, c3, c4⟩ := hx.choose_spec
  have p1 := hpos hb he
  have p2 := hpos (L := hx.choose.1.1) (p := hx.choose.1.2.1) c1 c2
  obtain ⟨e1, e2⟩ := correction_buffers hm hnp hns h hml hd hok hnb (L := hx.choose.1.1) (p := hx.choose.1.2.1) c1 hb c2 he c3 (by omega)
  rw [e1, e2, hv]
  rfl

include hm hnp hns h hml hd hok hnb in
/-- On every mesh that can be reached, after the flux corrections have been sent and received, in
whatever order they arrive, the update changes the total of each variable only by what passes through
the non-periodic boundaries of the mesh. -/
theorem mesh_conserved (nv : Nat) (G : Int → Geom K) (F : Int → Flx K) (w : K) (u : Int → A4 K) {n : Int}
    (hn : 0 ≤ n ∧ n < nv)
    (hv : ∀ L p g, (L, p, g) ∈ meshBlocks m tr → ∀ k j i, d.ks ≤ k → k ≤ d.ke → d.js ≤ j → j ≤ d.je →
      d.is ≤ i → i ≤ d.ie → (G g).vol (k, j, i) ≠ 0)
    (hsame : ∀ L p g, (L, p, g) ∈ meshBlocks m tr → ∀ e ∈ nbrs g, isFace e.ni = true → e.level = L →
      FluxesAgree d (G g) (G e.gid) (F g) (F e.gid) n (faceId e.ni))
    (hfit : ∀ L p g, (L, p, g) ∈ meshBlocks m tr → ∀ e ∈ nbrs g, isFace e.ni = true → e.level = L + 1 →
      AreasFit d (G g) (G e.gid) (faceId e.ni) e.ni.fi1 e.ni.fi2)
    (recv : Int → Nat → Nat → K) (hdel : Delivered m tr d 0 (nv - 1) G F nbrs recv)
    (order : Int → List Entry) (hord : ∀ L p g, (L, p, g) ∈ meshBlocks m tr → (order g).Perm (recvs L (nbrs g))) :
    blockSum m tr (fun _ _ g => content d (G g) (addFluxDivergence d nv (G g)
        (applyCorrections d 0 (nv - 1) (recv g) (order g) (F g)) w (u g)) n) =
      blockSum m tr (fun _ _ g => content d (G g) (u g) n) -
        w * blockSum m tr (fun L p g => ∑ f ∈ Finset.range 6,
          if OnBoundary m L p f then outflow d (G g) (F g) n f else 0) := by
  have hr : Reach m ⟨tr, 0⟩ := .number 0 h
  have hi := hr.inv hm hnp
  have hnd : (meshBlocks m tr).Nodup := by
    have h1 := (numbering_bijective hm h).1
    have h2 : ((meshBlocks m tr).map (fun b => b.2.2)).Nodup := by
      rw [h1]
      exact List.Nodup.map (fun a b hab => by simpa using hab) List.nodup_range
    exact List.Nodup.of_map _ h2
  set B := {b // b ∈ meshBlocks m tr} with hBd
  letI : Fintype B := List.Subtype.fintype _
  have hsum : ∀ X : Nat → Pos → Int → K, blockSum m tr X = ∑ b : B, X b.1.1 b.1.2.1 b.1.2.2 := by
    intro X
    unfold blockSum
    rw [← List.sum_toFinset _ hnd]
    refine Finset.sum_subtype _ (fun x => ?_) _
    simp
  have hf := fun (b : B) => faces_first hm hnp hns hr hml b.2 (hnb _ _ _ b.2)
  have hls := fun (b : B) => search_listed hm hnp hns hr hml b.2 (hnb _ _ _ b.2)
  have hsl := fun (b : B) => neighbor_slots hm hnp hns hr hml b.2 (hnb _ _ _ b.2)
  have huniq : ∀ b b' : B, b.1.2.2 = b'.1.2.2 → b = b' := by
    rintro ⟨⟨L, p, g⟩, hb⟩ ⟨⟨L', p', g'⟩, hb'⟩ hg
    simp only at hg
    subst hg
    obtain ⟨rfl, rfl⟩ := gid_unique hm h hb hb'
    rfl
  have hL : Lists B d m.f2 m.f3 ml (fun b => b.1.2.2) (fun b => b.1.1) (fun b => nbrs b.1.2.2)
      (fun b f => OnBoundary m b.1.1 b.1.2.1 f) := by
    refine ⟨huniq, fun b f ha => face_entries hm hnp hns hr hml hd hok b.2 (hnb _ _ _ b.2) ha, ?_, ?_, ?_, ?_, ?_⟩
    · intro b f e hf6 he hat
      obtain ⟨hp, hl⟩ := (block_iff hm hi.wf).1 b.2
      obtain ⟨q, e', k1, k2, k3, k4, k5, k6, k7, k8, k9, k10, _, kg⟩ :=
        (((hls b).1 e).1 he).pair_geo hm hnp hi (hml.at hm hi.wf) hp hl
      have hq := (block_iff hm hi.wf).2 ⟨k1, k2⟩
      refine ⟨⟨_, hq⟩, e', rfl, rfl, ((hls ⟨_, hq⟩).1 e').2 k3, atFace_opp hf6 hat k8 k9 k10, k4, k5, k6, k7⟩
    · intro b e he e' he' hni
      refine List.inj_on_of_nodup_map (hsl b).1 he he' ?_
      have h1 := listed_id (((hls b).1 e).1 he)
      have h2 := listed_id (((hls b).1 e').1 he')
      rw [hni] at h1
      omega
    · intro b e he
      exact ghost_buffer hm hnp hns hr hml b.2 (hnb _ _ _ b.2) he
    · intro b
      exact List.Nodup.of_map _ (hsl b).1
    · intro b e he hfe
      exact listed_face hd hok (((hls b).1 e).1 he) hfe
  rw [hsum, hsum, hsum]
  have key := lists_conserved hL hok nv (fun b => G b.1.2.2) (fun b => F b.1.2.2) w (fun b => u b.1.2.2) hn
    (fun b => hv _ _ _ b.2) ?_ ?_ (fun b => order b.1.2.2) ?_ (fun b => recv b.1.2.2) ?_
  · rw [key]
    congr!
  · intro b e he h1 h2 b' h3
    rw [h3]
    exact hsame _ _ _ b.2 e he h1 h2
  · intro b e he h1 h2 b' h3
    rw [h3]
    exact hfit _ _ _ b.2 e he h1 h2
  · intro b
    refine (hord _ _ _ b.2).trans ?_
    have hnodup : (nbrs b.1.2.2).Nodup := List.Nodup.of_map _ (hsl b).1
    refine (List.perm_ext_iff_of_nodup ?_ (hnodup.filter _)).2 fun e => ?_
    · exact (hnodup.sublist (List.takeWhile_sublist _)).filter _
    · rw [(hf b).2.1 e, List.mem_filter]
      simp
  · intro b e he h1 h2 b' h3 i v hv
    rw [h3]
    exact hdel _ _ _ b.2 e (((hf b).1 e).2 ⟨he, h1, h2⟩) i v hv

include hm hnp hns h hml hd hok hnb in
/-- The same with the geometry of one coordinate grid for the whole mesh, each coarse cell face being
made of the fine ones that cover it, and blocks that agree with it on their active cells: it is enough
that blocks of the same level compute the same fluxes on their common face and that no cell face inside
the mesh has zero area. -/
theorem mesh_conserved_grid {A : GlobalGeom K} (hA : A.Nested m d) (nv : Nat) (F : Int → Flx K) (w : K)
    (u : Int → A4 K) {n : Int} (hn : 0 ≤ n ∧ n < nv) (G : Int → Geom K)
    (hG : ∀ L p g, (L, p, g) ∈ meshBlocks m tr → ∀ f, Active d f → ∀ y x, ylo d f ≤ y → y ≤ yhi d f →
      xlo d f ≤ x → x ≤ xhi d f → faceArea d (G g) f y x = faceArea d (localGeom d A L p) f y x)
    (hv : ∀ L p g, (L, p, g) ∈ meshBlocks m tr → ∀ k j i, d.ks ≤ k → k ≤ d.ke → d.js ≤ j → j ≤ d.je →
      d.is ≤ i → i ≤ d.ie → (G g).vol (k, j, i) ≠ 0)
    (hsame : ∀ L p g, (L, p, g) ∈ meshBlocks m tr → ∀ e ∈ nbrs g, isFace e.ni = true → e.level = L →
      ∀ y x, ylo d (faceId e.ni) ≤ y → y ≤ yhi d (faceId e.ni) → xlo d (faceId e.ni) ≤ x → x ≤ xhi d (faceId e.ni) →
        faceFlux d (F g) (faceId e.ni) n y x = faceFlux d (F e.gid) (opp (faceId e.ni)) n y x)
    (hz : ∀ L p g, (L, p, g) ∈ meshBlocks m tr → ∀ f, Active d f → ¬ OnBoundary m L p f → ∀ y x, ylo d f ≤ y →
      y ≤ yhi d f → xlo d f ≤ x → x ≤ xhi d f → faceArea d (G g) f y x ≠ 0)
    (recv : Int → Nat → Nat → K) (hdel : Delivered m tr d 0 (nv - 1) G F nbrs recv)
    (order : Int → List Entry) (hord : ∀ L p g, (L, p, g) ∈ meshBlocks m tr → (order g).Perm (recvs L (nbrs g))) :
    blockSum m tr (fun _ _ g => content d (G g) (addFluxDivergence d nv (G g)
        (applyCorrections d 0 (nv - 1) (recv g) (order g) (F g)) w (u g)) n) =
      blockSum m tr (fun _ _ g => content d (G g) (u g) n) -
        w * blockSum m tr (fun L p g => ∑ f ∈ Finset.range 6,
          if OnBoundary m L p f then outflow d (G g) (F g) n f else 0) := by
  have hr : Reach m ⟨tr, 0⟩ := .number 0 h
  have hi := hr.inv hm hnp
  have ho : ∀ f, Active d f → Active d (opp f) ∧ ylo d (opp f) = ylo d f ∧ yhi d (opp f) = yhi d f ∧
      xlo d (opp f) = xlo d f ∧ xhi d (opp f) = xhi d f := by
    intro f ha
    have h6 : f < 6 := by unfold Active at ha; omega
    interval_cases f <;> simpa [opp, ylo, yhi, xlo, xhi, Active] using ha
  refine mesh_conserved hm hnp hns h hml hd hok hnb nv G F w u hn hv ?_ ?_ recv hdel order hord
  · intro L p g hb e he hf hl y x y0 y1 x0 x1
    rw [hsame L p g hb e he hf hl y x y0 y1 x0 x1]
    congr 1
    obtain ⟨hp, hl'⟩ := (block_iff hm hi.wf).1 hb
    have hL := hi.wf.leaf L p g hp hl'
    have hli := ((search_listed hm hnp hns hr hml hb (hnb _ _ _ hb)).1 e).1 he
    obtain ⟨a1, a2⟩ := listed_face hd hok hli hf
    have h6 : faceId e.ni < 6 := by unfold Active at a2; omega
    obtain ⟨i1, i2, i3⟩ := (atFace_iff h6 _).1 a1
    obtain ⟨q, e', k1, k2, k3, k4, k5, k6, k7, k8, k9, k10, _, kg⟩ :=
      hli.pair_geo hm hnp hi (hml.at hm hi.wf) hp hl'
    have hq := (block_iff hm hi.wf).2 ⟨k1, k2⟩
    obtain ⟨o1, o2, o3, o4, o5⟩ := ho _ a2
    rw [hG _ _ _ hb _ a2 y x y0 y1 x0 x1, hG _ _ _ hq _ o1 y x (by omega) (by omega) (by omega) (by omega)]
    rcases kg with ⟨j, j1⟩ | ⟨j, _⟩ | ⟨j, _⟩
    · rw [i1, i2, i3] at j1
      rw [j]
      exact areas_same hd hok hL hp hA.toWraps a2 j1 y x
    · omega
    · omega
  · intro L p g hb e he hf hl
    obtain ⟨hp, hl'⟩ := (block_iff hm hi.wf).1 hb
    have hL := hi.wf.leaf L p g hp hl'
    have hli := ((search_listed hm hnp hns hr hml hb (hnb _ _ _ hb)).1 e).1 he
    obtain ⟨a1, a2⟩ := listed_face hd hok hli hf
    have h6 : faceId e.ni < 6 := by unfold Active at a2; omega
    obtain ⟨i1, i2, i3⟩ := (atFace_iff h6 _).1 a1
    obtain ⟨q, e', k1, k2, k3, k4, k5, k6, k7, k8, k9, k10, _, kg⟩ :=
      hli.pair_geo hm hnp hi (hml.at hm hi.wf) hp hl'
    have hq := (block_iff hm hi.wf).2 ⟨k1, k2⟩
    obtain ⟨o1, o2, o3, o4, o5⟩ := ho _ a2
    have hnB : ¬ OnBoundary m L p (faceId e.ni) := by
      rcases face_entries hm hnp hns hr hml hd hok hb (hnb _ _ _ hb) a2 with ⟨_, h'⟩ | ⟨h', _⟩
      · exact absurd a1 (h' e he)
      · exact h'
    have hz' : ∀ y x, ylo d (faceId e.ni) ≤ y → y ≤ yhi d (faceId e.ni) → xlo d (faceId e.ni) ≤ x →
        x ≤ xhi d (faceId e.ni) → faceArea d (localGeom d A L p) (faceId e.ni) y x ≠ 0 := by
      intro y x y0 y1 x0 x1
      rw [← hG _ _ _ hb _ a2 y x y0 y1 x0 x1]
      exact hz L p g hb _ a2 hnB y x y0 y1 x0 x1
    refine AreasFit.congr hok (fun y x y0 y1 x0 x1 => hG _ _ _ hb _ a2 y x y0 y1 x0 x1)
      (fun y x y0 y1 x0 x1 => hG _ _ _ hq _ o1 y x (by omega) (by omega) (by omega) (by omega)) ?_
    rcases kg with ⟨j, _⟩ | ⟨j, r, c, j1, j2, j3, j4, j5⟩ | ⟨j, _⟩
    · omega
    · rw [i1, i2, i3] at j1 j4 j5
      rw [j, j2]
      exact areas_fit hm hd hok hA hL hp a2 j1 j3 j4 j5 hz'
    · omega

end

/-! ## The hypotheses are met -/

theorem exDims_ok' : exDims.Ok := ⟨by decide, by decide, by decide, by decide⟩

/-- Square cells of width `2^-L`, two-dimensional. -/
def exGrid : GlobalGeom ℚ :=
  ⟨fun L _ => (1 / 2) ^ L, fun L _ => (1 / 2) ^ L, fun L _ => (1 / 4) ^ L, fun L _ => (1 / 4) ^ L⟩

theorem exGrid_nested : exGrid.Nested exMesh exDims := by
  refine ⟨⟨?_, ?_, ?_⟩, ?_, ?_, ?_⟩ <;> intros <;> simp [exGrid, parts, exMesh] <;> ring

/-- The messages of block `(4, (0, 3, 0))` of the mesh of `Verif/Props/Tree.lean`: two, across the periodic boundary and
upwards; those expected by block `(3, (5, 1, 0))`, at positions 0 and 1 of its outer face. -/
example : exState.map (fun s => (searchNeighbors exMesh true s.tree 4 ⟨0, 3, 0⟩).map fun es =>
    (sends 4 es).map fun e => (e.level, faceId e.ni)) = some (some [(3, 0), (3, 3)]) ∧
    exState.map (fun s => (searchNeighbors exMesh true s.tree 3 ⟨5, 1, 0⟩).map fun es =>
    (recvs 3 es).map fun e => (e.level, faceId e.ni, e.ni.fi1, e.ni.fi2)) =
      some (some [(4, 1, 0, 0), (4, 1, 1, 0)]) := by decide +kernel

/-- A function of the gid with given values for the blocks. -/
theorem by_gid {m : Mesh} (hm : m.Valid) {s : St} (h : Reach m s) {X : Type} (x0 : X) (f : Nat → Pos → X) :
    ∃ F : Int → X, ∀ L p g, (L, p, g) ∈ meshBlocks m (s.tree.number m 0).1 → F g = f L p := by
  classical
  refine ⟨fun g => if hx : ∃ x : Nat × Pos, (x.1, x.2, g) ∈ meshBlocks m (s.tree.number m 0).1
    then f hx.choose.1 hx.choose.2 else x0, ?_⟩
  intro L p g hb
  have hx : ∃ x : Nat × Pos, (x.1, x.2, g) ∈ meshBlocks m (s.tree.number m 0).1 := ⟨(L, p), hb⟩
  simp only
  rw [dif_pos hx]
  obtain ⟨h1, h2⟩ := gid_unique hm h hx.choose_spec hb
  rw [h1, h2]

/-- All hypotheses of `mesh_conserved_grid`, for a refined mesh, with fluxes that differ between levels. -/
example : ∃ s, Reach exMesh s ∧ LevelsOk exMesh true (s.tree.number exMesh 0).1 ∧ SizesOk exMesh true exDims ∧ exDims.Ok ∧
    exGrid.Nested exMesh exDims ∧ (∀ L c, exGrid.vol L c ≠ 0) ∧
    ∃ (nbrs : Int → List Entry) (G : Int → Geom ℚ) (F : Int → Flx ℚ) (recv : Int → Nat → Nat → ℚ) (order : Int → List Entry),
    let t := (s.tree.number exMesh 0).1
    (∀ L p g, (L, p, g) ∈ meshBlocks exMesh t → searchNeighbors exMesh true t L p = some (nbrs g) ∧
      G g = localGeom exDims exGrid L p ∧ F g = ⟨fun _ => L, fun _ => 2 * L, fun _ => 0⟩ ∧
      (order g).Perm (recvs L (nbrs g)) ∧ ∀ e ∈ nbrs g, isFace e.ni = true →
        (e.level = L → ∀ y x, faceFlux exDims (F g) (faceId e.ni) 0 y x =
          faceFlux exDims (F e.gid) (opp (faceId e.ni)) 0 y x) ∧
        ∀ y x, faceArea exDims (G g) (faceId e.ni) y x ≠ 0) ∧
    Delivered exMesh t exDims 0 ((5 : Nat) - 1) G F nbrs recv := by
  obtain ⟨s, _, hr⟩ := exReach
  have hml : LevelsOk exMesh true (s.tree.number exMesh 0).1 := .inl rfl
  have hr' : Reach exMesh ⟨(s.tree.number exMesh 0).1, 0⟩ := .number 0 hr
  have hv : exMesh.Valid := exMesh_valid
  have hi := hr'.inv hv exMesh_noPolar
  obtain ⟨nbrs, hn⟩ := by_gid hv hr [] fun L p => (searchNeighbors exMesh true (s.tree.number exMesh 0).1 L p).getD []
  obtain ⟨G, hG⟩ := by_gid hv hr (localGeom exDims exGrid 0 ⟨0, 0, 0⟩) fun L p => localGeom exDims exGrid L p
  obtain ⟨F, hF⟩ := by_gid hv hr (⟨fun _ => 0, fun _ => 0, fun _ => 0⟩ : Flx ℚ) fun L _ => ⟨fun _ => L, fun _ => 2 * L, fun _ => 0⟩
  obtain ⟨order, hO⟩ := by_gid hv hr [] fun L p => recvs L ((searchNeighbors exMesh true (s.tree.number exMesh 0).1 L p).getD [])
  have hnb : ∀ L p g, (L, p, g) ∈ meshBlocks exMesh (s.tree.number exMesh 0).1 →
      searchNeighbors exMesh true (s.tree.number exMesh 0).1 L p = some (nbrs g) := by
    intro L p g hb
    obtain ⟨es, he⟩ := neighbor_list_total hv exMesh_noPolar exMesh_noShear hr' hml (by decide) hb
    rw [hn L p g hb, he]
    rfl
  obtain ⟨recv, hrecv⟩ := delivered_exists hv exMesh_noPolar exMesh_noShear hr hml exDims_ok.1 exDims_ok' hnb 0 ((5 : Nat) - 1) G F
  refine ⟨s, hr, hml, exDims_ok.1, exDims_ok', exGrid_nested, fun L c => by simp [exGrid], nbrs, G, F, recv, order, ?_, hrecv⟩
  intro L p g hb
  refine ⟨hnb L p g hb, hG L p g hb, hF L p g hb, ?_, ?_⟩
  · rw [hO L p g hb, hn L p g hb]
  · intro e he hf
    refine ⟨fun hl y x => ?_, fun y x => ?_⟩
    · obtain ⟨q, hq, _⟩ := neighbor_slots_pair hv exMesh_noPolar exMesh_noShear hr' hml hb (hnb L p g hb) he
      rw [hF L p g hb, hF _ q _ hq, hl]
      unfold faceFlux opp
      split_ifs <;> first | rfl | omega
    · rw [hG L p g hb]
      unfold faceArea localGeom exGrid
      simp only
      split_ifs <;> positivity

end Verif.FluxMsg
