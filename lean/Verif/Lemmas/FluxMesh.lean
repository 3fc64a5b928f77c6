import Verif.Lemmas.FluxMsg
import Mathlib.Data.Fintype.List
import Mathlib.Algebra.BigOperators.Group.List.Basic

/-! Flux correction on a mesh: the links of a mesh read off its neighbour lists. -/
namespace Verif.FluxMsg
open Verif.Grid Verif.Tree Verif.Ghost

theorem ni_ext {f : Nat} (hf : f < 6) {a b : NI} (ha : AtFace f a) (hb : AtFace f b) (h1 : a.fi1 = b.fi1)
    (h2 : a.fi2 = b.fi2) : a = b := by
  rw [atFace_iff hf] at ha hb
  obtain ⟨a1, a2, a3⟩ := ha
  obtain ⟨b1, b2, b3⟩ := hb
  cases a; cases b
  simp only at *
  subst a1 a2 a3 b1 b2 b3 h1 h2
  rfl

theorem listed_shift {m : Mesh} {ml : Bool} {t : Tree} {L : Nat} {p : Pos} {e : Entry} (h : Listed m ml t L p e) :
    ∃ r, Shift m L p e.ni.ox1 e.ni.ox2 e.ni.ox3 r := by
  cases h with
  | same h0 hs => exact ⟨_, hs⟩
  | fine h0 hs => exact ⟨_, hs⟩
  | coarse h0 hK hs => exact ⟨_, hs⟩

theorem listed_id {m : Mesh} {ml : Bool} {t : Tree} {L : Nat} {p : Pos} {e : Entry} (h : Listed m ml t L p e) :
    findBufferID m.f2 m.f3 ml e.ni = e.bufid := by
  cases h with
  | same h0 hs hl hi => exact hi
  | fine h0 hs hn hf hl hi => exact hi
  | coarse h0 hK hs hl hok hi => exact hi

theorem listed_face {m : Mesh} {ml : Bool} {d : Dims} (hd : SizesOk m ml d) (hok : d.Ok) {t : Tree} {L : Nat} {p : Pos}
    {e : Entry} (h : Listed m ml t L p e) (hf : isFace e.ni = true) :
    AtFace (faceId e.ni) e.ni ∧ Active d (faceId e.ni) := by
  obtain ⟨r, hr⟩ := listed_shift h
  have hdir := hr.dir
  obtain ⟨h6, ha⟩ := isFace_cases (by have := hdir.o1; simp [offs] at this; omega)
    (by have := hdir.o2; cases hf2 : m.f2 <;> simp [offs, hf2] at this <;> omega)
    (by have := hdir.o3; cases hf3 : m.f3 <;> simp [offs, hf3] at this <;> omega) hf
  refine ⟨ha, ?_⟩
  rw [atFace_iff h6] at ha
  obtain ⟨i1, i2, i3⟩ := ha
  have e2 := f2_iff hd
  have e3 := f3_iff hd
  have o2 := hr.off2
  have o3 := hr.off3
  rw [i2] at o2
  rw [i3] at o3
  generalize faceId e.ni = f at *
  unfold Active
  interval_cases f <;> simp [off2, off3] at o2 o3 ⊢
  · exact e2.1 o2
  · exact e2.1 o2
  · exact e3.1 o3
  · exact e3.1 o3

theorem half_prod {a b : Int} (ha : 0 ≤ a) (hb : b = 1 ∨ 1 < b ∧ b % 2 = 0) :
    a * ((b + 1).tdiv 2) ≤ (a * (b + 1)).tdiv 2 := by
  have h0 : 0 ≤ b + 1 := by omega
  rw [Int.tdiv_eq_ediv_of_nonneg h0, Int.tdiv_eq_ediv_of_nonneg (mul_nonneg ha h0)]
  rw [Int.le_ediv_iff_mul_le (by norm_num), mul_assoc]
  exact mul_le_mul_of_nonneg_left (by omega) ha

theorem load_length {K : Type} [Field K] {d : Dims} (hok : d.Ok) {nv : Nat} (G : Geom K) (F : Flx K) {f : Nat}
    (ha : Active d f) : ((loadToCoarser d 0 (nv - 1) G F f).length : Int) = mpiSize d nv f := by
  have hx1 := hok.x1
  have hx2 : 1 ≤ d.nx2 := by have := hok.x2; omega
  have hx3 : 1 ≤ d.nx3 := by have := hok.x3; omega
  have h6 : f < 6 := by unfold Active at ha; omega
  rw [load_eq hok 0 (nv - 1) G F ha (f1 := 0) (f2 := 0) ⟨by omega, by omega, .inl rfl, .inl rfl⟩]
  rw [List.length_map, Arr.length_prodL, Arr.length_prodL, Arr.length_rng, Arr.length_rng, Arr.length_rng]
  have e0 : ((nv : Int) - 1 + 1 - 0).toNat = nv := by omega
  have e2 : d.je = d.js + d.nx2 - 1 := by have := hok.x2; unfold Dims.je Dims.js; split <;> omega
  have e3 : d.ke = d.ks + d.nx3 - 1 := by have := hok.x3; unfold Dims.ke Dims.ks; split <;> omega
  have e1 : d.ie = d.is + d.nx1 - 1 := by unfold Dims.ie Dims.is; ring
  have t1 := Int.tdiv_eq_ediv_of_nonneg (a := d.nx1 + 1) (b := 2) (by omega)
  have t2 := Int.tdiv_eq_ediv_of_nonneg (a := d.nx2 + 1) (b := 2) (by omega)
  have t3 := Int.tdiv_eq_ediv_of_nonneg (a := d.nx3 + 1) (b := 2) (by omega)
  have u1 : ((d.ie - d.nx1 / 2 + 1 - d.is).toNat : Int) = (d.nx1 + 1).tdiv 2 := by rw [t1]; omega
  have u2 : ((d.je - d.nx2 / 2 + 1 - d.js).toNat : Int) = (d.nx2 + 1).tdiv 2 := by rw [t2]; omega
  have u3 : ((d.ke - d.nx3 / 2 + 1 - d.ks).toNat : Int) = (d.nx3 + 1).tdiv 2 := by rw [t3]; omega
  rw [e0]
  push_cast
  unfold subY subX mpiSize
  interval_cases f <;> simp only [ylo, yhi, xlo, xhi, ny, nx, if_true] <;> norm_num only [if_true, if_false, u1, u2, u3, or_true, or_false, true_or, or_self] <;> ring

theorem mpi_fits {d : Dims} (hok : d.Ok) (nv : Nat) {a : NI} {f : Nat} (hf : f < 6) (ha : AtFace f a) :
    mpiSize d nv f ≤ bufSize d true nv a := by
  obtain ⟨a1, a2, a3⟩ := (atFace_iff hf a).1 ha
  have p1 : 0 ≤ (d.nx1 + 1).tdiv 2 := Int.tdiv_nonneg (by have := hok.x1; omega) (by omega)
  have p2 : 0 ≤ (d.nx2 + 1).tdiv 2 := Int.tdiv_nonneg (by have := hok.x2; omega) (by omega)
  have q1 := half_prod p2 hok.x3
  have q2 := half_prod p1 hok.x3
  have q3 := half_prod p1 hok.x2
  have hn : (0 : Int) ≤ nv := by omega
  unfold mpiSize bufSize
  rw [a1, a2, a3]
  unfold off1 off2 off3
  interval_cases f <;> norm_num <;> exact mul_le_mul_of_nonneg_right (by assumption) hn

theorem mpi_pos {d : Dims} (hok : d.Ok) {nv : Nat} (hnv : 0 < nv) (f : Nat) : 0 < mpiSize d nv f := by
  have hx1 := hok.x1
  have hx2 : 1 ≤ d.nx2 := by have := hok.x2; omega
  have hx3 : 1 ≤ d.nx3 := by have := hok.x3; omega
  have t1 := Int.tdiv_eq_ediv_of_nonneg (a := d.nx1 + 1) (b := 2) (by omega)
  have t2 := Int.tdiv_eq_ediv_of_nonneg (a := d.nx2 + 1) (b := 2) (by omega)
  have t3 := Int.tdiv_eq_ediv_of_nonneg (a := d.nx3 + 1) (b := 2) (by omega)
  have p1 : 0 < (d.nx1 + 1).tdiv 2 := by omega
  have p2 : 0 < (d.nx2 + 1).tdiv 2 := by omega
  have p3 : 0 < (d.nx3 + 1).tdiv 2 := by omega
  unfold mpiSize
  split_ifs <;> positivity

theorem mpi_opp {d : Dims} {nv : Int} {f : Nat} (hf : f < 6) : mpiSize d nv (opp f) = mpiSize d nv f := by
  interval_cases f <;> rfl

/-- Facts about the neighbour lists of blocks `B`. -/
structure Lists (B : Type) (d : Dims) (f2 f3 ml : Bool) (gid : B → Int) (lev : B → Nat) (nbrs : B → List Entry)
    (edge : B → Nat → Prop) : Prop where
  inj : ∀ b b', gid b = gid b' → b = b'
  face : ∀ b f, Active d f → (edge b f ∧ ∀ e ∈ nbrs b, ¬ AtFace f e.ni) ∨ (¬ edge b f ∧ FaceList d (lev b) f (nbrs b))
  pair : ∀ b f e, f < 6 → e ∈ nbrs b → AtFace f e.ni → ∃ b' e', gid b' = e.gid ∧ lev b' = e.level ∧ e' ∈ nbrs b' ∧
    AtFace (opp f) e'.ni ∧ e'.gid = gid b ∧ e'.level = lev b ∧ (e'.bufid : Int) = e.targetid ∧ e'.targetid = e.bufid
  uniq : ∀ b, ∀ e ∈ nbrs b, ∀ e' ∈ nbrs b, e.ni = e'.ni → e = e'
  slot : ∀ b, ∀ e ∈ nbrs b, (niList f2 f3 ml)[e.bufid]? = some e.ni
  nodup : ∀ b, (nbrs b).Nodup
  act : ∀ b, ∀ e ∈ nbrs b, isFace e.ni = true → AtFace (faceId e.ni) e.ni ∧ Active d (faceId e.ni)

section
variable {B : Type} {d : Dims} {f2 f3 ml : Bool} {gid : B → Int} {lev : B → Nat} {nbrs : B → List Entry}
  {edge : B → Nat → Prop} (hB : Lists B d f2 f3 ml gid lev nbrs edge)

open Classical

/-- The block with a given gid. -/
noncomputable def blk (gid : B → Int) (g : Int) (b0 : B) : B := if h : ∃ b, gid b = g then h.choose else b0

include hB in
theorem blk_eq {g : Int} {b : B} (b0 : B) (h : gid b = g) : blk gid g b0 = b := by
  have hex : ∃ b, gid b = g := ⟨b, h⟩
  unfold blk
  rw [dif_pos hex]
  exact hB.inj _ _ (hex.choose_spec.trans h.symm)

/-- Offsets and position stored for slot `i`. -/
def tgt (f2 f3 ml : Bool) (i : Int) : NI := ((niList f2 f3 ml)[i.toNat]?).getD ⟨0, 0, 0, 0, 0⟩

/-- What is at a face, according to the neighbour list. -/
noncomputable def link (f2 f3 ml : Bool) (gid : B → Int) (lev : B → Nat) (nbrs : B → List Entry) (b : B) (f : Nat) : Link B :=
  if h : ∃ e ∈ nbrs b, AtFace f e.ni ∧ e.level = lev b then .same (blk gid h.choose.gid b)
  else if h : ∃ e ∈ nbrs b, AtFace f e.ni ∧ e.level < lev b then
    .coarser (blk gid h.choose.gid b) (tgt f2 f3 ml h.choose.targetid).fi1 (tgt f2 f3 ml h.choose.targetid).fi2
  else if ∃ e ∈ nbrs b, AtFace f e.ni then
    .finer fun f1 f2 => if h : ∃ e ∈ nbrs b, AtFace f e.ni ∧ e.ni.fi1 = f1 ∧ e.ni.fi2 = f2 then blk gid h.choose.gid b else b
  else .edge

local notation "lk" => link f2 f3 ml gid lev nbrs

include hB in
theorem link_one {b : B} {f : Nat} (ha : Active d f) {e : Entry} (he : e ∈ nbrs b) (hf : AtFace f e.ni)
    (hl : e.level ≤ lev b) : ∀ e' ∈ nbrs b, AtFace f e'.ni → e' = e := by
  rcases hB.face b f ha with ⟨_, h⟩ | ⟨_, h⟩
  · exact absurd hf (h e he)
  · cases h with
    | one e1 h1 h2 h3 h4 h5 =>
      obtain rfl := h5 e he hf
      exact h5
    | many h1 h2 => have := (h1 e he hf).1; omega

include hB in
theorem link_same {b : B} {f : Nat} (ha : Active d f) {e : Entry} (he : e ∈ nbrs b) (hf : AtFace f e.ni)
    (hl : e.level = lev b) : lk b f = .same (blk gid e.gid b) := by
  have hex : ∃ e ∈ nbrs b, AtFace f e.ni ∧ e.level = lev b := ⟨e, he, hf, hl⟩
  unfold link
  rw [dif_pos hex]
  rw [link_one hB ha he hf (by omega) _ hex.choose_spec.1 hex.choose_spec.2.1]

include hB in
theorem link_coarser {b : B} {f : Nat} (ha : Active d f) {e : Entry} (he : e ∈ nbrs b) (hf : AtFace f e.ni)
    (hl : e.level < lev b) : lk b f = .coarser (blk gid e.gid b) (tgt f2 f3 ml e.targetid).fi1
      (tgt f2 f3 ml e.targetid).fi2 := by
  have hu := link_one hB ha he hf (by omega)
  have hex : ∃ e ∈ nbrs b, AtFace f e.ni ∧ e.level < lev b := ⟨e, he, hf, hl⟩
  have hno : ¬ ∃ e ∈ nbrs b, AtFace f e.ni ∧ e.level = lev b := by
    rintro ⟨e', h1, h2, h3⟩
    have := hu e' h1 h2
    subst this; omega
  unfold link
  rw [dif_neg hno, dif_pos hex]
  rw [hu _ hex.choose_spec.1 hex.choose_spec.2.1]

include hB in
theorem link_finer {b : B} {f : Nat} (ha : Active d f) {e : Entry} (he : e ∈ nbrs b) (hf : AtFace f e.ni)
    (hl : lev b < e.level) : ∃ c, lk b f = .finer c ∧ (∀ e' ∈ nbrs b, AtFace f e'.ni →
      e'.level = lev b + 1 ∧ Slot d f e'.ni.fi1 e'.ni.fi2 ∧ c e'.ni.fi1 e'.ni.fi2 = blk gid e'.gid b) ∧
      ∀ f1 f2, Slot d f f1 f2 → ∃ e' ∈ nbrs b, AtFace f e'.ni ∧ e'.ni.fi1 = f1 ∧ e'.ni.fi2 = f2 := by
  have h6 : f < 6 := by unfold Active at ha; omega
  rcases hB.face b f ha with ⟨_, h⟩ | ⟨_, h⟩
  · exact absurd hf (h e he)
  cases h with
  | one e1 h1 h2 h3 h4 h5 => obtain rfl := h5 e he hf; omega
  | many h1 h2 =>
    have n1 : ¬ ∃ e ∈ nbrs b, AtFace f e.ni ∧ e.level = lev b := by
      rintro ⟨e', k1, k2, k3⟩; have := (h1 e' k1 k2).1; omega
    have n2 : ¬ ∃ e ∈ nbrs b, AtFace f e.ni ∧ e.level < lev b := by
      rintro ⟨e', k1, k2, k3⟩; have := (h1 e' k1 k2).1; omega
    have hl' : lk b f = .finer fun f1 f2 =>
        if h : ∃ e ∈ nbrs b, AtFace f e.ni ∧ e.ni.fi1 = f1 ∧ e.ni.fi2 = f2 then blk gid h.choose.gid b else b := by
      unfold link
      rw [dif_neg n1, dif_neg n2, if_pos ⟨e, he, hf⟩]
    refine ⟨_, hl', ?_, h2⟩
    intro e' k1 k2
    refine ⟨(h1 e' k1 k2).1, (h1 e' k1 k2).2, ?_⟩
    have hex : ∃ e ∈ nbrs b, AtFace f e.ni ∧ e.ni.fi1 = e'.ni.fi1 ∧ e.ni.fi2 = e'.ni.fi2 := ⟨e', k1, k2, rfl, rfl⟩
    rw [dif_pos hex]
    obtain ⟨j1, j2, j3, j4⟩ := hex.choose_spec
    rw [hB.uniq b _ j1 _ k1 (ni_ext h6 j2 k2 j3 j4)]

/-- The cases. -/
theorem link_cases (b : B) (f : Nat) :
    (∃ e ∈ nbrs b, AtFace f e.ni ∧ e.level = lev b) ∨ (∃ e ∈ nbrs b, AtFace f e.ni ∧ e.level < lev b) ∨
    (∃ e ∈ nbrs b, AtFace f e.ni ∧ lev b < e.level) ∨ (∀ e ∈ nbrs b, ¬ AtFace f e.ni) := by
  by_cases h : ∃ e ∈ nbrs b, AtFace f e.ni
  · obtain ⟨e, h1, h2⟩ := h
    rcases lt_trichotomy e.level (lev b) with h3 | h3 | h3
    · exact .inr (.inl ⟨e, h1, h2, h3⟩)
    · exact .inl ⟨e, h1, h2, h3⟩
    · exact .inr (.inr (.inl ⟨e, h1, h2, h3⟩))
  · push Not at h
    exact .inr (.inr (.inr h))

theorem link_edge {b : B} {f : Nat} (h : ∀ e ∈ nbrs b, ¬ AtFace f e.ni) : lk b f = .edge := by
  unfold link
  rw [dif_neg, dif_neg, if_neg]
  · rintro ⟨e, h1, h2⟩; exact h e h1 h2
  · rintro ⟨e, h1, h2, _⟩; exact h e h1 h2
  · rintro ⟨e, h1, h2, _⟩; exact h e h1 h2

include hB in
theorem tgt_eq {b : B} {e' : Entry} (h : e' ∈ nbrs b) {i : Int} (hi : (e'.bufid : Int) = i) :
    tgt f2 f3 ml i = e'.ni := by
  subst hi
  unfold tgt
  rw [Int.toNat_natCast, hB.slot b e' h]
  rfl

include hB in
theorem link_mutual : Mutual d lk := by
  have hopp : ∀ {f}, f < 6 → opp (opp f) = f := by
    intro f hf; interval_cases f <;> rfl
  refine ⟨?_, ?_, ?_⟩
  · intro b f b' ha h
    have h6 : f < 6 := by unfold Active at ha; omega
    rcases link_cases (lev := lev) (nbrs := nbrs) b f with ⟨e, h1, h2, h3⟩ | ⟨e, h1, h2, h3⟩ | ⟨e, h1, h2, h3⟩ | h1
    · rw [link_same hB ha h1 h2 h3] at h
      obtain ⟨b2, e', k1, k2, k3, k4, k5, k6, k7, k8⟩ := hB.pair b f e h6 h1 h2
      rw [blk_eq hB b k1] at h
      obtain rfl : b2 = b' := by simpa using h
      rw [link_same hB (active_opp ha) k3 k4 (by omega), blk_eq hB b2 k5.symm]
    · rw [link_coarser hB ha h1 h2 h3] at h; simp at h
    · obtain ⟨c, hc, _⟩ := link_finer hB ha h1 h2 h3
      rw [hc] at h; simp at h
    · rw [link_edge h1] at h; simp at h
  · intro b f c ha h f1 f2 hs
    have h6 : f < 6 := by unfold Active at ha; omega
    rcases link_cases (lev := lev) (nbrs := nbrs) b f with ⟨e, h1, h2, h3⟩ | ⟨e, h1, h2, h3⟩ | ⟨e, h1, h2, h3⟩ | h1
    · rw [link_same hB ha h1 h2 h3] at h; simp at h
    · rw [link_coarser hB ha h1 h2 h3] at h; simp at h
    · obtain ⟨c', hc, hc1, hc2⟩ := link_finer hB ha h1 h2 h3
      rw [hc] at h
      obtain rfl : c' = c := by simpa using h
      obtain ⟨e1, m1, m2, rfl, rfl⟩ := hc2 f1 f2 hs
      obtain ⟨l1, l2, l3⟩ := hc1 e1 m1 m2
      obtain ⟨b2, e', k1, k2, k3, k4, k5, k6, k7, k8⟩ := hB.pair b f e1 h6 m1 m2
      rw [l3, blk_eq hB b k1, link_coarser hB (active_opp ha) k3 k4 (by omega), blk_eq hB b2 k5.symm,
        tgt_eq hB m1 k8.symm]
    · rw [link_edge h1] at h; simp at h
  · intro b f b' f1 f2 ha h
    have h6 : f < 6 := by unfold Active at ha; omega
    rcases link_cases (lev := lev) (nbrs := nbrs) b f with ⟨e, h1, h2, h3⟩ | ⟨e, h1, h2, h3⟩ | ⟨e, h1, h2, h3⟩ | h1
    · rw [link_same hB ha h1 h2 h3] at h; simp at h
    · rw [link_coarser hB ha h1 h2 h3] at h
      obtain ⟨b2, e', k1, k2, k3, k4, k5, k6, k7, k8⟩ := hB.pair b f e h6 h1 h2
      rw [blk_eq hB b k1, tgt_eq hB k3 k7] at h
      simp only [Link.coarser.injEq] at h
      obtain ⟨rfl, rfl, rfl⟩ := h
      obtain ⟨c, hc, hc1, hc2⟩ := link_finer hB (active_opp ha) k3 k4 (by omega)
      obtain ⟨l1, l2, l3⟩ := hc1 e' k3 k4
      refine ⟨c, hc, ?_, by rw [l3, blk_eq hB b2 k5.symm]⟩
      have := slot_opp (opp_facts (d := d) h6).1 l2
      rw [hopp h6] at this
      exact this
    · obtain ⟨c, hc, _⟩ := link_finer hB ha h1 h2 h3
      rw [hc] at h; simp at h
    · rw [link_edge h1] at h; simp at h

variable {K : Type} [Field K]

theorem apply_eq (d : Dims) (nl nu : Int) (recv : Nat → Nat → K) (buf : Nat → Nat → Nat → Nat → K)
    (order : List Entry) (h : ∀ e ∈ order, buf (faceId e.ni) e.ni.fi1 e.ni.fi2 = recv e.bufid) (F : Flx K) :
    applyCorrections d nl nu recv order F =
      receiveCorrections d nl nu buf (order.map fun e => (faceId e.ni, e.ni.fi1, e.ni.fi2)) F := by
  unfold applyCorrections receiveCorrections
  induction order generalizing F with
  | nil => rfl
  | cons e l ih =>
    rw [List.foldl_cons, List.map_cons, List.foldl_cons, h e (by simp)]
    exact ih (fun e' he' => h e' (by simp [he'])) _

include hB in
theorem lists_conserved [Fintype B] (hd : d.Ok) (nv : Nat) (G : B → Geom K)
    (F : B → Flx K) (w : K) (u : B → A4 K) {n : Int} (hn : 0 ≤ n ∧ n < nv)
    (hv : ∀ b k j i, d.ks ≤ k → k ≤ d.ke → d.js ≤ j → j ≤ d.je → d.is ≤ i → i ≤ d.ie → (G b).vol (k, j, i) ≠ 0)
    (hsame : ∀ b, ∀ e ∈ nbrs b, isFace e.ni = true → e.level = lev b → ∀ b', gid b' = e.gid →
      FluxesAgree d (G b) (G b') (F b) (F b') n (faceId e.ni))
    (hfit : ∀ b, ∀ e ∈ nbrs b, isFace e.ni = true → e.level = lev b + 1 → ∀ b', gid b' = e.gid →
      AreasFit d (G b) (G b') (faceId e.ni) e.ni.fi1 e.ni.fi2)
    (order : B → List Entry)
    (hord : ∀ b, (order b).Perm ((nbrs b).filter fun e => isFace e.ni && decide (lev b < e.level)))
    (recv : B → Nat → Nat → K)
    (hdel : ∀ b, ∀ e ∈ nbrs b, isFace e.ni = true → e.level < lev b → ∀ b', gid b' = e.gid → ∀ (i : Nat) (v : K),
      (loadToCoarser d 0 (nv - 1) (G b) (F b) (faceId e.ni))[i]? = some v → recv b' e.targetid.toNat i = v) :
    ∑ b, content d (G b) (addFluxDivergence d nv (G b)
        (applyCorrections d 0 (nv - 1) (recv b) (order b) (F b)) w (u b)) n =
      ∑ b, content d (G b) (u b) n -
        w * ∑ b, ∑ f ∈ Finset.range 6, if edge b f then outflow d (G b) (F b) n f else 0 := by
  have hmem : ∀ b e, e ∈ order b ↔ e ∈ nbrs b ∧ isFace e.ni = true ∧ lev b < e.level := by
    intro b e
    rw [(hord b).mem_iff, List.mem_filter]
    simp
  have h6 : ∀ {f}, Active d f → f < 6 := by intro f ha; unfold Active at ha; omega
  have hnofin : ∀ b f c, Active d f → lk b f = .finer c → ∃ e ∈ nbrs b, AtFace f e.ni ∧ lev b < e.level := by
    intro b f c ha h
    rcases link_cases (lev := lev) (nbrs := nbrs) b f with ⟨e, h1, h2, h3⟩ | ⟨e, h1, h2, h3⟩ | ⟨e, h1, h2, h3⟩ | h1
    · rw [link_same hB ha h1 h2 h3] at h; simp at h
    · rw [link_coarser hB ha h1 h2 h3] at h; simp at h
    · exact ⟨e, h1, h2, h3⟩
    · rw [link_edge h1] at h; simp at h
  set buf : B → Nat → Nat → Nat → Nat → K := fun b f f1 f2 =>
    if h : ∃ e ∈ nbrs b, AtFace f e.ni ∧ e.ni.fi1 = f1 ∧ e.ni.fi2 = f2 then recv b h.choose.bufid else 0 with hbufd
  have hbufe : ∀ b f e, f < 6 → e ∈ nbrs b → AtFace f e.ni → buf b f e.ni.fi1 e.ni.fi2 = recv b e.bufid := by
    intro b f e hf he hat
    have hex : ∃ e' ∈ nbrs b, AtFace f e'.ni ∧ e'.ni.fi1 = e.ni.fi1 ∧ e'.ni.fi2 = e.ni.fi2 := ⟨e, he, hat, rfl, rfl⟩
    simp only [hbufd]
    rw [dif_pos hex]
    obtain ⟨j1, j2, j3, j4⟩ := hex.choose_spec
    rw [hB.uniq b _ j1 _ he (ni_ext hf j2 hat j3 j4)]
  have key := total_conserved hd nv G F w u lk (link_mutual hB) hn hv
    (by
      intro b f b' ha h
      rcases link_cases (lev := lev) (nbrs := nbrs) b f with ⟨e, h1, h2, h3⟩ | ⟨e, h1, h2, h3⟩ | ⟨e, h1, h2, h3⟩ | h1
      · rw [link_same hB ha h1 h2 h3] at h
        obtain ⟨b2, e', k1, _⟩ := hB.pair b f e (h6 ha) h1 h2
        rw [blk_eq hB b k1] at h
        obtain rfl : b2 = b' := by simpa using h
        obtain ⟨i1, i2⟩ := atFace_id (h6 ha) h2
        have := hsame b e h1 i2 h3 b2 k1
        rw [i1] at this
        exact this
      · rw [link_coarser hB ha h1 h2 h3] at h; simp at h
      · obtain ⟨c, hc, _⟩ := link_finer hB ha h1 h2 h3
        rw [hc] at h; simp at h
      · rw [link_edge h1] at h; simp at h)
    (by
      intro b f c ha h f1 f2 hs
      obtain ⟨e, h1, h2, h3⟩ := hnofin b f c ha h
      obtain ⟨c', hc, hc1, hc2⟩ := link_finer hB ha h1 h2 h3
      rw [hc] at h
      obtain rfl : c' = c := by simpa using h
      obtain ⟨e1, m1, m2, rfl, rfl⟩ := hc2 f1 f2 hs
      obtain ⟨l1, l2, l3⟩ := hc1 e1 m1 m2
      obtain ⟨b2, e', k1, _⟩ := hB.pair b f e1 (h6 ha) m1 m2
      obtain ⟨i1, i2⟩ := atFace_id (h6 ha) m2
      rw [l3, blk_eq hB b k1]
      have := hfit b e1 m1 i2 l1 b2 k1
      rw [i1] at this
      exact this)
    (fun b => (order b).map fun e => (faceId e.ni, e.ni.fi1, e.ni.fi2))
    (by
      intro b
      refine List.Nodup.map_on ?_ ((hord b).nodup_iff.2 ((hB.nodup b).filter _))
      intro e he e' he' h
      simp only [Prod.mk.injEq] at h
      obtain ⟨m1, m2, m3⟩ := (hmem b e).1 he
      obtain ⟨n1, n2, n3⟩ := (hmem b e').1 he'
      obtain ⟨a1, a2⟩ := hB.act b e m1 m2
      have a3 := (hB.act b e' n1 n2).1
      rw [← h.1] at a3
      exact hB.uniq b e m1 e' n1 (ni_ext (h6 a2) a1 a3 h.2.1 h.2.2))
    (by
      intro b f f1 f2
      rw [List.mem_map]
      constructor
      · rintro ⟨e, he, h⟩
        simp only [Prod.mk.injEq] at h
        obtain ⟨rfl, rfl, rfl⟩ := h
        obtain ⟨m1, m2, m3⟩ := (hmem b e).1 he
        obtain ⟨a1, a2⟩ := hB.act b e m1 m2
        obtain ⟨c, hc, hc1, hc2⟩ := link_finer hB a2 m1 a1 m3
        exact ⟨a2, (hc1 e m1 a1).2.1, c, hc⟩
      · rintro ⟨ha, hs, c, h⟩
        obtain ⟨e, h1, h2, h3⟩ := hnofin b f c ha h
        obtain ⟨c', hc, hc1, hc2⟩ := link_finer hB ha h1 h2 h3
        obtain ⟨e1, m1, m2, rfl, rfl⟩ := hc2 f1 f2 hs
        obtain ⟨i1, i2⟩ := atFace_id (h6 ha) m2
        exact ⟨e1, (hmem b e1).2 ⟨m1, i2, by have := (hc1 e1 m1 m2).1; omega⟩, by rw [i1]⟩)
    buf
    (by
      intro b f c f1 f2 ha h hs i v hiv
      obtain ⟨e, h1, h2, h3⟩ := hnofin b f c ha h
      obtain ⟨c', hc, hc1, hc2⟩ := link_finer hB ha h1 h2 h3
      rw [hc] at h
      obtain rfl : c' = c := by simpa using h
      obtain ⟨e1, m1, m2, rfl, rfl⟩ := hc2 f1 f2 hs
      obtain ⟨l1, l2, l3⟩ := hc1 e1 m1 m2
      obtain ⟨b2, e', k1, k2, k3, k4, k5, k6, k7, k8⟩ := hB.pair b f e1 (h6 ha) m1 m2
      rw [l3, blk_eq hB b k1] at hiv
      rw [hbufe b f e1 (h6 ha) m1 m2]
      obtain ⟨i1, i2⟩ := atFace_id (opp_facts (d := d) (h6 ha)).1 k4
      have := hdel b2 e' k3 i2 (by omega) b k5.symm i v (by rw [i1]; exact hiv)
      rw [k8, Int.toNat_natCast] at this
      exact this)
  have e1 : ∀ b, applyCorrections d 0 (nv - 1) (recv b) (order b) (F b) =
      receiveCorrections d 0 (nv - 1) (buf b) ((order b).map fun e => (faceId e.ni, e.ni.fi1, e.ni.fi2)) (F b) := by
    intro b
    apply apply_eq
    intro e he
    obtain ⟨m1, m2, m3⟩ := (hmem b e).1 he
    obtain ⟨a1, a2⟩ := hB.act b e m1 m2
    exact hbufe b _ e (h6 a2) m1 a1
  simp only [e1, key]
  congr 2
  apply Finset.sum_congr rfl; intro b _
  apply Finset.sum_congr rfl; intro f _
  by_cases ha : Active d f
  · apply if_congr ?_ rfl rfl
    rcases link_cases (lev := lev) (nbrs := nbrs) b f with ⟨e, h1, h2, h3⟩ | ⟨e, h1, h2, h3⟩ | ⟨e, h1, h2, h3⟩ | h1
    · rw [link_same hB ha h1 h2 h3]
      rcases hB.face b f ha with ⟨_, h⟩ | ⟨h, _⟩
      · exact absurd h2 (h e h1)
      · simp [h]
    · rw [link_coarser hB ha h1 h2 h3]
      rcases hB.face b f ha with ⟨_, h⟩ | ⟨h, _⟩
      · exact absurd h2 (h e h1)
      · simp [h]
    · obtain ⟨c, hc, _⟩ := link_finer hB ha h1 h2 h3
      rw [hc]
      rcases hB.face b f ha with ⟨_, h⟩ | ⟨h, _⟩
      · exact absurd h2 (h e h1)
      · simp [h]
    · rw [link_edge h1]
      rcases hB.face b f ha with ⟨h, _⟩ | ⟨_, h⟩
      · simp [h]
      · exfalso
        cases h with
        | one e k1 k2 => exact h1 e k1 k2
        | many k1 k2 =>
          obtain ⟨e, j1, j2, _⟩ := k2 0 0 ⟨by omega, by omega, .inl rfl, .inl rfl⟩
          exact h1 e j1 j2
  · have : outflow d (G b) (F b) n f = 0 := by unfold outflow; rw [if_neg ha]
    rw [this]; simp

end
end Verif.FluxMsg
