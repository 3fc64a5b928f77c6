import Verif.Spec.FluxMsg
import Verif.Lemmas.GhostMsg
import Verif.Props.Neighbors
import Verif.Props.Flux

/-! Flux correction on a mesh: lemmas. -/
namespace Verif.FluxMsg
open Verif.Grid Verif.Tree Verif.Ghost

/-- Offsets of a face. -/
def off1 (f : Nat) : Int := if f = 0 then -1 else if f = 1 then 1 else 0
def off2 (f : Nat) : Int := if f = 2 then -1 else if f = 3 then 1 else 0
def off3 (f : Nat) : Int := if f = 4 then -1 else if f = 5 then 1 else 0

theorem atFace_iff {f : Nat} (hf : f < 6) (a : NI) :
    AtFace f a ↔ a.ox1 = off1 f ∧ a.ox2 = off2 f ∧ a.ox3 = off3 f := by
  unfold AtFace off1 off2 off3
  interval_cases f <;> simp

theorem atFace_id {f : Nat} (hf : f < 6) {a : NI} (h : AtFace f a) : faceId a = f ∧ isFace a = true := by
  rw [atFace_iff hf] at h
  obtain ⟨h1, h2, h3⟩ := h
  unfold faceId isFace
  rw [h1, h2, h3]
  unfold off1 off2 off3
  interval_cases f <;> simp

theorem atFace_opp {f : Nat} (hf : f < 6) {a b : NI} (h : AtFace f a) (h1 : b.ox1 = -a.ox1)
    (h2 : b.ox2 = -a.ox2) (h3 : b.ox3 = -a.ox3) : AtFace (opp f) b := by
  have h6 : opp f < 6 := by unfold opp; split <;> omega
  rw [atFace_iff hf] at h
  rw [atFace_iff h6, h1, h2, h3, h.1, h.2.1, h.2.2]
  interval_cases f <;> simp [opp, off1, off2, off3]

theorem isFace_cases {a : NI} (h1 : a.ox1 = -1 ∨ a.ox1 = 0 ∨ a.ox1 = 1)
    (h2 : a.ox2 = -1 ∨ a.ox2 = 0 ∨ a.ox2 = 1) (h3 : a.ox3 = -1 ∨ a.ox3 = 0 ∨ a.ox3 = 1)
    (h : isFace a = true) : faceId a < 6 ∧ AtFace (faceId a) a := by
  obtain ⟨o1, o2, o3, f1, f2⟩ := a
  simp only at h1 h2 h3
  rcases h1 with rfl | rfl | rfl <;> rcases h2 with rfl | rfl | rfl <;> rcases h3 with rfl | rfl | rfl <;>
    simp [isFace, faceId, AtFace] at h ⊢

theorem nbmax_core : ∀ f2 f3 ml : Bool, ∀ i < 56, ∀ a, (niList f2 f3 ml)[i]? = some a →
    (isFace a = true ↔ i < nbmax f2 f3 ml) := by
  have : ∀ f2 f3 ml : Bool, ∀ i < 56, ((niList f2 f3 ml)[i]?).all
      (fun a => decide (isFace a = true ↔ i < nbmax f2 f3 ml)) = true := by decide +kernel
  intro f2 f3 ml i hi a ha
  have := this f2 f3 ml i hi
  rw [ha] at this
  exact of_decide_eq_true this

theorem takeWhile_sorted {α : Type} (P : α → Bool) (key : α → Nat) (N : Nat) (l : List α)
    (hs : (l.map key).Pairwise (· < ·)) (hP : ∀ x ∈ l, P x = true ↔ key x < N) :
    l.takeWhile P = l.filter P := by
  induction l with
  | nil => rfl
  | cons a l ih =>
    rw [List.map_cons, List.pairwise_cons] at hs
    have ih := ih hs.2 (fun x hx => hP x (by simp [hx]))
    by_cases ha : P a = true
    · rw [List.takeWhile_cons_of_pos ha, List.filter_cons_of_pos ha, ih]
    · rw [List.takeWhile_cons_of_neg ha, List.filter_cons_of_neg ha, eq_comm, List.filter_eq_nil_iff]
      intro x hx h
      have h1 := (hP x (by simp [hx])).1 h
      have h2 := hs.1 (key x) (List.mem_map.2 ⟨x, hx, rfl⟩)
      exact ha ((hP a (by simp)).2 (by omega))

set_option synthInstance.maxSize 1000 in
set_option synthInstance.maxHeartbeats 400000 in
theorem slot_core1 (f2 f3 : Bool) : (f3 = true → f2 = true) → ∀ f < 6,
    (f < 2 ∨ (2 ≤ f ∧ f < 4 ∧ f2 = true) ∨ (4 ≤ f ∧ f3 = true)) →
    ∀ n : Fin 8, n.val < nleafB f2 f3 → faceB (off1 f) (off2 f) (off3 f) n = true →
      ∀ a < 8, ∀ b < 8, Tree.trans (off1 f) (off2 f) (off3 f) (n.val % 2) (n.val / 2 % 2) (n.val / 4 % 2) = (a, b) →
      a < 2 ∧ b < 2 ∧ (a = 0 ∨ (f < 2 → f2 = true)) ∧ (b = 0 ∨ ((f < 4 → f3 = true) ∧ (4 ≤ f → f2 = true))) := by
  intro hd f hf
  cases f2 <;> cases f3 <;> first | simp at hd; done | (interval_cases f <;> decide +kernel)

set_option synthInstance.maxSize 1000 in
set_option synthInstance.maxHeartbeats 400000 in
theorem slot_core2 (f2 f3 : Bool) : (f3 = true → f2 = true) → ∀ f < 6,
    (f < 2 ∨ (2 ≤ f ∧ f < 4 ∧ f2 = true) ∨ (4 ≤ f ∧ f3 = true)) →
    ∀ a < 2, ∀ b < 2, (a = 0 ∨ (f < 2 → f2 = true)) → (b = 0 ∨ ((f < 4 → f3 = true) ∧ (4 ≤ f → f2 = true))) →
      ∃ n : Fin 8, n.val < nleafB f2 f3 ∧ faceB (off1 f) (off2 f) (off3 f) n = true ∧
      Tree.trans (off1 f) (off2 f) (off3 f) (n.val % 2) (n.val / 2 % 2) (n.val / 4 % 2) = (a, b) := by
  intro hd f hf
  cases f2 <;> cases f3 <;> first | simp at hd; done | (interval_cases f <;> decide +kernel)

theorem off_cases (f : Nat) : (off1 f = -1 ∨ off1 f = 0 ∨ off1 f = 1) ∧ (off2 f = -1 ∨ off2 f = 0 ∨ off2 f = 1) ∧
    (off3 f = -1 ∨ off3 f = 0 ∨ off3 f = 1) := by
  unfold off1 off2 off3
  refine ⟨?_, ?_, ?_⟩ <;> split <;> (try split) <;> omega

theorem off_nz {f : Nat} (hf : f < 6) : ¬ (off1 f = 0 ∧ off2 f = 0 ∧ off3 f = 0) := by
  interval_cases f <;> decide

theorem off_faceDir (f : Nat) : FaceDir (off1 f) (off2 f) (off3 f) := by
  unfold FaceDir off1 off2 off3
  by_cases h : f < 2
  · left; constructor <;> (rw [if_neg, if_neg] <;> omega)
  · by_cases h : f < 4
    · right; left; constructor <;> (rw [if_neg, if_neg] <;> omega)
    · right; right; constructor <;> (rw [if_neg, if_neg] <;> omega)

section
variable {m : Mesh} (hm : m.Valid) {ml : Bool} {d : Dims} (hd : SizesOk m ml d) (hok : d.Ok)

include hd in
theorem f2_iff : m.f2 = true ↔ 1 < d.nx2 := by
  constructor
  · exact fun h => (hd.n2 h).2
  · intro h
    by_contra h'
    have := hd.o2 (by simpa using h')
    omega

include hd in
theorem f3_iff : m.f3 = true ↔ 1 < d.nx3 := by
  constructor
  · exact fun h => (hd.n3 h).2
  · intro h
    by_contra h'
    have := hd.o3 (by simpa using h')
    omega

include hm hd hok in
theorem slot_child {f : Nat} (ha : Active d f) :
    (∀ n : Fin 8, n.val < m.nleaf → Tree.Face (off1 f) (off2 f) (off3 f) n →
      Slot d f (trans (off1 f) (off2 f) (off3 f) (n.val % 2) (n.val / 2 % 2) (n.val / 4 % 2)).1
        (trans (off1 f) (off2 f) (off3 f) (n.val % 2) (n.val / 2 % 2) (n.val / 4 % 2)).2) ∧
    (∀ f1 f2, Slot d f f1 f2 → ∃ n : Fin 8, n.val < m.nleaf ∧ Tree.Face (off1 f) (off2 f) (off3 f) n ∧
      trans (off1 f) (off2 f) (off3 f) (n.val % 2) (n.val / 2 % 2) (n.val / 4 % 2) = (f1, f2)) := by
  have e2 := f2_iff hd
  have e3 := f3_iff hd
  have h1 := hok.x1
  obtain ⟨o1, o2, o3⟩ := off_cases f
  have hf : f < 6 := by unfold Active at ha; omega
  have hact : f < 2 ∨ (2 ≤ f ∧ f < 4 ∧ m.f2 = true) ∨ (4 ≤ f ∧ m.f3 = true) := by
    unfold Active at ha; rw [e2, e3]; omega
  have k1 := slot_core1 m.f2 m.f3 hm.dim f hf hact
  have k2 := slot_core2 m.f2 m.f3 hm.dim f hf hact
  have ex : ∀ a : Nat, (a = 0 ∨ 1 < nx d f) ↔ (a = 0 ∨ (f < 2 → m.f2 = true)) := by
    intro a; unfold nx; rw [e2]; split <;> omega
  have ey : ∀ a : Nat, (a = 0 ∨ 1 < ny d f) ↔ (a = 0 ∨ ((f < 4 → m.f3 = true) ∧ (4 ≤ f → m.f2 = true))) := by
    intro a; unfold ny; rw [e2, e3]; split <;> omega
  constructor
  · intro n hn hfc
    have hb : ∀ x y z : Int, ∀ a b c : Nat, a < 8 → b < 8 → c < 8 → (Tree.trans x y z a b c).1 < 8 ∧ (Tree.trans x y z a b c).2 < 8 := by
      intro x y z a b c ha hb hc
      unfold Tree.trans
      split_ifs <;> omega
    obtain ⟨b1, b2⟩ := hb (off1 f) (off2 f) (off3 f) (n.val % 2) (n.val / 2 % 2) (n.val / 4 % 2) (by omega)
      (by omega) (by omega)
    obtain ⟨r1, r2, r3, r4⟩ := k1 n (by rw [nleafB_eq]; exact hn) ((face_iff_faceB o1 o2 o3 _).2 hfc) _ b1 _ b2 rfl
    exact ⟨r1, r2, (ex _).2 r3, (ey _).2 r4⟩
  · rintro f1 f2 ⟨r1, r2, r3, r4⟩
    obtain ⟨n, j1, j2, j3⟩ := k2 f1 r1 f2 r2 ((ex _).1 r3) ((ey _).1 r4)
    exact ⟨n, by rw [← nleafB_eq]; exact j1, (face_iff_faceB o1 o2 o3 _).1 j2, j3⟩

include hd in
theorem shift_iff {f : Nat} (ha : Active d f) {L : Nat} (hL : m.rootLevel ≤ L) {p : Pos} (hp : Dom m L p) :
    OnBoundary m L p f ↔ ¬ ∃ q, Shift m L p (off1 f) (off2 f) (off3 f) q := by
  have e2 := f2_iff hd
  have e3 := f3_iff hd
  obtain ⟨p1, p2, p3⟩ := (dom_iff_ge hL).1 hp
  have hf : f < 6 := by unfold Active at ha; omega
  have core : ∀ (per : Prop) (n x : Nat) (o : Int), x < n → (o = -1 ∨ o = 1) →
      (((o = -1 → x = 0) ∧ (o = 1 → x + 1 = n) ∧ ¬ per) ↔ ¬ ∃ y, Step per n x o y) := by
    intro per n x o hx ho
    constructor
    · rintro ⟨a, b, c⟩ ⟨y, s⟩
      obtain ⟨s1, s2, s3, s4 | ⟨s4, _⟩⟩ := s
      · omega
      · exact c s4
    · intro h
      by_contra hc
      apply h
      by_cases hin : 0 ≤ (x : Int) + o ∧ (x : Int) + o < n
      · exact ⟨((x : Int) + o).toNat, by omega, by omega, by omega, .inl (by omega)⟩
      · have hper : per := by
          by_contra hper
          exact hc ⟨by omega, by omega, hper⟩
        rcases ho with rfl | rfl
        · exact ⟨n - 1, by omega, by omega, by omega, .inr ⟨hper, .inl (by omega)⟩⟩
        · exact ⟨0, by omega, by omega, by omega, .inr ⟨hper, .inr (by omega)⟩⟩
  have z : ∀ (per : Prop) (n x : Nat), x < n → Step per n x 0 x := fun per n x hx =>
    ⟨hx, by omega, by omega, .inl (by omega)⟩
  have g1 : ∀ o, (∃ q, Shift m L p o 0 0 q) ↔ ∃ y, Step (m.ix1 = .periodic) (m.nmax1 L) p.x1 o y := by
    intro o
    constructor
    · rintro ⟨q, hq⟩; exact ⟨_, hq.s1⟩
    · rintro ⟨y, hy⟩; exact ⟨⟨y, p.x2, p.x3⟩, by simp, by simp, hy, z _ _ _ p2, z _ _ _ p3⟩
  have g2 : m.f2 = true → ∀ o, (∃ q, Shift m L p 0 o 0 q) ↔ ∃ y, Step (m.ix2 = .periodic) (m.nmax2 L) p.x2 o y := by
    intro h2 o
    constructor
    · rintro ⟨q, hq⟩; exact ⟨_, hq.s2⟩
    · rintro ⟨y, hy⟩; exact ⟨⟨p.x1, y, p.x3⟩, by simp [h2], by simp, z _ _ _ p1, hy, z _ _ _ p3⟩
  have g3 : m.f3 = true → ∀ o, (∃ q, Shift m L p 0 0 o q) ↔ ∃ y, Step (m.ix3 = .periodic) (m.nmax3 L) p.x3 o y := by
    intro h3 o
    constructor
    · rintro ⟨q, hq⟩; exact ⟨_, hq.s3⟩
    · rintro ⟨y, hy⟩; exact ⟨⟨p.x1, p.x2, y⟩, by simp, by simp [h3], z _ _ _ p1, z _ _ _ p2, hy⟩
  unfold Active at ha
  have a2 : 2 ≤ f → f < 4 → m.f2 = true := by intro _ _; rw [e2]; omega
  have a3 : 4 ≤ f → m.f3 = true := by intro _; rw [e3]; omega
  interval_cases f
  · simp only [off1, off2, off3, OnBoundary]; norm_num; rw [← not_exists, g1, ← core _ _ _ _ p1 (by simp)]; simp
  · simp only [off1, off2, off3, OnBoundary]; norm_num; rw [← not_exists, g1, ← core _ _ _ _ p1 (by simp)]; simp
  · simp only [off1, off2, off3, OnBoundary]; norm_num
    rw [← not_exists, g2 (a2 (by omega) (by omega)), ← core _ _ _ _ p2 (by simp)]; simp
  · simp only [off1, off2, off3, OnBoundary]; norm_num
    rw [← not_exists, g2 (a2 (by omega) (by omega)), ← core _ _ _ _ p2 (by simp)]; simp
  · simp only [off1, off2, off3, OnBoundary]; norm_num
    rw [← not_exists, g3 (a3 (by omega)), ← core _ _ _ _ p3 (by simp)]; simp
  · simp only [off1, off2, off3, OnBoundary]; norm_num
    rw [← not_exists, g3 (a3 (by omega)), ← core _ _ _ _ p3 (by simp)]; simp

end

section
variable {m : Mesh} (hm : m.Valid) (hnp : NoPolar m) {t : Tree} (hi : Inv m t) {ml : Bool} {d : Dims}
  (hd : SizesOk m ml d) (hok : d.Ok) {L : Nat} {p : Pos} {g : Int}

include hm hnp hi hd hok in
/-- What the list has at a face. -/
theorem face_list (hml : ml = true ∨ ∀ K q g, Dom m K q → t.at K q = .leaf g → K = m.rootLevel)
    (hp : Dom m L p) (hl : t.at L p = .leaf g) {es : List Entry} (hes : ∀ e, e ∈ es ↔ Listed m ml t L p e)
    {f : Nat} (ha : Active d f) :
    (OnBoundary m L p f ∧ ∀ e ∈ es, ¬ AtFace f e.ni) ∨ (¬ OnBoundary m L p f ∧ FaceList d L f es) := by
  have hL := hi.wf.leaf L p g hp hl
  have hf : f < 6 := by unfold Active at ha; omega
  rw [shift_iff hd ha hL hp]
  obtain ⟨o1, o2, o3⟩ := off_cases f
  by_cases hex : ∃ q, Shift m L p (off1 f) (off2 f) (off3 f) q
  · right
    refine ⟨fun h => h hex, ?_⟩
    obtain ⟨q, hs⟩ := hex
    have nz := off_nz hf
    have huniq : ∀ q', Shift m L p (off1 f) (off2 f) (off3 f) q' → q' = q := fun q' h' => h'.unique hL hp hs
    obtain ⟨i, hi1, hi2⟩ := slot_exists_zero hm (ml := ml) hs.dir nz
    rcases neighbour_cases hm hnp hi hp hl hs with ⟨g', h1⟩ | ⟨g', h1⟩ | ⟨K, g', rfl, hK, h1, _⟩
    · refine .one _ ((hes _).2 (.same nz hs h1 hi1 hi2)) ((atFace_iff hf _).2 ⟨rfl, rfl, rfl⟩) (.inl rfl)
        ⟨rfl, rfl⟩ ?_
      intro e' he' hf'
      obtain ⟨e1, e2, e3⟩ := (atFace_iff hf _).1 hf'
      have hle := (hes _).1 he'
      cases hle with
      | @same o1 o2 o3 q' g2 j h0 hs' hl' hi' hlt =>
        simp only at e1 e2 e3
        subst e1 e2 e3
        obtain rfl := huniq _ hs'
        rw [h1] at hl'
        obtain rfl : g' = g2 := by simpa using hl'
        obtain rfl : j = i := by omega
        rfl
      | @fine o1 o2 o3 q' g2 j n h0 hs' hn hf hl' hi' hlt =>
        simp only at e1 e2 e3
        subst e1 e2 e3
        obtain rfl := huniq _ hs'
        obtain ⟨g3, h3⟩ := parent_node (t := t) (L := L) (p := q'.child n) (by rw [hl']; simp)
        rw [Pos.half_child, h1] at h3; simp at h3
      | @coarse o1 o2 o3 K q' g2 j h0 hK hs' hl' hok hi' hlt =>
        simp only at e1 e2 e3
        subst e1 e2 e3 hK
        obtain rfl := huniq _ hs'
        obtain ⟨g3, h3⟩ := parent_node (t := t) (L := K) (p := q') (by rw [h1]; simp)
        rw [h3] at hl'; simp at hl'
    · obtain ⟨s1, s2⟩ := slot_child hm hd hok ha
      refine .many ?_ ?_
      · intro e' he' hf'
        obtain ⟨e1, e2, e3⟩ := (atFace_iff hf _).1 hf'
        have hle := (hes _).1 he'
        cases hle with
        | @same o1 o2 o3 q' g2 j h0 hs' hl' hi' hlt =>
          simp only at e1 e2 e3
          subst e1 e2 e3
          obtain rfl := huniq _ hs'
          rw [h1] at hl'; simp at hl'
        | @fine o1 o2 o3 q' g2 j n h0 hs' hn hf hl' hi' hlt =>
          simp only at e1 e2 e3
          subst e1 e2 e3
          exact ⟨rfl, s1 n hn hf⟩
        | @coarse o1 o2 o3 K q' g2 j h0 hK hs' hl' hok hi' hlt =>
          simp only at e1 e2 e3
          subst e1 e2 e3 hK
          obtain rfl := huniq _ hs'
          obtain ⟨g3, h3⟩ := parent_node (t := t) (L := K) (p := q') (by rw [h1]; simp)
          rw [h3] at hl'; simp at hl'
      · intro f1 f2 hsl
        obtain ⟨n, n1, n2, n3⟩ := s2 f1 f2 hsl
        obtain ⟨g2, h2⟩ := facing_leaf hm hnp hi hp hl nz hs h1 n1 n2
        have hmlt : ml = true := by
          rcases hml with h | h
          · exact h
          · have := h (L + 1) _ g2 ((hs.dom hL).child hm hL n1) h2
            omega
        obtain ⟨j, hj, hjl⟩ := slot_exists hm (ml := ml) hs.dir nz n1 (by simp [hmlt])
        refine ⟨_, (hes _).2 (.fine nz hs n1 n2 h2 hj hjl), (atFace_iff hf _).2 ⟨rfl, rfl, rfl⟩, ?_, ?_⟩
        · simp only [n3]
        · simp only [n3]
    · refine .one _ ((hes _).2 (.coarse nz rfl hs h1 (.inl (off_faceDir f)) hi1 hi2))
        ((atFace_iff hf _).2 ⟨rfl, rfl, rfl⟩) (.inr rfl) ⟨rfl, rfl⟩ ?_
      intro e' he' hf'
      obtain ⟨e1, e2, e3⟩ := (atFace_iff hf _).1 hf'
      have hle := (hes _).1 he'
      have hnn : t.at (K + 1) q = .null := by
        by_contra h
        obtain ⟨g3, h3⟩ := parent_node (t := t) (L := K) (p := q) h
        rw [h1] at h3; simp at h3
      cases hle with
      | @same o1 o2 o3 q' g2 i h0 hs' hl' hi' hlt =>
        simp only at e1 e2 e3
        subst e1 e2 e3
        obtain rfl := huniq _ hs'
        rw [hnn] at hl'; simp at hl'
      | @fine o1 o2 o3 q' g2 i n h0 hs' hn hf hl' hi' hlt =>
        simp only at e1 e2 e3
        subst e1 e2 e3
        obtain rfl := huniq _ hs'
        obtain ⟨g3, h3⟩ := parent_node (t := t) (L := K + 1) (p := q'.child n) (by rw [hl']; simp)
        rw [Pos.half_child, hnn] at h3; simp at h3
      | @coarse o1 o2 o3 K' q' g2 j h0 hK' hs' hl' hok hi' hlt =>
        simp only at e1 e2 e3
        subst e1 e2 e3
        obtain rfl : K = K' := by omega
        obtain rfl := huniq _ hs'
        rw [h1] at hl'
        obtain rfl : g' = g2 := by simpa using hl'
        obtain rfl : j = i := by omega
        rfl
  · left
    refine ⟨hex, ?_⟩
    intro e he hf'
    apply hex
    obtain ⟨e1, e2, e3⟩ := (atFace_iff hf _).1 hf'
    have hle := (hes _).1 he
    cases hle with
    | same h0 hs' => simp only at e1 e2 e3; subst e1 e2 e3; exact ⟨_, hs'⟩
    | fine h0 hs' => simp only at e1 e2 e3; subst e1 e2 e3; exact ⟨_, hs'⟩
    | coarse h0 hK hs' => simp only at e1 e2 e3; subst e1 e2 e3; exact ⟨_, hs'⟩

end
end Verif.FluxMsg
