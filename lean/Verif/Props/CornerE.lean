import Verif.Lemmas.CornerE
import Verif.Lemmas.Eos
import Verif.Props.Coord
import Verif.Props.RiemannMhd

/-!
# Electric field at edges: nothing stale, upwinding, plane-parallel problems, uniform fields

`CalculateFluxes` and `ComputeCornerE` followed by `CT`, in one, two and three dimensions.
-/
namespace Verif.Grid

variable {d : Dims} {sr : Bool} {w bcc : A4 ℝ} {S : ℕ → ℤ → ℤ → ℤ → Solved} {dif : Option (EF ℝ)} {s s' : Stale}

/-- The electric field on every edge of an active cell is the mean of the four faces around it with upwinded
differences, the same rule for all three components; along directions the block does not extend in it is that of
the face. The electric field of diffusion is added. -/
theorem corner_e (hd : d.Pos) {a b c : ℕ} (ha : a = 1 ∨ a = 2 ∨ a = 3) (hb : b = 1 ∨ b = 2 ∨ b = 3) (hc : c = 1 ∨ c = 2 ∨ c = 3)
    (hab : a ≠ b) (hac : a ≠ c) (hbc : b ≠ c) {q : ℤ × ℤ × ℤ} (hq : EdgeOf d c q) :
    (d.Has a → d.Has b → (stageE d sr w bcc S dif s).comp c q = edgeE sr w bcc S c a b q + dif.elim 0 (fun e => e.comp c q)) ∧
    (d.Has a → ¬ d.Has b → (stageE d sr w bcc S dif s).comp c q =
      faceE S c a (d.ks, if 1 < d.nx2 then q.2.1 else d.js, q.2.2) + dif.elim 0 (fun e => e.comp c q)) := by
  have h := fun h1 => stageE_at (d := d) (sr := sr) (w := w) (bcc := bcc) (S := S) (dif := dif) (s := s) hd hc h1 hq
  obtain ⟨g, n1, n2, n3, ord⟩ := hd
  unfold Dims.Has
  constructor
  · intro h1 h2
    have h2' : 1 < d.nx2 := by
      rcases h1 with h1 | h1 | h1 <;> rcases h2 with h2 | h2 | h2 <;> omega
    rw [h (fun _ => h2')]
    congr 1
    unfold baseE
    rw [if_neg (by omega)]
    by_cases h3 : d.nx3 = 1
    · rw [if_pos h3]
      have hc3 : c = 3 := by omega
      subst hc3
      norm_num
      rcases (by omega : a = 1 ∧ b = 2 ∨ a = 2 ∧ b = 1) with ⟨rfl, rfl⟩ | ⟨rfl, rfl⟩
      · rfl
      · exact edgeE_comm ..
    · rw [if_neg h3]
      rcases hc with rfl | rfl | rfl
      · rcases (by omega : a = 2 ∧ b = 3 ∨ a = 3 ∧ b = 2) with ⟨rfl, rfl⟩ | ⟨rfl, rfl⟩
        · rfl
        · exact edgeE_comm ..
      · rcases (by omega : a = 1 ∧ b = 3 ∨ a = 3 ∧ b = 1) with ⟨rfl, rfl⟩ | ⟨rfl, rfl⟩
        · rfl
        · exact edgeE_comm ..
      · rcases (by omega : a = 1 ∧ b = 2 ∨ a = 2 ∧ b = 1) with ⟨rfl, rfl⟩ | ⟨rfl, rfl⟩
        · rfl
        · exact edgeE_comm ..
  · intro h1 h2
    push Not at h2
    rw [h (by intro h; omega)]
    congr 1
    unfold baseE
    by_cases h2' : d.nx2 = 1
    · rw [if_pos h2', if_neg (by omega : ¬ 1 < d.nx2)]
      have : a = 1 := by omega
      subst this
      rw [if_neg (by omega)]
    · rw [if_neg h2', if_pos (by omega : d.nx3 = 1), if_pos (by omega : 1 < d.nx2)]
      have : b = 3 := by omega
      subst this
      rcases (by omega : a = 1 ∧ c = 2 ∨ a = 2 ∧ c = 1) with ⟨rfl, rfl⟩ | ⟨rfl, rfl⟩ <;> norm_num

/-- The weight of the solver chooses the upwind side: with the mass flux `m` of a contact that crosses more than a
small part of the cell in one step the value comes from where the gas comes from, with a contact at rest it is the mean. -/
theorem weight_upwind {m rl rr dx dt lo hi : ℝ} (h0 : 0 < dt) (h1 : 0 < dx) (h2 : 0 < rl + rr)
    (h : m = 0 ∨ dx * (rl + rr) ≤ 2048 * (dt * |m|)) :
    mix (Mhd.weightForCT m rl rr dx dt) lo hi = if 0 < m then lo else if m < 0 then hi else (lo + hi) / 2 := by
  have hx : 0 < dx * (rl + rr) := mul_pos h1 h2
  unfold mix Mhd.weightForCT
  rcases lt_trichotomy m 0 with hm | rfl | hm
  · rw [if_neg (by linarith), if_pos hm]
    have h := h.resolve_left hm.ne
    rw [abs_of_neg hm] at h
    have : 1024 * dt * m / (dx * (rl + rr)) ≤ -(1/2) := by
      rw [div_le_iff₀ hx]; nlinarith
    simp only []
    rw [min_eq_right (by linarith), max_eq_left this]
    ring
  · simp only [lt_irrefl, if_false, mul_zero, zero_div]
    norm_num
    ring
  · rw [if_pos hm]
    have h := h.resolve_left hm.ne'
    rw [abs_of_pos hm] at h
    have : 1/2 ≤ 1024 * dt * m / (dx * (rl + rr)) := by
      rw [le_div_iff₀ hx]; nlinarith
    simp only []
    rw [min_eq_left this, max_eq_right (by norm_num)]
    ring

/-- Nothing left from earlier stages and nothing further than one ghost cell away reaches the magnetic field: `CT`
gives the same result whatever the face, edge and scratch arrays contained before, if cells and faces within one cell of
the active ones agree. -/
theorem no_stale_field (hd : d.Pos) {w' bcc' : A4 ℝ} {S' : ℕ → ℤ → ℤ → ℤ → Solved} {pin pout : Bool} {G : Geom ℝ} {len : EF ℝ} {wt : ℝ} {b : FF ℝ}
    (h : ∀ q, Near d q → (∀ n, w (n, q) = w' (n, q) ∧ bcc (n, q) = bcc' (n, q)) ∧ ∀ a, S a q.1 q.2.1 q.2.2 = S' a q.1 q.2.1 q.2.2) :
    ct d pin pout G len (stageE d sr w bcc S dif s) wt b = ct d pin pout G len (stageE d sr w' bcc' S' dif s') wt b := by
  apply ct_congr hd
  intro c q hc h1 hq
  rw [stageE_at hd hc h1 hq, stageE_at hd hc h1 hq]
  congr 1
  obtain ⟨k, j, i⟩ := q
  obtain ⟨hk, hj, hi⟩ := hq
  obtain ⟨g, n1, n2, n3, ord⟩ := hd
  simp only at hk hj hi
  have hN : ∀ k j i : ℤ, (d.ks - (if 1 < d.nx3 then 1 else 0) ≤ k ∧ k ≤ d.ke + if 1 < d.nx3 then 1 else 0) →
      (d.js - (if 1 < d.nx2 then 1 else 0) ≤ j ∧ j ≤ d.je + if 1 < d.nx2 then 1 else 0) →
      (d.is - 1 ≤ i ∧ i ≤ d.ie + 1) → Near d (k, j, i) := fun k j i a b c => ⟨a, b, c⟩
  have kr : d.ks ≤ d.ke := by unfold Dims.ks Dims.ke; split <;> omega
  have jr : d.js ≤ d.je := by unfold Dims.js Dims.je; split <;> omega
  have hfc : ∀ c a p, Near d p → faceE S c a p = faceE S' c a p := by
    intro c a p hp
    simp only [faceE, (h p hp).2 a]
  unfold baseE
  by_cases c2 : d.nx2 = 1
  · rw [if_pos c2, if_pos c2]
    have c3 : ¬ 1 < d.nx3 := fun h => by have := ord h; omega
    split
    · rfl
    · rw [hfc]
      apply hN
      · simp only [if_neg c3]; omega
      · simp only [if_neg (by omega : ¬ 1 < d.nx2)]; omega
      · split at hi <;> (simp only; omega)
  · have c2' : 1 < d.nx2 := by omega
    rw [if_neg c2, if_neg c2]
    simp only [if_pos c2'] at hN
    by_cases c3 : d.nx3 = 1
    · rw [if_pos c3, if_pos c3]
      simp only [if_neg (by omega : ¬ 1 < d.nx3)] at hN
      rcases hc with rfl | rfl | rfl
      · simp only [if_true]
        norm_num at hk hj hi
        exact hfc _ _ _ (hN _ _ _ (by omega) (by omega) (by omega))
      · norm_num
        norm_num at hk hj hi
        exact hfc _ _ _ (hN _ _ _ (by omega) (by omega) (by omega))
      · norm_num
        norm_num at hk hj hi
        apply edgeE_congr
        intro p hp
        simp only [down1, down2] at hp
        rcases hp with rfl | rfl | rfl | rfl | rfl <;> exact h _ (hN _ _ _ (by omega) (by omega) (by omega))
    · rw [if_neg c3, if_neg c3]
      simp only [if_pos (by omega : 1 < d.nx3)] at hN
      rcases hc with rfl | rfl | rfl <;> norm_num <;> norm_num at hk hj hi <;> apply edgeE_congr <;> intro p hp <;>
        simp only [down1, down2, down3] at hp <;> rcases hp with rfl | rfl | rfl | rfl | rfl <;>
        exact h _ (hN _ _ _ (by omega) (by omega) (by omega))

/-! ## Plane-parallel problems -/

theorem edgeE_planar {a b c : ℕ} (ha : a = 1 ∨ a = 2 ∨ a = 3) (hb : b = 1 ∨ b = 2 ∨ b = 3) (hc : c = 1 ∨ c = 2 ∨ c = 3)
    (hab : a ≠ b) (hac : a ≠ c) (hbc : b ≠ c) (hp : Planar a sr w bcc S) (q : ℤ × ℤ × ℤ) :
    edgeE sr w bcc S c a b q = faceE S c a q := by
  have hE : ∀ q q', along a q = along a q' → cellElectric sr w bcc c q = cellElectric sr w bcc c q' := by
    intro q q' h
    have := fun n => hp.cells n q q' h
    simp only [cellElectric, this]
  have hF : ∀ q q', along a q = along a q' → faceE S c a q = faceE S c a q' := by
    intro q q' h
    simp only [faceE, hp.faces a q q' h]
  have e1 : ∀ q, along a (down b q) = along a q := by
    rintro ⟨k, j, i⟩
    rcases ha with rfl | rfl | rfl <;> rcases hb with rfl | rfl | rfl <;> first | exact absurd rfl hab | simp [along, down]
  have e2 : ∀ q, down a (down b q) = down b (down a q) := by
    rintro ⟨k, j, i⟩
    rcases ha with rfl | rfl | rfl <;> rcases hb with rfl | rfl | rfl <;> simp [down]
  have e3 : ∀ q, S b (down a q).1 (down a q).2.1 (down a q).2.2 = S b (down a (down b q)).1 (down a (down b q)).2.1 (down a (down b q)).2.2 := by
    intro q
    apply hp.faces; rw [e2, e1]
  unfold edgeE
  simp only []
  rw [hF (down b q) q (e1 q), hp.across b c q hb hc hab.symm hbc, hp.across b c (down a q) hb hc hab.symm hbc,
    hE (down b q) q (e1 q), hE (down a (down b q)) (down a q) (by rw [e2, e1]), ← e2, hE (down a (down b q)) (down a q) (by rw [e2, e1])]
  unfold mix
  ring

theorem edgeE_planar_self {a b c : ℕ} (ha : a = 1 ∨ a = 2 ∨ a = 3) (hb : b = 1 ∨ b = 2 ∨ b = 3) (hc : c = 1 ∨ c = 2 ∨ c = 3)
    (hab : a ≠ b) (hac : a ≠ c) (hbc : b ≠ c) (hp : Planar c sr w bcc S) (q : ℤ × ℤ × ℤ) :
    edgeE sr w bcc S c a b q = cellElectric sr w bcc c q := by
  have hE : ∀ q q', along c q = along c q' → cellElectric sr w bcc c q = cellElectric sr w bcc c q' := by
    intro q q' h
    have := fun n => hp.cells n q q' h
    simp only [cellElectric, this]
  have e1 : ∀ q, along c (down b q) = along c q := by
    rintro ⟨k, j, i⟩
    rcases hc with rfl | rfl | rfl <;> rcases hb with rfl | rfl | rfl <;> first | exact absurd rfl hbc | simp [along, down]
  have e2 : ∀ q, along c (down a q) = along c q := by
    rintro ⟨k, j, i⟩
    rcases hc with rfl | rfl | rfl <;> rcases ha with rfl | rfl | rfl <;> first | exact absurd rfl hac | simp [along, down]
  unfold edgeE
  simp only [hp.across b c _ hb hc hbc hbc, hp.across a c _ ha hc hac hac]
  rw [hE (down a (down b q)) q (by rw [e2, e1]), hE (down b (down a q)) q (by rw [e1, e2]), hE (down a q) q (e2 q), hE (down b q) q (e1 q)]
  unfold mix
  ring

/-- In a plane-parallel problem along a direction the block extends in, the transverse electric field of every edge of
an active cell is that of the face of that direction, and the longitudinal one that of the cell, in any dimension. -/
theorem planar_e (hd : d.Pos) {a c : ℕ} (hh : d.Has a) (hc : c = 1 ∨ c = 2 ∨ c = 3) (h1 : c = 1 → 1 < d.nx2)
    (hp : Planar a sr w bcc S) {q : ℤ × ℤ × ℤ} (hq : EdgeOf d c q) :
    (stageE d sr w bcc S none s).comp c q = if c = a then cellElectric sr w bcc a q else faceE S c a q := by
  have ha : a = 1 ∨ a = 2 ∨ a = 3 := by unfold Dims.Has at hh; omega
  rw [stageE_at hd hc h1 hq]
  obtain ⟨g, n1, n2, n3, ord⟩ := hd
  simp only [Option.elim, add_zero]
  have kr : d.nx3 = 1 → d.ks = 0 ∧ d.ke = 0 := by intro h; simp [Dims.ks, Dims.ke, h]
  obtain ⟨k, j, i⟩ := q
  obtain ⟨hk, hj, hi⟩ := hq
  simp only at hk hj hi
  have hF : ∀ q q', along a q = along a q' → faceE S c a q = faceE S c a q' := by
    intro q q' h
    simp only [faceE, hp.faces a q q' h]
  have hE : ∀ q q', along a q = along a q' → cellElectric sr w bcc c q = cellElectric sr w bcc c q' := by
    intro q q' h
    have := fun n => hp.cells n q q' h
    simp only [cellElectric, this]
  unfold Dims.Has at hh
  unfold baseE
  by_cases c2 : d.nx2 = 1
  · rw [if_pos c2]
    have : a = 1 := by
      rcases hh with h | h | h
      · exact h
      · omega
      · have := ord h.2; omega
    subst this
    by_cases hc1 : c = 1
    · exact absurd (h1 hc1) (by omega)
    · rw [if_neg hc1, if_neg hc1]
      exact hF _ _ rfl
  · rw [if_neg c2]
    by_cases c3 : d.nx3 = 1
    · rw [if_pos c3]
      have ha2 : a = 1 ∨ a = 2 := by omega
      rcases hc with rfl | rfl | rfl
      · rcases ha2 with rfl | rfl
        · simp only [if_true]
          rw [hp.across 2 1 _ (by simp) (by simp) (by simp) (by simp)]
          exact hE _ _ rfl
        · simp only [if_true]
          norm_num
          exact hF _ _ rfl
      · rcases ha2 with rfl | rfl
        · norm_num
          exact hF _ _ rfl
        · norm_num
          rw [hp.across 1 2 _ (by simp) (by simp) (by simp) (by simp)]
          exact hE _ _ rfl
      · rcases ha2 with rfl | rfl
        · norm_num
          exact edgeE_planar (by simp) (by simp) (by simp) (by simp) (by simp) (by simp) hp _
        · norm_num
          rw [edgeE_comm]
          exact edgeE_planar (by simp) (by simp) (by simp) (by simp) (by simp) (by simp) hp _
    · rw [if_neg c3]
      rcases hc with rfl | rfl | rfl <;> rcases ha with rfl | rfl | rfl <;> norm_num <;>
      first
      | exact edgeE_planar (by simp) (by simp) (by simp) (by simp) (by simp) (by simp) hp _
      | exact edgeE_planar_self (by simp) (by simp) (by simp) (by simp) (by simp) (by simp) hp _
      | (rw [edgeE_comm]
         exact edgeE_planar (by simp) (by simp) (by simp) (by simp) (by simp) (by simp) hp _)

/-- A plane-parallel problem in Cartesian coordinates: the update of the field is the one-dimensional one in one, two
and three dimensions. The field along the direction of variation does not change, and the two others
change by the difference of the electric field between the two faces of the cell. -/
theorem planar_ct (hd : d.Pos) {a : ℕ} (hh : d.Has a) (hp : Planar a sr w bcc S) {X : Coord.XF}
    (hx : ∀ n, X.x1.dxf n ≠ 0 ∧ X.x2.dxf n ≠ 0 ∧ X.x3.dxf n ≠ 0) {wt : ℝ} {b : FF ℝ} {k j i : ℤ} :
    let b' := ct d false false (Coord.geom X .cartesian) (Coord.edges X .cartesian) (stageE d sr w bcc S none s) wt b
    ((d.ks ≤ k ∧ k ≤ d.ke) → (d.js ≤ j ∧ j ≤ d.je) → (d.is ≤ i ∧ i ≤ d.ie + 1) →
      b'.x1f (k, j, i) = b.x1f (k, j, i) +
        if a = 1 then 0
        else if a = 2 then -(wt / X.x2.dxf j * (faceE S 3 2 (k, j+1, i) - faceE S 3 2 (k, j, i)))
        else wt / X.x3.dxf k * (faceE S 2 3 (k+1, j, i) - faceE S 2 3 (k, j, i))) ∧
    ((d.ks ≤ k ∧ k ≤ d.ke) → (d.js ≤ j ∧ j ≤ d.je + 1) → (d.is ≤ i ∧ i ≤ d.ie) →
      b'.x2f (k, j, i) = b.x2f (k, j, i) +
        if a = 1 then wt / X.x1.dxf i * (faceE S 3 1 (k, j, i+1) - faceE S 3 1 (k, j, i))
        else if a = 2 then 0
        else -(wt / X.x3.dxf k * (faceE S 1 3 (k+1, j, i) - faceE S 1 3 (k, j, i)))) ∧
    ((d.ks ≤ k ∧ k ≤ d.ke + 1) → (d.js ≤ j ∧ j ≤ d.je) → (d.is ≤ i ∧ i ≤ d.ie) →
      b'.x3f (k, j, i) = b.x3f (k, j, i) +
        if a = 1 then -(wt / X.x1.dxf i * (faceE S 2 1 (k, j, i+1) - faceE S 2 1 (k, j, i)))
        else if a = 2 then wt / X.x2.dxf j * (faceE S 1 2 (k, j+1, i) - faceE S 1 2 (k, j, i))
        else 0) := by
  have ha : a = 1 ∨ a = 2 ∨ a = 3 := by unfold Dims.Has at hh; omega
  have hE : ∀ c q q', along a q = along a q' → cellElectric sr w bcc c q = cellElectric sr w bcc c q' := by
    intro c q q' h
    have := fun n => hp.cells n q q' h
    simp only [cellElectric, this]
  have hF : ∀ c q q', along a q = along a q' → faceE S c a q = faceE S c a q' := by
    intro c q q' h
    simp only [faceE, hp.faces a q q' h]
  have l1 : ∀ k j i, 1 < d.nx2 → (d.ks ≤ k ∧ k ≤ d.ke + 1) → (d.js ≤ j ∧ j ≤ d.je + 1) → (d.is ≤ i ∧ i ≤ d.ie) →
      (stageE d sr w bcc S none s).line1 (Coord.edges X .cartesian) k j i =
        X.x1.dxf i * if 1 = a then cellElectric sr w bcc a (k, j, i) else faceE S 1 a (k, j, i) := by
    intro k j i h2 hk hj hi
    rw [← planar_e (s := s) hd hh (c := 1) (by simp) (fun _ => h2) hp ⟨hk, hj, by simpa using hi⟩]
    rfl
  have l2 : ∀ k j i, (d.ks ≤ k ∧ k ≤ d.ke + 1) → (d.js ≤ j ∧ j ≤ d.je) → (d.is ≤ i ∧ i ≤ d.ie + 1) →
      (stageE d sr w bcc S none s).line2 (Coord.edges X .cartesian) k j i =
        X.x2.dxf j * if 2 = a then cellElectric sr w bcc a (k, j, i) else faceE S 2 a (k, j, i) := by
    intro k j i hk hj hi
    rw [← planar_e (s := s) hd hh (c := 2) (by simp) (by simp) hp ⟨hk, by simpa using hj, hi⟩]
    rfl
  have l3 : ∀ k j i, (d.ks ≤ k ∧ k ≤ d.ke) → (d.js ≤ j ∧ j ≤ d.je + 1) → (d.is ≤ i ∧ i ≤ d.ie + 1) →
      (stageE d sr w bcc S none s).line3 (Coord.edges X .cartesian) k j i =
        X.x3.dxf k * if 3 = a then cellElectric sr w bcc a (k, j, i) else faceE S 3 a (k, j, i) := by
    intro k j i hk hj hi
    rw [← planar_e (s := s) hd hh (c := 3) (by simp) (by simp) hp ⟨by simpa using hk, hj, hi⟩]
    rfl
  obtain ⟨g, n1, n2, n3, ord⟩ := hd
  have q1 := fun n => (hx n).1
  have q2 := fun n => (hx n).2.1
  have q3 := fun n => (hx n).2.2
  unfold Dims.Has at hh
  intro b'
  refine ⟨?_, ?_, ?_⟩
  · intro hk hj hi
    show ctB1 _ _ _ _ _ _ _ = _
    rw [ctB1_eq]
    simp only []
    by_cases h2 : 1 < d.nx2
    · rw [if_pos ⟨h2, hk.1, hk.2, hj.1, hj.2, hi.1, hi.2⟩, l3 _ _ _ (by omega) (by omega) (by omega), l3 _ _ _ (by omega) (by omega) (by omega),
        l2 _ _ _ (by omega) (by omega) (by omega), l2 _ _ _ (by omega) (by omega) (by omega)]
      have c2 := q2 j
      have c3 := q3 k
      simp only [Coord.geom]
      rcases ha with rfl | rfl | rfl
      · rw [hF 3 (k, j+1, i) (k, j, i) rfl, hF 2 (k+1, j, i) (k, j, i) rfl]
        simp
      · rw [hE 2 (k+1, j, i) (k, j, i) rfl]
        norm_num
        field_simp <;> ring
      · have : 1 < d.nx3 := by omega
        rw [hE 3 (k, j+1, i) (k, j, i) rfl]
        norm_num
        rw [if_pos this]
        field_simp <;> ring
    · rw [if_neg (fun h => h2 h.1)]
      have : a = 1 := by
        rcases hh with h | h | h
        · exact h
        · omega
        · have := ord h.2; omega
      simp [this]
  · intro hk hj hi
    show ctB2 _ _ _ _ _ _ _ _ _ = _
    rw [ctB2_eq]
    simp only [Bool.false_eq_true, if_false]
    rw [if_pos ⟨hk.1, hk.2, hj.1, hj.2, hi.1, hi.2⟩, l3 _ _ _ (by omega) (by omega) (by omega), l3 _ _ _ (by omega) (by omega) (by omega)]
    have c1 := q1 i
    have c3 := q3 k
    simp only [Coord.geom]
    by_cases h3 : 1 < d.nx3
    · rw [l1 _ _ _ (ord h3) (by omega) (by omega) (by omega), l1 _ _ _ (ord h3) (by omega) (by omega) (by omega)]
      rcases ha with rfl | rfl | rfl
      · rw [hE 1 (k+1, j, i) (k, j, i) rfl]
        norm_num
        field_simp <;> ring
      · rw [hF 3 (k, j, i+1) (k, j, i) rfl, hF 1 (k+1, j, i) (k, j, i) rfl]
        simp
      · rw [hE 3 (k, j, i+1) (k, j, i) rfl]
        norm_num
        rw [if_pos h3]
        field_simp <;> ring
    · rw [if_neg h3]
      rcases ha with rfl | rfl | rfl
      · norm_num
        field_simp <;> ring
      · rw [hF 3 (k, j, i+1) (k, j, i) rfl]
        simp
      · omega
  · intro hk hj hi
    show ctB3 _ _ _ _ _ _ _ = _
    rw [ctB3_eq]
    simp only []
    rw [if_pos ⟨hk.1, hk.2, hj.1, hj.2, hi.1, hi.2⟩, l2 _ _ _ (by omega) (by omega) (by omega), l2 _ _ _ (by omega) (by omega) (by omega)]
    have c1 := q1 i
    have c2 := q2 j
    simp only [Coord.geom]
    by_cases h2 : 1 < d.nx2
    · rw [l1 _ _ _ h2 (by omega) (by omega) (by omega), l1 _ _ _ h2 (by omega) (by omega) (by omega)]
      rcases ha with rfl | rfl | rfl
      · rw [hE 1 (k, j+1, i) (k, j, i) rfl]
        norm_num
        field_simp <;> ring
      · rw [hE 2 (k, j, i+1) (k, j, i) rfl]
        norm_num
        rw [if_pos h2]
        field_simp <;> ring
      · rw [hF 2 (k, j, i+1) (k, j, i) rfl, hF 1 (k, j+1, i) (k, j, i) rfl]
        simp
    · rw [if_neg h2]
      have : a = 1 := by
        rcases hh with h | h | h
        · exact h
        · omega
        · have := ord h.2; omega
      subst this
      norm_num
      field_simp <;> ring

/-! ## Fields that do not change -/

/-- With the same electric field at all cells and faces the field at the edges is that one, whatever the weights. -/
theorem stageE_const (hd : d.Pos) {E : ℕ → ℝ} (hE : ∀ c q, (c = 1 ∨ c = 2 ∨ c = 3) → cellElectric sr w bcc c q = E c)
    (hF : ∀ a c q, (a = 1 ∨ a = 2 ∨ a = 3) → (c = 1 ∨ c = 2 ∨ c = 3) → c ≠ a → faceE S c a q = E c)
    {c : ℕ} (hc : c = 1 ∨ c = 2 ∨ c = 3) (h1 : c = 1 → 1 < d.nx2) {q : ℤ × ℤ × ℤ} (hq : EdgeOf d c q) :
    (stageE d sr w bcc S none s).comp c q = E c := by
  have he : ∀ a b c q, (a = 1 ∨ a = 2 ∨ a = 3) → (b = 1 ∨ b = 2 ∨ b = 3) → (c = 1 ∨ c = 2 ∨ c = 3) → c ≠ a → c ≠ b →
      edgeE sr w bcc S c a b q = E c := by
    intro a b c q ha hb hc hac hbc
    unfold edgeE
    simp only [hF _ _ _ ha hc hac, hF _ _ _ hb hc hbc, hE _ _ hc]
    unfold mix
    ring
  rw [stageE_at hd hc h1 hq]
  simp only [Option.elim, add_zero]
  unfold baseE
  by_cases c2 : d.nx2 = 1
  · rw [if_pos c2]
    by_cases hc1 : c = 1
    · exact absurd (h1 hc1) (by omega)
    · rw [if_neg hc1, hF _ _ _ (by simp) hc hc1]
  · rw [if_neg c2]
    by_cases c3 : d.nx3 = 1
    · rw [if_pos c3]
      rcases hc with rfl | rfl | rfl <;> norm_num
      · exact hF _ _ _ (by simp) (by simp) (by simp)
      · exact hF _ _ _ (by simp) (by simp) (by simp)
      · exact he _ _ _ _ (by simp) (by simp) (by simp) (by simp) (by simp)
    · rw [if_neg c3]
      rcases hc with rfl | rfl | rfl <;> norm_num <;> exact he _ _ _ _ (by simp) (by simp) (by simp) (by simp) (by simp)

/-- If the electric field of all cells and faces is zero, as in gas at rest or moving along the field, then the magnetic field
does not change, in any coordinates, also at poles; whatever the contents of scratch arrays. -/
theorem frozen_field (hd : d.Pos) (hE : ∀ c q, (c = 1 ∨ c = 2 ∨ c = 3) → cellElectric sr w bcc c q = 0)
    (hF : ∀ a c q, (a = 1 ∨ a = 2 ∨ a = 3) → (c = 1 ∨ c = 2 ∨ c = 3) → c ≠ a → faceE S c a q = 0)
    {pin pout : Bool} {G : Geom ℝ} {len : EF ℝ} {wt : ℝ} {b : FF ℝ} :
    ct d pin pout G len (stageE d sr w bcc S none s) wt b = b := by
  have z : ct d pin pout G len (stageE d sr w bcc S none s) wt b =
      ct d pin pout G len (⟨fun _ => 0, fun _ => 0, fun _ => 0⟩ : EF ℝ) wt b := by
    apply ct_congr hd
    intro c q hc h1 hq
    rw [stageE_const hd hE hF hc h1 hq]
    rcases hc with rfl | rfl | rfl <;> rfl
  rw [z]
  obtain ⟨b1, b2, b3⟩ := b
  simp only [ct, FF.mk.injEq]
  refine ⟨?_, ?_, ?_⟩ <;> funext q
  · rw [ctB1_eq]; simp [EF.line2, EF.line3]
  · rw [ctB2_eq]; simp [EF.line1, EF.line3]
  · rw [ctB3_eq]; simp [EF.line1, EF.line2]

/-- A uniform flow in a uniform field, with any solver that returns the exact fluxes for equal states: the
field does not change in Cartesian coordinates. -/
theorem uniform_flow (hd : d.Pos) {g : Riemann.Gas} {solver : ℝ → Mhd.W → Mhd.W → Mhd.F} (hs : Mhd.Consistent g solver)
    {v B : ℕ → ℝ} (hok : ∀ a, (a = 1 ∨ a = 2 ∨ a = 3) → Mhd.Ok g (Mhd.load g a (Mhd.stateArr g a v B)))
    (hw : ∀ (n : ℕ) (q : ℤ × ℤ × ℤ), w ((n : ℤ), q) = v n ∧ bcc ((n : ℤ), q) = B (n + 1))
    (hS : ∀ (a : ℕ) (q : ℤ × ℤ × ℤ), (a = 1 ∨ a = 2 ∨ a = 3) → ∃ wct, S a q.1 q.2.1 q.2.2 =
      ofFlux (solver (B a) (Mhd.load g a (Mhd.stateArr g a v B)) (Mhd.load g a (Mhd.stateArr g a v B))) wct)
    {X : Coord.XF} {pin pout : Bool} {wt : ℝ} {b : FF ℝ} :
    ct d pin pout (Coord.geom X .cartesian) (Coord.edges X .cartesian) (stageE d false w bcc S none s) wt b = b := by
  have w1 := fun q => (hw 1 q).1
  have w2 := fun q => (hw 2 q).1
  have w3 := fun q => (hw 3 q).1
  have b1 := fun q => (hw 0 q).2
  have b2 := fun q => (hw 1 q).2
  have b3 := fun q => (hw 2 q).2
  norm_num at w1 w2 w3 b1 b2 b3
  have hE : ∀ c q, (c = 1 ∨ c = 2 ∨ c = 3) → cellElectric false w bcc c q = Mhd.electric v B c := by
    rintro c ⟨k, j, i⟩ hc
    rcases hc with rfl | rfl | rfl <;> simp [cellElectric, Mhd.electric, w1, w2, w3, b1, b2, b3]
  have hF : ∀ a c q, (a = 1 ∨ a = 2 ∨ a = 3) → (c = 1 ∨ c = 2 ∨ c = 3) → c ≠ a → faceE S c a q = Mhd.electric v B c := by
    intro a c q ha hc hca
    have h := (hs v B (fun _ => 0) (fun _ => 0) a ha (hok a ha)).2 c
    rw [if_pos ⟨hc, hca⟩] at h
    rw [← h]
    obtain ⟨wct, e⟩ := hS a q ha
    unfold faceE
    rw [e]
    rcases ha with rfl | rfl | rfl <;> rcases hc with rfl | rfl | rfl <;>
      first | exact absurd rfl hca | simp [ofFlux, Mhd.storeE]
  have z : ct d pin pout (Coord.geom X .cartesian) (Coord.edges X .cartesian) (stageE d false w bcc S none s) wt b =
      ct d pin pout (Coord.geom X .cartesian) (Coord.edges X .cartesian)
        (⟨fun _ => Mhd.electric v B 1, fun _ => Mhd.electric v B 2, fun _ => Mhd.electric v B 3⟩ : EF ℝ) wt b := by
    apply ct_congr hd
    intro c q hc h1 hq
    rw [stageE_const hd hE hF hc h1 hq]
    rcases hc with rfl | rfl | rfl <;> rfl
  rw [z]
  obtain ⟨p1, p2, p3⟩ := b
  simp only [ct, FF.mk.injEq]
  refine ⟨?_, ?_, ?_⟩ <;> funext q
  · rw [ctB1_eq]; simp [EF.line2, EF.line3, Coord.edges]
  · rw [ctB2_eq]; simp [EF.line1, EF.line3, Coord.edges]
  · rw [ctB3_eq]; simp [EF.line1, EF.line2, Coord.edges]

/-! ## Cell-centred field -/

open Coord in
/-- A field that varies linearly between the faces of each direction gives its value at the centre of the volume: with ratio
other than one in all coordinates, with ratio one in directions with a uniform volume element. -/
theorem cell_field {c : Coord.Sys} {X : Coord.XF} {nx2 : ℤ} {rat : ℝ × ℝ × ℝ} {bf : FF ℝ} {kl ku jl ju il iu k j i : ℤ} {a : A4 ℝ}
    (hc : Eos.In kl ku jl ju il iu (k, j, i)) (g : Good c X k j i) {α β : ℕ → ℝ}
    (h1 : rat.1 = 1 → c = .cartesian) (h2 : rat.2.1 = 1 → c ≠ .spherical ∨ nx2 = 1)
    (l1 : ∀ x ∈ [i, i+1], bf.x1f (k, j, x) = α 1 + β 1 * X.x1.xf x)
    (l2 : ∀ x ∈ [j, j+1], bf.x2f (k, x, i) = α 2 + β 2 * X.x2.xf x)
    (l3 : ∀ x ∈ [k, k+1], bf.x3f (x, j, i) = α 3 + β 3 * X.x3.xf x) :
    let b := Eos.cellField (fieldMesh c nx2 X rat) bf kl ku jl ju il iu a
    b (0, k, j, i) = α 1 + β 1 * x1v X c i ∧ b (1, k, j, i) = α 2 + β 2 * x2v X nx2 c j ∧ b (2, k, j, i) = α 3 + β 3 * x3v X k := by
  intro b
  have h := Eos.cellField_val (m := fieldMesh c nx2 X rat) (bf := bf) hc a
  have e : ∀ n, b (n, k, j, i) = Eos.col (Eos.cellField (fieldMesh c nx2 X rat) bf kl ku jl ju il iu a) (k, j, i) n := fun _ => rfl
  have n1 : X.x1.dxf i ≠ 0 := by have := g.l1; rw [g.d1]; linarith
  have n2 : X.x2.dxf j ≠ 0 := by have := g.l2; rw [g.d2]; linarith
  have n3 : X.x3.dxf k ≠ 0 := by have := g.l3; rw [g.d3]; linarith
  have a1 := l1 i (by simp)
  have a2 := l1 (i+1) (by simp)
  have b1 := l2 j (by simp)
  have b2 := l2 (j+1) (by simp)
  have c1 := l3 k (by simp)
  have c2 := l3 (k+1) (by simp)
  have d1 := g.d1
  have d2 := g.d2
  have d3 := g.d3
  simp only [e, h]
  simp only [Function.update_self, Function.update_of_ne (by decide : (0:ℤ) ≠ 1), Function.update_of_ne (by decide : (0:ℤ) ≠ 2),
    Function.update_of_ne (by decide : (1:ℤ) ≠ 2), Eos.faceAve, fieldMesh, decide_eq_true_eq, a1, a2, b1, b2, c1, c2]
  refine ⟨?_, ?_, ?_⟩
  · split
    · rename_i h
      rw [h1 h]
      simp only [x1v, mid]
      ring
    · field_simp
      rw [d1]
      ring
  · split
    · rename_i h
      have : x2v X nx2 c j = mid X.x2 j := by
        rcases h2 h with h | h
        · cases c <;> first | rfl | exact absurd rfl h
        · subst h; cases c <;> simp [x2v]
      rw [this]
      simp only [mid]
      ring
    · field_simp
      rw [d2]
      ring
  · split
    · simp only [x3v, mid]
      ring
    · field_simp
      rw [d3]
      ring

/-- The cell-centred field lies between the values at the two faces, in all coordinates. -/
theorem cell_field_between {c : Coord.Sys} {X : Coord.XF} {nx2 : ℤ} {rat : ℝ × ℝ × ℝ} {bf : FF ℝ} {kl ku jl ju il iu k j i : ℤ} {a : A4 ℝ}
    (hc : Eos.In kl ku jl ju il iu (k, j, i)) (g : Coord.Good c X k j i) :
    let b := Eos.cellField (fieldMesh c nx2 X rat) bf kl ku jl ju il iu a
    b (0, k, j, i) ∈ Set.uIcc (bf.x1f (k, j, i)) (bf.x1f (k, j, i+1)) ∧
    b (1, k, j, i) ∈ Set.uIcc (bf.x2f (k, j, i)) (bf.x2f (k, j+1, i)) ∧
    b (2, k, j, i) ∈ Set.uIcc (bf.x3f (k, j, i)) (bf.x3f (k+1, j, i)) := by
  intro b
  have h := Eos.cellField_val (m := fieldMesh c nx2 X rat) (bf := bf) hc a
  have e : ∀ n, b (n, k, j, i) = Eos.col (Eos.cellField (fieldMesh c nx2 X rat) bf kl ku jl ju il iu a) (k, j, i) n := fun _ => rfl
  obtain ⟨p1, p2, p3, p4, p5, p6⟩ := Coord.centroids_inside g (nx2 := nx2)
  have key : ∀ (uni : Bool) (m : Recon.Line ℝ) (n : ℤ) (l r : ℝ), m.xf n < m.xv n → m.xv n < m.xf (n+1) → m.dxf n = m.xf (n+1) - m.xf n →
      Eos.faceAve uni m n l r ∈ Set.uIcc l r := by
    intro uni m n l r h1 h2 h3
    rw [← segment_eq_uIcc]
    unfold Eos.faceAve
    have hd : 0 < m.dxf n := by linarith
    split
    · exact ⟨1/2, 1/2, by norm_num, by norm_num, by norm_num, rfl⟩
    · refine ⟨_, _, div_nonneg (by linarith) hd.le, div_nonneg (by linarith) hd.le, ?_, rfl⟩
      rw [← add_div, h3]
      rw [div_eq_one_iff_eq (by linarith)]
      ring
  simp only [e, h]
  simp only [Function.update_self, Function.update_of_ne (by decide : (0:ℤ) ≠ 1), Function.update_of_ne (by decide : (0:ℤ) ≠ 2),
    Function.update_of_ne (by decide : (1:ℤ) ≠ 2)]
  exact ⟨key _ _ _ _ _ p1 p2 g.d1, key _ _ _ _ _ p3 p4 g.d2, key _ _ _ _ _ p5 p6 g.d3⟩

open Coord in
/-- Not so with ratio one in cylindrical and spherical coordinates: the radial field of a cell is then the value at the middle,
which is nearer to the axis than the centre of the volume, so that a linear field is not exact unless it is uniform. -/
theorem cell_field_radial {c : Coord.Sys} (hn : c ≠ .cartesian) {X : Coord.XF} {nx2 : ℤ} {rat : ℝ × ℝ × ℝ} {bf : FF ℝ}
    {kl ku jl ju il iu k j i : ℤ} {a : A4 ℝ}
    (hc : Eos.In kl ku jl ju il iu (k, j, i)) (g : Good c X k j i) {α β : ℝ} (h1 : rat.1 = 1)
    (l1 : ∀ x ∈ [i, i+1], bf.x1f (k, j, x) = α + β * X.x1.xf x) :
    let b := Eos.cellField (fieldMesh c nx2 X rat) bf kl ku jl ju il iu a
    b (0, k, j, i) = α + β * rMid X i ∧ rMid X i < x1v X c i ∧ (b (0, k, j, i) = α + β * x1v X c i ↔ β = 0) := by
  intro b
  have h := Eos.cellField_val (m := fieldMesh c nx2 X rat) (bf := bf) hc a
  have e : ∀ n, b (n, k, j, i) = Eos.col (Eos.cellField (fieldMesh c nx2 X rat) bf kl ku jl ju il iu a) (k, j, i) n := fun _ => rfl
  have a1 := l1 i (by simp)
  have a2 := l1 (i+1) (by simp)
  have hb : b (0, k, j, i) = α + β * rMid X i := by
    simp only [e, h]
    simp only [Function.update_self, Function.update_of_ne (by decide : (0:ℤ) ≠ 1), Function.update_of_ne (by decide : (0:ℤ) ≠ 2),
      Eos.faceAve, fieldMesh, decide_eq_true_eq, a1, a2, h1, if_true, rMid]
    ring
  have hm : rMid X i < x1v X c i := by
    have r0 := g.r0 hn
    have r1 := g.l1
    unfold rMid
    cases c
    · exact absurd rfl hn
    · simp only [x1v, cyl1]
      generalize X.x1.xf i = p at r0 r1
      generalize X.x1.xf (i+1) = q at r0 r1
      rw [lt_div_iff₀ (by nlinarith)]
      nlinarith [pow_pos (sub_pos.mpr r1) 3]
    · simp only [x1v]
      generalize X.x1.xf i = p at r0 r1
      generalize X.x1.xf (i+1) = q at r0 r1
      rw [lt_div_iff₀ (sub_pos.mpr (pow_lt_pow_left₀ r1 r0 (by norm_num)))]
      have : 0 < (q - p) ^ 3 * (p + q) := mul_pos (pow_pos (sub_pos.mpr r1) 3) (by linarith)
      nlinarith
  refine ⟨hb, hm, ?_⟩
  rw [hb]
  constructor
  · intro h
    have : β * (x1v X c i - rMid X i) = 0 := by linarith
    exact (mul_eq_zero.mp this).resolve_right (by linarith)
  · rintro rfl; ring

/-! ## Cases -/

/-- Blocks of one, two and three dimensions. -/
example : (⟨2, 8, 1, 1⟩ : Dims).Pos ∧ (⟨2, 8, 4, 1⟩ : Dims).Pos ∧ (⟨2, 8, 4, 4⟩ : Dims).Pos :=
  ⟨⟨by decide, by decide, by decide, by decide, by decide⟩, ⟨by decide, by decide, by decide, by decide, by decide⟩,
    ⟨by decide, by decide, by decide, by decide, by decide⟩⟩

/-- Density, velocities and fields that vary in one direction. -/
def exW : A4 ℝ := fun (n, _, _, i) => if n = 1 then (if i < 4 then 1 else 2) else if n = 2 then 3 else 1
@[inherit_doc exW] def exB : A4 ℝ := fun (n, _, _, i) => if n = 0 then 1 else if i < 4 then 2 else 5

/-- A jump between the two states with an electric field between those of the two sides; across the other directions the
exact one. -/
noncomputable def exS : ℕ → ℤ → ℤ → ℤ → Solved := fun a k j i =>
  if a = 1 then ⟨i, -i, 1⟩
  else if a = 2 then ⟨cellElectric false exW exB 1 (k, j, i), cellElectric false exW exB 3 (k, j, i), 1/2⟩
  else ⟨cellElectric false exW exB 2 (k, j, i), cellElectric false exW exB 1 (k, j, i), 1/2⟩

theorem exPlanar : Planar 1 false exW exB exS where
  cells := by
    rintro n ⟨k, j, i⟩ ⟨k', j', i'⟩ h
    have : i = i' := h
    subst this
    exact ⟨rfl, rfl⟩
  faces := by
    rintro b ⟨k, j, i⟩ ⟨k', j', i'⟩ h
    have : i = i' := h
    subst this
    rfl
  across := by
    rintro b c ⟨k, j, i⟩ hb hc h1 h2
    rcases hb with rfl | rfl | rfl <;> rcases hc with rfl | rfl | rfl <;>
      first | exact absurd rfl h1 | exact absurd rfl h2 | rfl

/-- The hypotheses of `planar_ct` hold in three dimensions, and there the field changes: the electric field differs between the
two faces of a cell. -/
example : (⟨2, 8, 4, 4⟩ : Dims).Has 1 ∧ Planar 1 false exW exB exS ∧ faceE exS 3 1 (2, 2, 4) - faceE exS 3 1 (2, 2, 3) = 1 :=
  ⟨Or.inl rfl, exPlanar, by simp [faceE, exS]; norm_num⟩

/-- The hypotheses of `uniform_flow`. -/
example : Mhd.Consistent (.adiabatic 2) (Mhd.hlle (.adiabatic 2)) ∧
    (∀ a, (a = 1 ∨ a = 2 ∨ a = 3) → Mhd.Ok (.adiabatic 2) (Mhd.load (.adiabatic 2) a (Mhd.stateArr (.adiabatic 2) a (fun n => n + 1) (fun n => n)))) ∧
    Mhd.electric (fun n => n + 1) (fun n => n) 1 = -1 := by
  refine ⟨Mhd.hlle_consistent _, ?_, by simp [Mhd.electric]; norm_num⟩
  intro a ha
  rcases ha with rfl | rfl | rfl <;> simp [Mhd.Ok, Mhd.load, Mhd.stateArr, Mhd.iby] <;> norm_num

/-- The hypotheses of `frozen_field`: gas that moves along a field that varies. -/
example : ∀ c (q : ℤ × ℤ × ℤ), (c = 1 ∨ c = 2 ∨ c = 3) →
    cellElectric false (fun (n, _, _, i) => 2 * (n * i)) (fun (n, _, _, i) => (n + 1) * i) c q = 0 := by
  rintro c ⟨k, j, i⟩ hc
  rcases hc with rfl | rfl | rfl <;> simp [cellElectric] <;> ring

/-- The hypotheses of `cell_field_radial`, and those of `cell_field` with another ratio. -/
example : Coord.Good .cylindrical Coord.exX 0 2 2 ∧ Coord.Good .spherical Coord.exX 0 2 2 ∧
    ((1.1 : ℝ) = 1 → Coord.Sys.spherical = .cartesian) ∧ Eos.In 0 0 2 5 2 5 (0, 2, 2) :=
  ⟨Coord.exX_good _ _ _ _ (by decide) (by decide) (by decide) (by decide) (by decide) (by decide),
    Coord.exX_good _ _ _ _ (by decide) (by decide) (by decide) (by decide) (by decide) (by decide), fun h => by norm_num at h, by unfold Eos.In; decide⟩

end Verif.Grid
