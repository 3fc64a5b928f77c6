import Verif.Lemmas.OrbitalRemap
import Verif.Props.CT
import Verif.Spec.Coord
import Verif.Props.Coord

/-!
# Orbital advection (C71)

Blocks of a ring are numbered along the orbital direction; a ring of `N` blocks has `u (b + N) = u b`.
`P` and `Q` are the two arrays of an exchange (conserved variables and scalars; the two components of the
magnetic field); `first`, `old0`, `old1`, `s` are the order of arrival of the messages and the old contents
of all buffers.
-/
namespace Verif.Orbital
open Verif.Arr Verif.Grid

/-! ## Cell-centred variables -/

section
variable {K : Type} [Field K] [LinearOrder K] [IsStrictOrderedRing K] [FloorRing K]

/-- Offsets of displacements below `onx - xgh` cells fit into the buffers. -/
theorem offsets_fit {P : Part K} {olen : ℤ × ℤ → K} {dx : K} (h : Short P olen dx) : P.Fits := by
  obtain ⟨hdx, h0, h1, h2⟩ := h
  refine ⟨h0, h1, fun a i a0 a1 i0 i1 => ?_⟩
  obtain ⟨h3, h4⟩ := h2 a i a0 a1 i0 i1
  rw [abs_lt] at h4
  have u : olen (a, i) / dx < ((P.r.onx - P.r.xgh : ℤ) : K) := by rw [div_lt_iff₀ hdx]; linarith
  have l : -((P.r.onx - P.r.xgh : ℤ) : K) < olen (a, i) / dx := by rw [lt_div_iff₀ hdx]; linarith
  have pos : 0 < P.r.onx - P.r.xgh := by
    have : (0 : K) < dx * ((P.r.onx - P.r.xgh : ℤ) : K) := by linarith
    have : (0 : K) < ((P.r.onx - P.r.xgh : ℤ) : K) := by
      by_contra h; nlinarith [not_lt.1 h]
    exact_mod_cast this
  rcases lt_or_ge 0 (olen (a, i)) with ho | ho
  · obtain ⟨e, -, hp⟩ := off_pos hdx ho
    rw [← h3] at e hp
    have : ⌊olen (a, i) / dx⌋ < P.r.onx - P.r.xgh := Int.floor_lt.2 u
    omega
  · obtain ⟨e, -, hp⟩ := off_neg hdx ho
    rw [← h3] at e hp
    have : -(P.r.onx - P.r.xgh) < ⌈olen (a, i) / dx⌉ := Int.lt_ceil.2 (by push_cast at l ⊢; linarith)
    omega

variable {P Q : Part K} {olen : ℤ × ℤ → K} {dx : K} {eps : ℤ × ℤ → K} {ppm : Bool} {n a i o : ℤ}

theorem advect_moved (h : Short P olen dx) (hr : P.r.Has n a i) (heps : eps (a, i) = epsilon (olen (a, i)) dx)
    (hg : (if ppm then 2 else 1) ≤ P.r.xgh) (h0 : P.r.os ≤ o) (h1 : o ≤ P.r.oe)
    (first : Bool) (old0 old1 : ℕ → K) (b : ℤ) (s : Buf K × Buf K) (u : Var K) :
    calcCC ppm P.r P.off eps (fill P Q ownCC first old0 old1 b s).1 u (n, a, o, i) =
      moved ppm (olen (a, i)) dx (P.cell n a i) (b * P.r.onx + (o - P.r.os)) := by
  apply calc_row ppm P.r P.off eps _ u (P.cell n a i) hr h0 h1
    (h.2.2.2 a i hr.2.1.1 hr.2.1.2 hr.2.2.1 hr.2.2.2).1 heps hg
  intro y y0 y1
  rw [fillCC_fst (offsets_fit h) first old0 old1 b s hr y0 y1]
  congr 1; ring

/-- The second array of the exchange, the scalars, is treated in the same way. -/
theorem advect_moved_snd {Q : Part K} (h : Short Q olen dx) (hr : Q.r.Has n a i) (heps : eps (a, i) = epsilon (olen (a, i)) dx)
    (hg : (if ppm then 2 else 1) ≤ Q.r.xgh) (h0 : Q.r.os ≤ o) (h1 : o ≤ Q.r.oe)
    (first : Bool) (old0 old1 : ℕ → K) (b : ℤ) (s : Buf K × Buf K) (u : Var K) :
    calcCC ppm Q.r Q.off eps (fill P Q ownCC first old0 old1 b s).2 u (n, a, o, i) =
      moved ppm (olen (a, i)) dx (Q.cell n a i) (b * Q.r.onx + (o - Q.r.os)) := by
  apply calc_row ppm Q.r Q.off eps _ u (Q.cell n a i) hr h0 h1
    (h.2.2.2 a i hr.2.1.1 hr.2.1.2 hr.2.2.1 hr.2.2.2).1 heps hg
  intro y y0 y1
  rw [fillCC_snd (offsets_fit h) first old0 old1 b s hr y0 y1]
  congr 1; ring
end

theorem moved_profile (ppm : Bool) (U : ℤ → ℝ) {olen dx : ℝ} (hdx : 0 < dx) (c : ℤ) :
    moved ppm olen dx U c = displaced (profile ppm U) (olen / dx) c := by
  cases ppm
  · exact moved_linear U hdx c
  · exact moved_parabolic U hdx c

/-- **The rows are displaced by `olen`.** Orbital advection replaces every cell by the mean over the cell of
the reconstructed profile of the whole ring, displaced by `olen / dx` cells: whatever the order of the
messages, the sign of the displacement, the number of blocks it reaches across, and the old contents of the
buffers. -/
theorem orbital_displaces {P Q : Part ℝ} {olen : ℤ × ℤ → ℝ} {dx : ℝ} {eps : ℤ × ℤ → ℝ} {ppm : Bool} {n a i o : ℤ}
    (h : Short P olen dx) (hr : P.r.Has n a i) (heps : eps (a, i) = epsilon (olen (a, i)) dx)
    (hg : (if ppm then 2 else 1) ≤ P.r.xgh) (h0 : P.r.os ≤ o) (h1 : o ≤ P.r.oe)
    (first : Bool) (old0 old1 : ℕ → ℝ) (b : ℤ) (s : Buf ℝ × Buf ℝ) (u : Var ℝ) :
    calcCC ppm P.r P.off eps (fill P Q ownCC first old0 old1 b s).1 u (n, a, o, i) =
      displaced (profile ppm (P.cell n a i)) (olen (a, i) / dx) (b * P.r.onx + (o - P.r.os)) := by
  rw [advect_moved h hr heps hg h0 h1, moved_profile ppm _ h.1]

@[inherit_doc orbital_displaces] theorem orbital_displaces_scalars {P Q : Part ℝ} {olen : ℤ × ℤ → ℝ} {dx : ℝ}
    {eps : ℤ × ℤ → ℝ} {ppm : Bool} {n a i o : ℤ}
    (h : Short Q olen dx) (hr : Q.r.Has n a i) (heps : eps (a, i) = epsilon (olen (a, i)) dx)
    (hg : (if ppm then 2 else 1) ≤ Q.r.xgh) (h0 : Q.r.os ≤ o) (h1 : o ≤ Q.r.oe)
    (first : Bool) (old0 old1 : ℕ → ℝ) (b : ℤ) (s : Buf ℝ × Buf ℝ) (u : Var ℝ) :
    calcCC ppm Q.r Q.off eps (fill P Q ownCC first old0 old1 b s).2 u (n, a, o, i) =
      displaced (profile ppm (Q.cell n a i)) (olen (a, i) / dx) (b * Q.r.onx + (o - Q.r.os)) := by
  rw [advect_moved_snd h hr heps hg h0 h1, moved_profile ppm _ h.1]

section
variable {K : Type} [Field K] [LinearOrder K] [IsStrictOrderedRing K] [FloorRing K]
variable {P Q : Part K} {olen : ℤ × ℤ → K} {dx : K} {eps : ℤ × ℤ → K} {ppm : Bool} {n a i o : ℤ}

/-- **A displacement by whole cells copies the cells.** -/
theorem orbital_whole_cells (h : Short P olen dx) (hr : P.r.Has n a i) (heps : eps (a, i) = epsilon (olen (a, i)) dx)
    (hg : (if ppm then 2 else 1) ≤ P.r.xgh) (h0 : P.r.os ≤ o) (h1 : o ≤ P.r.oe)
    (first : Bool) (old0 old1 : ℕ → K) (b : ℤ) (s : Buf K × Buf K) (u : Var K)
    (m : ℤ) (hm : olen (a, i) = m * dx) :
    calcCC ppm P.r P.off eps (fill P Q ownCC first old0 old1 b s).1 u (n, a, o, i) =
      P.cell n a i (b * P.r.onx + (o - P.r.os) - m) := by
  rw [advect_moved h hr heps hg h0 h1]
  have e : olen (a, i) / dx = m := by rw [hm, mul_div_cancel_right₀ _ h.1.ne']
  cases ppm
  · rw [moved_pieces (plm_pieces _) h.1, e, Int.floor_intCast, Int.fract_intCast]
    ring
  · rw [moved_pieces (ppm_pieces _) h.1, e, Int.floor_intCast, Int.fract_intCast]
    ring

/-- **Linear profiles are displaced exactly** by both methods, wherever the stencil sees a linear profile. -/
theorem orbital_linear_profile (h : Short P olen dx) (hr : P.r.Has n a i) (heps : eps (a, i) = epsilon (olen (a, i)) dx)
    (hg : (if ppm then 2 else 1) ≤ P.r.xgh) (h0 : P.r.os ≤ o) (h1 : o ≤ P.r.oe)
    (first : Bool) (old0 old1 : ℕ → K) (b : ℤ) (s : Buf K × Buf K) (u : Var K) (p q : K)
    (hl : ∀ c : ℤ, |(c : K) - ((b * P.r.onx + (o - P.r.os) : ℤ) : K) + olen (a, i) / dx| < 4 → P.cell n a i c = p + q * c) :
    calcCC ppm P.r P.off eps (fill P Q ownCC first old0 old1 b s).1 u (n, a, o, i) =
      p + q * (((b * P.r.onx + (o - P.r.os) : ℤ) : K) - olen (a, i) / dx) := by
  rw [advect_moved h hr heps hg h0 h1]
  set c := b * P.r.onx + (o - P.r.os)
  set U := P.cell n a i
  set d := olen (a, i) / dx with hd
  have f0 := Int.floor_le d
  have f1 := Int.lt_floor_add_one d
  have fr : Int.fract d = d - ⌊d⌋ := rfl
  have hv : ∀ t : ℤ, -3 ≤ t → t ≤ 2 → U (c - ⌊d⌋ + t) = p + q * ((c : K) - ⌊d⌋ + t) := by
    intro t t0 t1
    have t0' : (-3 : K) ≤ t := by exact_mod_cast t0
    have t1' : (t : K) ≤ 2 := by exact_mod_cast t1
    rw [hl]
    · push_cast; ring
    · push_cast
      rw [abs_lt]; constructor <;> linarith
  have v0 := hv 0 (by norm_num) (by norm_num)
  have v1 := hv 1 (by norm_num) (by norm_num)
  have v2 := hv 2 (by norm_num) (by norm_num)
  have m1 := hv (-1) (by norm_num) (by norm_num)
  have m2 := hv (-2) (by norm_num) (by norm_num)
  have m3 := hv (-3) (by norm_num) (by norm_num)
  simp only [Int.cast_zero, Int.cast_one, Int.cast_neg, Int.cast_ofNat, add_zero] at v0 v1 v2 m1 m2 m3
  have e1 : c - ⌊d⌋ - 1 = c - ⌊d⌋ + -1 := by ring
  set z := c - ⌊d⌋
  cases ppm
  · rw [moved_pieces (plm_pieces U) h.1, ← hd]
    dsimp only
    have i1 : z - 1 - 1 = z + -2 := by ring
    have i2 : z - 1 + 1 = z := by ring
    have i3 : z - 1 = z + -1 := by ring
    rw [show c - ⌊d⌋ = z from rfl, i1, i2, i3, v0, v1, m1, m2, fr]
    set w := (c : K) - ⌊d⌋ with hw
    have s1 : p + q * (w + -1) - (p + q * (w + -2)) = q := by ring
    have s2 : p + q * w - (p + q * (w + -1)) = q := by ring
    have s3 : p + q * (w + 1) - (p + q * w) = q := by ring
    rw [s1, s2, s3]
    have sl : (if q * q ≤ 0 then 0 else 2 * (q * q) / (q + q)) = q := by
      by_cases hq : q = 0
      · rw [hq]; simp
      · have : 0 < q * q := mul_self_pos.2 hq
        rw [if_neg (by linarith)]
        field_simp; ring
    rw [sl, hw]
    ring
  · rw [moved_pieces (ppm_pieces U) h.1, ← hd]
    have E0 := ppmCell_linear U z p q ((c : K) - ⌊d⌋) (by rw [show z - 2 = z + -2 by ring, m2]; ring) (by rw [show z - 1 = z + -1 by ring, m1]; ring) v0 v1 v2
    have E1 := ppmCell_linear U (z - 1) p q ((c : K) - ⌊d⌋ - 1) (by rw [show z - 1 - 2 = z + -3 by ring, m3]; ring)
      (by rw [show z - 1 - 1 = z + -2 by ring, m2]; ring) (by rw [show z - 1 = z + -1 by ring, m1]; ring)
      (by rw [show z - 1 + 1 = z by ring, v0]; ring) (by rw [show z - 1 + 2 = z + 1 by ring, v1]; ring)
    dsimp only
    rw [show c - ⌊d⌋ = z from rfl, E0, E1, v0, show z - 1 = z + -1 by ring, m1, fr]
    ring

/-- **No new extrema with the second order method**: the new value lies between the two cells that the
displaced cell overlaps. In particular densities and scalars stay positive. -/
theorem orbital_plm_between (h : Short P olen dx) (hr : P.r.Has n a i) (heps : eps (a, i) = epsilon (olen (a, i)) dx)
    (hg : 1 ≤ P.r.xgh) (h0 : P.r.os ≤ o) (h1 : o ≤ P.r.oe)
    (first : Bool) (old0 old1 : ℕ → K) (b : ℤ) (s : Buf K × Buf K) (u : Var K) :
    let new := calcCC false P.r P.off eps (fill P Q ownCC first old0 old1 b s).1 u (n, a, o, i)
    let c := b * P.r.onx + (o - P.r.os) - ⌊olen (a, i) / dx⌋
    min (P.cell n a i (c - 1)) (P.cell n a i c) ≤ new ∧ new ≤ max (P.cell n a i (c - 1)) (P.cell n a i c) := by
  intro new c
  have e : new = _ := advect_moved (ppm := false) h hr heps (by simpa using hg) h0 h1 first old0 old1 b s u
  rw [e]
  exact moved_between (P.cell n a i) h.1 _

/-- **Orbital advection is conservative**: the total over a ring of `N` blocks, row by row. -/
theorem orbital_conserves (h : Short P olen dx) (hr : P.r.Has n a i) (heps : eps (a, i) = epsilon (olen (a, i)) dx)
    (hg : (if ppm then 2 else 1) ≤ P.r.xgh) (N : ℕ) (hN : ∀ b, P.u (b + N) = P.u b)
    (first : ℤ → Bool) (old0 old1 : ℤ → ℕ → K) (s : ℤ → Buf K × Buf K) :
    ∑ b ∈ Finset.range N, ∑ t ∈ Finset.range P.r.onx.toNat,
      calcCC ppm P.r P.off eps (fill P Q ownCC (first b) (old0 b) (old1 b) b (s b)).1 (P.u b) (n, a, P.r.os + t, i) =
    ∑ b ∈ Finset.range N, ∑ t ∈ Finset.range P.r.onx.toNat, P.u b (n, a, P.r.os + t, i) := by
  have pos := h.2.1
  obtain ⟨nx, hnx⟩ : ∃ nx : ℕ, P.r.onx = nx := ⟨P.r.onx.toNat, by omega⟩
  have hn0 : 0 < (nx : ℤ) := by omega
  rw [hnx, Int.toNat_natCast]
  have e1 : ∀ b ∈ Finset.range N, ∀ t ∈ Finset.range nx,
      calcCC ppm P.r P.off eps (fill P Q ownCC (first b) (old0 b) (old1 b) b (s b)).1 (P.u b) (n, a, P.r.os + t, i) =
      moved ppm (olen (a, i)) dx (P.cell n a i) ((b : ℤ) * nx + t) := by
    intro b _ t ht
    have ht' := Finset.mem_range.1 ht
    rw [advect_moved h hr heps hg (by omega) (by unfold Rows.oe; omega), hnx]
    congr 1; ring
  have e2 : ∀ b ∈ Finset.range N, ∀ t ∈ Finset.range nx, P.u b (n, a, P.r.os + t, i) = P.cell n a i ((b : ℤ) * nx + t) := by
    intro b _ t ht
    have ht' := Finset.mem_range.1 ht
    unfold Part.cell
    rw [hnx, show ((b : ℤ) * nx + t) / nx = b by
        rw [add_comm, Int.add_mul_ediv_right _ _ (by omega), Int.ediv_eq_zero_of_lt (by omega) (by omega), zero_add],
      show ((b : ℤ) * nx + t) % nx = t by
        rw [add_comm, Int.add_mul_emod_self_right, Int.emod_eq_of_lt (by omega) (by omega)]]
  rw [Finset.sum_congr rfl fun b hb => Finset.sum_congr rfl (e1 b hb), Finset.sum_congr rfl fun b hb => Finset.sum_congr rfl (e2 b hb),
    sum_blocks, sum_blocks]
  apply sum_moved
  intro c
  unfold Part.cell
  rw [hnx]
  push_cast
  rw [Int.add_mul_ediv_right _ _ (by omega), Int.add_mul_emod_self_right, hN]
end

/-! ## A concrete ring

One block that is its own neighbour on both sides, eight cells, one row. -/

/-- A ring of one block with the values `v`. -/
def ringOf {K : Type} [Zero K] (v : List K) (xgh off : ℤ) : Part K where
  r := { os := 2, onx := v.length, xgh := xgh, a0 := 0, a1 := 0, i0 := 2, i1 := 2, nv := 1 }
  off := fun _ => off
  u := fun _ x => v.getD ((x.2.2.1 - 2) % v.length).toNat 0

example : Short (ringOf ([6, 2, 0, 0, 2, 6, 7, 7] : List ℚ) 2 (offset (5/2 : ℚ) 1)) (fun _ => 5/2) 1 :=
  ⟨by norm_num, by decide, by decide, fun _ _ _ _ _ _ => ⟨rfl, by
    show |(5/2 : ℚ)| < 1 * ((8 - 2 : ℤ) : ℚ)
    norm_num [abs_of_pos]⟩⟩
example : (ringOf ([6, 2, 0, 0, 2, 6, 7, 7] : List ℚ) 2 3).r.Has 0 0 2 ∧
    ∀ b : ℤ, (ringOf ([6, 2, 0, 0, 2, 6, 7, 7] : List ℚ) 2 3).u (b + 1) = (ringOf ([6, 2, 0, 0, 2, 6, 7, 7] : List ℚ) 2 3).u b :=
  ⟨by simp [Rows.Has, ringOf], fun _ => rfl⟩
example : Short (ringOf ([6, 2, 0, 0, 2, 6, 7, 7] : List ℝ) 1 (offset (-3 : ℝ) 2)) (fun _ => -3) 2 :=
  ⟨by norm_num, by decide, by decide, fun _ _ _ _ _ _ => ⟨rfl, by
    show |(-3 : ℝ)| < 2 * ((8 - 1 : ℤ) : ℝ)
    norm_num [abs_of_neg]⟩⟩
/-- Data that are linear over the stencil of one cell. -/
example : ∀ c : ℤ, |(c : ℚ) - ((0 * 10 + (7 - 2) : ℤ) : ℚ) + (1/2) / 1| < 4 →
    (ringOf ([1, 2, 3, 4, 5, 6, 7, 8, 9, 10] : List ℚ) 2 1).cell 0 0 2 c = 1 + 1 * c := by
  intro c hc
  rw [abs_lt] at hc
  have l : ((0 : ℤ) : ℚ) < c := by push_cast at hc ⊢; linarith [hc.1]
  have r : (c : ℚ) < ((9 : ℤ) : ℚ) := by push_cast at hc ⊢; linarith [hc.2]
  have l' : 0 < c := by exact_mod_cast l
  have r' : c < 9 := by exact_mod_cast r
  clear l r hc
  interval_cases c <;> decide +kernel

/-- **The third order method can make positive data negative**: a row of densities with values between 1/100 and 8,
displaced by half a cell. The corresponding statement to `orbital_plm_between` is false for `xorder = 3`. -/
theorem orbital_ppm_negative : ∃ (P : Part ℚ) (olen : ℤ × ℤ → ℚ) (u : Var ℚ) (s : Buf ℚ × Buf ℚ),
    Short P olen 1 ∧ (∀ b x, 0 < P.u b x) ∧ P.r.Has 0 0 2 ∧
    calcCC true P.r P.off (fun x => epsilon (olen x) 1) (fill P P ownCC true (fun _ => 0) (fun _ => 0) 0 s).1 u (0, 0, 5, 2) < 0 := by
  refine ⟨ringOf [6, 2, 1/100, 1/100, 2, 6, 8, 8] 2 (offset (1/2 : ℚ) 1), fun _ => 1/2, fun _ => 0, (fun _ => 0, fun _ => 0), ?_, ?_, by simp [Rows.Has, ringOf], ?_⟩
  · refine ⟨by norm_num, by decide, by decide, fun _ _ _ _ _ _ => ⟨rfl, ?_⟩⟩
    show |(1/2 : ℚ)| < 1 * ((8 - 2 : ℤ) : ℚ)
    norm_num [abs_of_pos]
  · intro b x
    show (0 : ℚ) < List.getD [6, 2, 1/100, 1/100, 2, 6, 8, 8] ((x.2.2.1 - 2) % (8 : ℤ)).toNat 0
    have h0 : 0 ≤ (x.2.2.1 - 2) % (8 : ℤ) := Int.emod_nonneg _ (by norm_num)
    have h1 : (x.2.2.1 - 2) % (8 : ℤ) < 8 := Int.emod_lt_of_pos _ (by norm_num)
    generalize (x.2.2.1 - 2) % (8 : ℤ) = y at h0 h1
    interval_cases y <;> decide +kernel
  · decide +kernel

/-! ## Messages -/

section
variable {K : Type} {P Q : Part K}

/-- **Messages have the announced length** (cell-centred variables): the number of values loaded is the number
computed by `SetOrbitalEdgeCC`, and the receiver reads exactly that many, so that the comparison of both
(bvals_orbital.cpp:599-604, 703-709) never reports an error. -/
theorem orbital_message_cc (hr : Q.r = { P.r with nv := Q.r.nv }) (ho : Q.off = P.off) (hp : 0 ≤ P.r.nv) (hq : 0 ≤ Q.r.nv)
    (b : ℤ) (old : ℕ → K) (s : Buf K × Buf K) :
    ((msgUp P Q b).length : ℤ) = (P.r.nv + Q.r.nv) * countUp P.r P.off 0 ∧
    (receive (setUp P.r P.off) (setUp Q.r Q.off) (recv (msgUp P Q b) old) s).2 = (msgUp P Q b).length ∧
    ((msgDown P Q b).length : ℤ) = (P.r.nv + Q.r.nv) * countDown P.r P.off 0 ∧
    (receive (setDown P.r P.off) (setDown Q.r Q.off) (recv (msgDown P Q b) old) s).2 = (msgDown P Q b).length := by
  refine ⟨?_, (receiveUp P Q b old s).1, ?_, (receiveDown P Q b old s).1⟩
  · rw [msgUp_eq, List.length_append, List.length_map, List.length_map, Nat.cast_add, upCells_length _ _ hp, upCells_length _ _ hq,
      ho, show countUp Q.r P.off = countUp P.r P.off by rw [hr]; rfl]
    ring
  · rw [msgDown_eq, List.length_append, List.length_map, List.length_map, Nat.cast_add, dnCells_length _ _ hp, dnCells_length _ _ hq,
      ho, show countDown Q.r P.off = countDown P.r P.off by rw [hr]; rfl]
    ring

/-- The same for the magnetic field: the two components have different rows and offsets. -/
theorem orbital_message_fc (hp : P.r.nv = 1) (hq : Q.r.nv = 1) (b : ℤ) (old : ℕ → K) (s : Buf K × Buf K) :
    ((msgUp P Q b).length : ℤ) = countUp Q.r Q.off (countUp P.r P.off 0) ∧
    (receive (setUp P.r P.off) (setUp Q.r Q.off) (recv (msgUp P Q b) old) s).2 = (msgUp P Q b).length ∧
    ((msgDown P Q b).length : ℤ) = countDown Q.r Q.off (countDown P.r P.off 0) ∧
    (receive (setDown P.r P.off) (setDown Q.r Q.off) (recv (msgDown P Q b) old) s).2 = (msgDown P Q b).length := by
  refine ⟨?_, (receiveUp P Q b old s).1, ?_, (receiveDown P Q b old s).1⟩
  · rw [msgUp_eq, List.length_append, List.length_map, List.length_map, Nat.cast_add, upCells_length _ _ (by omega),
      upCells_length _ _ (by omega), hp, hq, countUp_add Q.r Q.off (countUp P.r P.off 0)]
    ring
  · rw [msgDown_eq, List.length_append, List.length_map, List.length_map, Nat.cast_add, dnCells_length _ _ (by omega),
      dnCells_length _ _ (by omega), hp, hq, countDown_add Q.r Q.off (countDown P.r P.off 0)]
    ring

/-- **Messages fit into the allocated buffers** (`InitBoundaryData`, bvals_orbital.cpp:184-214: one block length
per row and variable) when the offsets fit. -/
theorem orbital_message_fits (hP : P.Fits) (ha : P.r.a0 ≤ P.r.a1 + 1) (hi : P.r.i0 ≤ P.r.i1 + 1) :
    countUp P.r P.off 0 ≤ (P.r.a1 + 1 - P.r.a0) * (P.r.i1 + 1 - P.r.i0) * P.r.onx ∧
    countDown P.r P.off 0 ≤ (P.r.a1 + 1 - P.r.a0) * (P.r.i1 + 1 - P.r.i0) * P.r.onx := by
  constructor
  · apply count_le P.r (fun a i => max (P.off (a, i) + P.r.xgh) 0) ha hi
    intro a i a0 a1 i0 i1
    have := hP.2.2 a i a0 a1 i0 i1
    have := hP.1
    omega
  · apply count_le P.r (fun a i => max (1 + P.r.xgh - P.off (a, i)) 0) ha hi
    intro a i a0 a1 i0 i1
    have := hP.2.2 a i a0 a1 i0 i1
    have := hP.1
    omega

example : (ringOf ([6, 2, 0, 0, 2, 6, 7, 7] : List ℚ) 2 3).Fits := ⟨by decide, by decide, fun _ _ _ _ _ _ => ⟨by show (2 : ℤ) - 8 < 3; decide, by show (3 : ℤ) ≤ 8 - 2; decide⟩⟩
end

/-! ## The limit of the time step -/

section
variable {K : Type} [Field K] [LinearOrder K] [IsStrictOrderedRing K]

/-- **Steps below the limit move the rows by less than `onx - xgh` cells**, in both directions. -/
theorem orbital_limit {dx dt vmax vmin v : K} {onx xgh : ℤ} (hdx : 0 < dx) (hx : xgh < onx) (hdt : 0 ≤ dt)
    (h0 : vmin ≤ v) (h1 : v ≤ vmax) (hl : ∀ t, limitDt dx onx xgh vmax vmin = some t → dt < t) :
    |dt * v| < dx * ((onx - xgh : ℤ) : K) := by
  have hn : (0 : K) < ((onx - xgh : ℤ) : K) := by exact_mod_cast (by omega : 0 < onx - xgh)
  have hL : 0 < dx * ((onx - xgh : ℤ) : K) := mul_pos hdx hn
  unfold limitDt at hl
  set L := dx * ((onx - xgh : ℤ) : K) with hLd
  have hneg : -dx * ((onx - xgh : ℤ) : K) = -L := by rw [hLd]; ring
  have up : 0 < vmax → dt < L / vmax := by
    intro hv
    by_cases hm : vmin < 0
    · have := hl _ (by simp only [gt_iff_lt, if_pos hv, if_pos hm]; rfl)
      exact lt_of_lt_of_le this (min_le_left _ _)
    · exact hl _ (by simp only [gt_iff_lt, if_pos hv, if_neg hm])
  have dn : vmin < 0 → dt < -L / vmin := by
    intro hm
    by_cases hv : 0 < vmax
    · have := hl _ (by simp only [gt_iff_lt, if_pos hv, if_pos hm]; rfl)
      rw [hneg] at this
      exact lt_of_lt_of_le this (min_le_right _ _)
    · have := hl _ (by simp only [gt_iff_lt, if_neg hv, if_pos hm]; rfl)
      rwa [hneg] at this
  rw [abs_lt]
  constructor
  · by_cases hm : vmin < 0
    · have h := dn hm
      rw [lt_div_iff_of_neg hm] at h
      have := mul_le_mul_of_nonneg_left h0 hdt
      linarith
    · have : 0 ≤ dt * v := mul_nonneg hdt (by linarith [not_lt.1 hm])
      linarith
  · by_cases hv : 0 < vmax
    · have h := up hv
      rw [lt_div_iff₀ hv] at h
      have := mul_le_mul_of_nonneg_left h1 hdt
      linarith
    · have : dt * v ≤ 0 := mul_nonpos_of_nonneg_of_nonpos hdt (by linarith [not_lt.1 hv])
      linarith

example : limitDt (1/2 : ℚ) 8 2 3 (-4) = some (3/4) := by norm_num [limitDt]

/-- **At the limit the messages are too long.** With the time step equal to the limit, which
`Hydro::NewBlockTimeStep` allows (the limit is not multiplied by the CFL number, new_blockdt.cpp:205-208), a
row with the greatest velocity has the offset `onx - xgh + 1`: one more than fits. If all rows move with that
velocity, the message is longer than the allocated buffer. -/
theorem orbital_limit_reached [FloorRing K] {P : Part K} {dx v t : K} (hdx : 0 < dx) (hv : 0 < v) (hx : P.r.xgh < P.r.onx)
    (hx0 : 0 ≤ P.r.xgh)
    (ha : P.r.a0 ≤ P.r.a1) (hi : P.r.i0 ≤ P.r.i1) (ht : limitDt dx P.r.onx P.r.xgh v 0 = some t)
    (hoff : ∀ a i, P.off (a, i) = offset (t * v) dx) :
    (∀ a i, P.off (a, i) = P.r.onx - P.r.xgh + 1) ∧ ¬ P.Fits ∧
    (P.r.a1 + 1 - P.r.a0) * (P.r.i1 + 1 - P.r.i0) * P.r.onx < countUp P.r P.off 0 := by
  have e : t * v = ((P.r.onx - P.r.xgh : ℤ) : K) * dx := by
    unfold limitDt at ht
    simp only [gt_iff_lt, if_pos hv, lt_irrefl, if_false, Option.some.injEq] at ht
    rw [← ht, div_mul_cancel₀ _ hv.ne']; ring
  have hn : (0 : K) < ((P.r.onx - P.r.xgh : ℤ) : K) := by exact_mod_cast (by omega : 0 < P.r.onx - P.r.xgh)
  have o1 : ∀ a i, P.off (a, i) = P.r.onx - P.r.xgh + 1 := by
    intro a i
    rw [hoff, e, (off_pos hdx (mul_pos hn hdx)).1, mul_div_cancel_right₀ _ hdx.ne', Int.floor_intCast]
  refine ⟨o1, ?_, ?_⟩
  · intro h
    have := h.2.2 P.r.a0 P.r.i0 (by omega) ha (by omega) hi
    rw [o1] at this
    omega
  · have : countUp P.r P.off 0 = (P.r.a1 + 1 - P.r.a0) * (P.r.i1 + 1 - P.r.i0) * (P.r.onx + 1) := by
      apply count_eq P.r (fun a i => max (P.off (a, i) + P.r.xgh) 0) (by omega) (by omega)
      intro a i
      rw [o1]
      omega
    rw [this]
    apply mul_lt_mul_of_pos_left (by omega)
    apply mul_pos <;> omega

example : (∃ t, limitDt (1/2 : ℚ) 8 2 3 0 = some t) ∧ offset (1 * 3 : ℚ) (1/2) = 8 - 2 + 1 := by
  constructor
  · exact ⟨1, by norm_num [limitDt]⟩
  · decide +kernel
end

/-! ## The magnetic field -/

section
variable {P Q : Part ℝ} {olen : ℤ × ℤ → ℝ} {dx : ℝ} {ppm : Bool} {n a i o : ℤ}

theorem cell_at {K : Type} (P : Part K) (h0 : P.r.os ≤ o) (h1 : o ≤ P.r.oe) (b : ℤ) :
    P.cell n a i (b * P.r.onx + (o - P.r.os)) = P.u b (n, a, o, i) := by
  unfold Part.cell
  unfold Rows.oe at h1
  rw [show (b * P.r.onx + (o - P.r.os)) / P.r.onx = b by
      rw [add_comm, Int.add_mul_ediv_right _ _ (by omega), Int.ediv_eq_zero_of_lt (by omega) (by omega), zero_add],
    show (b * P.r.onx + (o - P.r.os)) % P.r.onx = o - P.r.os by
      rw [add_comm, Int.add_mul_emod_self_right, Int.emod_eq_of_lt (by omega) (by omega)]]
  congr 4
  ring

theorem row_fst (h : Short P olen dx) (hr : P.r.Has n a i) (hg : (if ppm then 2 else 1) ≤ P.r.xgh) (h0 : P.r.os ≤ o) (h1 : o ≤ P.r.oe)
    (first : Bool) (old0 old1 : ℕ → ℝ) (b : ℤ) (s : Buf ℝ × Buf ℝ) :
    let Φ := pfluxFC ppm P.r.onx (offset (olen (a, i)) dx) (epsilon (olen (a, i)) dx)
      (fun x => (fill P Q ownFC first old0 old1 b s).1 (n, a, i, x))
    P.u b (n, a, o, i) - (Φ (o + 1) - Φ o) =
      displaced (profile ppm (P.cell n a i)) (olen (a, i) / dx) (b * P.r.onx + (o - P.r.os)) := by
  intro Φ
  rw [← moved_profile ppm _ h.1, ← cell_at P h0 h1 b]
  have ho := (h.2.2.2 a i hr.2.1.1 hr.2.1.2 hr.2.2.1 hr.2.2.2).1
  apply pflux_moved ppm P.r.onx (olen (a, i)) dx _ (P.cell n a i) P.r.os P.r.oe P.r.xgh o _ h0 h1 hg
  intro y y0 y1
  rw [← ho] at y0 y1 ⊢
  have := fillFC_fst (Q := Q) (offsets_fit h) first old0 old1 b s hr y0 y1
  rw [this]
  congr 1; ring

theorem row_snd (h : Short Q olen dx) (hr : Q.r.Has n a i) (hg : (if ppm then 2 else 1) ≤ Q.r.xgh) (h0 : Q.r.os ≤ o) (h1 : o ≤ Q.r.oe)
    (first : Bool) (old0 old1 : ℕ → ℝ) (b : ℤ) (s : Buf ℝ × Buf ℝ) :
    let Φ := pfluxFC ppm Q.r.onx (offset (olen (a, i)) dx) (epsilon (olen (a, i)) dx)
      (fun x => (fill P Q ownFC first old0 old1 b s).2 (n, a, i, x))
    Q.u b (n, a, o, i) - (Φ (o + 1) - Φ o) =
      displaced (profile ppm (Q.cell n a i)) (olen (a, i) / dx) (b * Q.r.onx + (o - Q.r.os)) := by
  intro Φ
  rw [← moved_profile ppm _ h.1, ← cell_at Q h0 h1 b]
  have ho := (h.2.2.2 a i hr.2.1.1 hr.2.1.2 hr.2.2.1 hr.2.2.2).1
  apply pflux_moved ppm Q.r.onx (olen (a, i)) dx _ (Q.cell n a i) Q.r.os Q.r.oe Q.r.xgh o _ h0 h1 hg
  intro y y0 y1
  rw [← ho] at y0 y1 ⊢
  have := fillFC_snd (P := P) (offsets_fit h) first old0 old1 b s hr y0 y1
  rw [this]
  congr 1; ring
end

section
open Verif.Coord
variable (ppm : Bool) (c : Sys) (X : XF) (d : Dims) (xgh : ℤ) (dx : ℝ) (olen1 olen2 : ℤ × ℤ → ℝ)
    (B : ℤ → FF ℝ) (first : Bool) (old0 old1 : ℕ → ℝ) (s : Buf ℝ × Buf ℝ) (pin pout : Bool) (b : ℤ)

/-- Orbital advection of the field in direction 1 for block `b` of a ring with the fields `B` (the tasks
`SetOrbitalAdvectionFC`, the exchange, and `CalculateOrbitalAdvectionFC` with `CT(1.0, b)`,
time_integrator.cpp:2590, 2651-2652): `olen1`, `olen2` are the displacements of the rows of `B1` and `B3`. -/
noncomputable def advectField1 : FF ℝ :=
  let off1 := fun x => offset (olen1 x) dx
  let off2 := fun x => offset (olen2 x) dx
  let f := fill (partB1 d xgh off1 B) (partB3 d xgh off2 B) ownFC first old0 old1 b s
  ct d pin pout (geom X c) (edges X c)
    (emf1 ppm c X d.nx2 dx off1 off2 (fun x => epsilon (olen1 x) dx) (fun x => epsilon (olen2 x) dx) f.1 f.2) 1 (B b)

/-- The same in direction 2, spherical polar coordinates. -/
noncomputable def advectField2 : FF ℝ :=
  let off1 := fun x => offset (olen1 x) dx
  let off2 := fun x => offset (olen2 x) dx
  let f := fill (partB1' d xgh off1 B) (partB2 d xgh off2 B) ownFC first old0 old1 b s
  ct d pin pout (geom X c) (edges X c)
    (emf2 ppm c X d.nx2 d.nx3 dx off1 off2 (fun x => epsilon (olen1 x) dx) (fun x => epsilon (olen2 x) dx) f.1 f.2) 1 (B b)

variable {ppm c X d xgh dx olen1 olen2 B k j i}

/-- **The radial field is displaced by `olen`** in Cartesian and cylindrical coordinates, through the fluxes and
constrained transport. -/
theorem orbital_field_x1f (hdx : 0 < dx) (h2 : 1 < d.nx2) (hg : (if ppm then 2 else 1) ≤ xgh)
    (hs : ∀ x, |olen1 x| < dx * ((d.nx2 - xgh : ℤ) : ℝ))
    (hc : c ≠ .spherical) (hX : X.x2.dxf j = dx) (hz : X.x3.dxf k ≠ 0) (hr : c = .cylindrical → X.x1.xf i ≠ 0)
    (k0 : d.ks ≤ k) (k1 : k ≤ d.ke) (j0 : d.js ≤ j) (j1 : j ≤ d.je) (i0 : d.is ≤ i) (i1 : i ≤ d.ie + 1) :
    (advectField1 ppm c X d xgh dx olen1 olen2 B first old0 old1 s pin pout b).x1f (k, j, i) =
      displaced (profile ppm (ring2 d (fun b => (B b).x1f) k i)) (olen1 (k, i) / dx) (b * d.nx2 + (j - d.js)) := by
  have hg0 : 0 ≤ xgh := by split_ifs at hg <;> omega
  have jo : d.je = d.js + d.nx2 - 1 := by unfold Dims.je Dims.js; split_ifs <;> omega
  have key := row_fst (P := partB1 d xgh (fun x => offset (olen1 x) dx) B) (Q := partB3 d xgh (fun x => offset (olen2 x) dx) B)
    (olen := olen1) (dx := dx) (ppm := ppm) (n := 0) (a := k) (i := i) (o := j)
    ⟨hdx, by show 0 < d.nx2; omega, hg0, fun a i _ _ _ _ => ⟨rfl, hs _⟩⟩
    ⟨⟨by decide, by show (0 : ℤ) < 1; decide⟩, ⟨k0, k1⟩, ⟨i0, i1⟩⟩ hg j0 (by show j ≤ d.js + d.nx2 - 1; omega) first old0 old1 b s
  refine Eq.trans ?_ key
  unfold advectField1 ct
  dsimp only
  rw [ctB1_eq, if_pos ⟨h2, k0, k1, j0, j1, i0, i1⟩]
  simp only [EF.line3, EF.line2, emf1, mul_zero, sub_self, ite_self, add_zero]
  cases c with
  | spherical => exact absurd rfl hc
  | cartesian =>
    simp only [geom, edges, h2f, hX]
    simp only [partB1]
    field_simp
    ring
  | cylindrical =>
    have hx := hr rfl
    simp only [geom, edges, h2f, hX]
    simp only [partB1]
    field_simp
    ring

/-- The azimuthal rows of the vertical field `B3`: constrained transport moves the field by the displaced profile times a
factor. Rows hold `-B3`. -/
theorem orbital_field_x3f_factor (hdx : 0 < dx) (h2 : 1 < d.nx2) (hg : (if ppm then 2 else 1) ≤ xgh)
    (hs : ∀ x, |olen2 x| < dx * ((d.nx2 - xgh : ℤ) : ℝ)) (hX : X.x2.dxf j = dx) (ha : (geom X c).a3 (k, j, i) ≠ 0)
    (k0 : d.ks ≤ k) (k1 : k ≤ d.ke + 1) (j0 : d.js ≤ j) (j1 : j ≤ d.je) (i0 : d.is ≤ i) (i1 : i ≤ d.ie) :
    let U := ring2 d (fun b q => -(B b).x3f q) k i
    let old := -(B b).x3f (k, j, i);
    -(advectField1 ppm c X d xgh dx olen1 olen2 B first old0 old1 s pin pout b).x3f (k, j, i) =
      old + (X.x1.dxf i * h2v c X i * dx / (geom X c).a3 (k, j, i)) *
        (displaced (profile ppm U) (olen2 (k, i) / dx) (b * d.nx2 + (j - d.js)) - old) := by
  intro U old
  have hg0 : 0 ≤ xgh := by split_ifs at hg <;> omega
  have jo : d.je = d.js + d.nx2 - 1 := by unfold Dims.je Dims.js; split_ifs <;> omega
  have key := row_snd (P := partB1 d xgh (fun x => offset (olen1 x) dx) B) (Q := partB3 d xgh (fun x => offset (olen2 x) dx) B)
    (olen := olen2) (dx := dx) (ppm := ppm) (n := 0) (a := k) (i := i) (o := j)
    ⟨hdx, by show 0 < d.nx2; omega, hg0, fun a i _ _ _ _ => ⟨rfl, hs _⟩⟩
    ⟨⟨by decide, by show (0 : ℤ) < 1; decide⟩, ⟨k0, k1⟩, ⟨i0, i1⟩⟩ hg j0 (by show j ≤ d.js + d.nx2 - 1; omega) first old0 old1 b s
  have key' : displaced (profile ppm U) (olen2 (k, i) / dx) (b * d.nx2 + (j - d.js)) = _ := key.symm
  rw [key']
  unfold advectField1 ct
  dsimp only
  rw [ctB3_eq, if_pos ⟨k0, k1, j0, j1, i0, i1⟩]
  simp only [EF.line1, EF.line2, emf1, mul_zero, sub_self, neg_zero, zero_add, if_pos h2]
  have len : (edges X c).x1e (k, j, i) = X.x1.dxf i ∧ (edges X c).x1e (k, j + 1, i) = X.x1.dxf i := by
    cases c <;> exact ⟨rfl, rfl⟩
  rw [len.1, len.2]
  simp only [partB3, old]
  field_simp
  ring

/-- **In Cartesian coordinates the vertical field is displaced by `olen` too.** -/
theorem orbital_field_x3f_cartesian (hdx : 0 < dx) (h2 : 1 < d.nx2) (hg : (if ppm then 2 else 1) ≤ xgh)
    (hs : ∀ x, |olen2 x| < dx * ((d.nx2 - xgh : ℤ) : ℝ)) (hX : X.x2.dxf j = dx) (hx : X.x1.dxf i ≠ 0)
    (k0 : d.ks ≤ k) (k1 : k ≤ d.ke + 1) (j0 : d.js ≤ j) (j1 : j ≤ d.je) (i0 : d.is ≤ i) (i1 : i ≤ d.ie) :
    -(advectField1 ppm .cartesian X d xgh dx olen1 olen2 B first old0 old1 s pin pout b).x3f (k, j, i) =
      displaced (profile ppm (ring2 d (fun b q => -(B b).x3f q) k i)) (olen2 (k, i) / dx) (b * d.nx2 + (j - d.js)) := by
  have ha : (geom X .cartesian).a3 (k, j, i) = X.x1.dxf i * dx := by simp only [geom, hX]
  have := orbital_field_x3f_factor (ppm := ppm) (c := .cartesian) (X := X) (olen1 := olen1) (B := B) first old0 old1 s pin pout b
    hdx h2 hg hs hX (by rw [ha]; exact mul_ne_zero hx hdx.ne') k0 k1 j0 j1 i0 i1
  rw [this, ha, show h2v .cartesian X i = 1 from rfl, mul_one, div_self (mul_ne_zero hx hdx.ne')]
  ring

/-- The factor in cylindrical coordinates is the ratio of the volume centroid, used for the electric field, to the
arithmetic mean of the radii, which belongs to the area: greater than one. -/
theorem cylindrical_factor (hg : Good .cylindrical X k j i) (hX : X.x2.dxf j = dx) (hdx : 0 < dx) :
    1 < X.x1.dxf i * h2v .cylindrical X i * dx / (geom X .cylindrical).a3 (k, j, i) := by
  have r0 := hg.r0 (by decide)
  have l1 := hg.l1
  have e : (geom X .cylindrical).a3 (k, j, i) = 0.5 * (X.x1.xf (i+1) * X.x1.xf (i+1) - X.x1.xf i * X.x1.xf i) * dx := by
    simp only [geom, Cyl.area3_i, hX]
  rw [e, show h2v .cylindrical X i = cyl1 X i from rfl, hg.d1]
  unfold cyl1
  set r := X.x1.xf i
  set R := X.x1.xf (i+1)
  have sq : R ^ 2 - r ^ 2 = (R - r) * (R + r) := by ring
  have hRr : 0 < R - r := by linarith
  have hs : 0 < R + r := by linarith
  have e2 : (R - r) * (2 / 3 * (R ^ 3 - r ^ 3) / (R ^ 2 - r ^ 2)) * dx / (0.5 * (R * R - r * r) * dx) =
      4 / 3 * (R ^ 2 + R * r + r ^ 2) / (R + r) ^ 2 := by
    rw [sq, show (0.5 : ℝ) = 1 / 2 by norm_num, show R * R - r * r = (R - r) * (R + r) by ring]
    field_simp
    ring
  rw [e2, lt_div_iff₀ (by positivity)]
  nlinarith [mul_pos hRr hRr]

/-- **In cylindrical coordinates the vertical field is not displaced by `olen`.** Even when a row moves by exactly one
cell, the new value is not that of the neighbour, unless the two values agree: the change is too large by the factor
above. -/
theorem orbital_field_x3f_cylindrical (hdx : 0 < dx) (h2 : 1 < d.nx2) (hg : (if ppm then 2 else 1) ≤ xgh)
    (hs : ∀ x, |olen2 x| < dx * ((d.nx2 - xgh : ℤ) : ℝ)) (hX : X.x2.dxf j = dx) (hG : Good .cylindrical X k j i)
    (k0 : d.ks ≤ k) (k1 : k ≤ d.ke + 1) (j0 : d.js < j) (j1 : j ≤ d.je) (i0 : d.is ≤ i) (i1 : i ≤ d.ie)
    (hone : olen2 (k, i) = dx) (hne : (B b).x3f (k, j - 1, i) ≠ (B b).x3f (k, j, i)) :
    (advectField1 ppm .cylindrical X d xgh dx olen1 olen2 B first old0 old1 s pin pout b).x3f (k, j, i) ≠
      (B b).x3f (k, j - 1, i) := by
  have fac := cylindrical_factor hG hX hdx
  have ha : (geom X .cylindrical).a3 (k, j, i) ≠ 0 := by
    intro h; rw [h, div_zero] at fac; linarith
  have := orbital_field_x3f_factor (ppm := ppm) (c := .cylindrical) (X := X) (olen1 := olen1) (B := B) first old0 old1 s pin pout b
    hdx h2 hg hs hX ha k0 k1 j0.le j1 i0 i1
  dsimp only at this
  set ρ := X.x1.dxf i * h2v .cylindrical X i * dx / (geom X .cylindrical).a3 (k, j, i)
  have jo : d.je = d.js + d.nx2 - 1 := by unfold Dims.je Dims.js; split_ifs <;> omega
  have sh : displaced (profile ppm (ring2 d (fun b q => -(B b).x3f q) k i)) (olen2 (k, i) / dx) (b * d.nx2 + (j - d.js)) =
      -(B b).x3f (k, j - 1, i) := by
    rw [← moved_profile ppm _ hdx]
    have cell := cell_at (partB3 d xgh (fun _ => 0) B) (n := 0) (a := k) (i := i) (o := j - 1) (by show d.js ≤ j - 1; omega)
      (by show j - 1 ≤ d.js + d.nx2 - 1; omega) b
    have e : olen2 (k, i) / dx = ((1 : ℤ) : ℝ) := by rw [hone, div_self hdx.ne', Int.cast_one]
    have v : ring2 d (fun b q => -(B b).x3f q) k i (b * d.nx2 + (j - d.js) - 1) = -(B b).x3f (k, j - 1, i) := by
      refine Eq.trans ?_ cell
      show ring2 d (fun b q => -(B b).x3f q) k i _ = ring2 d (fun b q => -(B b).x3f q) k i (b * d.nx2 + (j - 1 - d.js))
      congr 1; ring
    cases ppm
    · rw [moved_pieces (plm_pieces _) hdx, e, Int.floor_intCast, Int.fract_intCast, ← v]; ring
    · rw [moved_pieces (ppm_pieces _) hdx, e, Int.floor_intCast, Int.fract_intCast, ← v]; ring
  rw [sh] at this
  intro h
  rw [h] at this
  have : (ρ - 1) * ((B b).x3f (k, j - 1, i) - (B b).x3f (k, j, i)) = 0 := by linarith
  rcases mul_eq_zero.1 this with h | h
  · linarith
  · exact hne (by linarith)

/-- **The radial field in spherical polar coordinates**: the same with the factor `dθ sin θ_v / |Δ cos θ|`. -/
theorem orbital_field_x1f_spherical (hdx : 0 < dx) (h3 : 1 < d.nx3) (h2 : 1 < d.nx2) (hg : (if ppm then 2 else 1) ≤ xgh)
    (hs : ∀ x, |olen1 x| < dx * ((d.nx3 - xgh : ℤ) : ℝ)) (hX : X.x3.dxf k = dx) (hr : X.x1.xf i ≠ 0)
    (ha : Sph.area1_j X j ≠ 0)
    (k0 : d.ks ≤ k) (k1 : k ≤ d.ke) (j0 : d.js ≤ j) (j1 : j ≤ d.je) (i0 : d.is ≤ i) (i1 : i ≤ d.ie + 1) :
    let U := ring3 d (fun b q => -(B b).x1f q) j i
    let old := -(B b).x1f (k, j, i);
    -(advectField2 ppm .spherical X d xgh dx olen1 olen2 B first old0 old1 s pin pout b).x1f (k, j, i) =
      old + (X.x2.dxf j * Real.sin (x2v X d.nx2 .spherical j) / Sph.area1_j X j) *
        (displaced (profile ppm U) (olen1 (j, i) / dx) (b * d.nx3 + (k - d.ks)) - old) := by
  intro U old
  have hg0 : 0 ≤ xgh := by split_ifs at hg <;> omega
  have jo : d.ke = d.ks + d.nx3 - 1 := by unfold Dims.ke Dims.ks; split_ifs <;> omega
  have key := row_fst (P := partB1' d xgh (fun x => offset (olen1 x) dx) B) (Q := partB2 d xgh (fun x => offset (olen2 x) dx) B)
    (olen := olen1) (dx := dx) (ppm := ppm) (n := 0) (a := j) (i := i) (o := k)
    ⟨hdx, by show 0 < d.nx3; omega, hg0, fun a i _ _ _ _ => ⟨rfl, hs _⟩⟩
    ⟨⟨by decide, by show (0 : ℤ) < 1; decide⟩, ⟨j0, j1⟩, ⟨i0, i1⟩⟩ hg k0 (by show k ≤ d.ks + d.nx3 - 1; omega) first old0 old1 b s
  have key' : displaced (profile ppm U) (olen1 (j, i) / dx) (b * d.nx3 + (k - d.ks)) = _ := key.symm
  rw [key']
  unfold advectField2 ct
  dsimp only
  rw [ctB1_eq, if_pos ⟨h2, k0, k1, j0, j1, i0, i1⟩]
  simp only [EF.line3, EF.line2, emf2, mul_zero, sub_self, neg_zero, zero_add, if_pos h3]
  simp only [geom, edges, h2f, h32v, hX, Sph.area1_i]
  simp only [partB1', old]
  field_simp
  ring

/-- **The polar field in spherical polar coordinates**: the factor is `r_v dr / (Δ r²/2)`. -/
theorem orbital_field_x2f_spherical (hdx : 0 < dx) (h3 : 1 < d.nx3) (hg : (if ppm then 2 else 1) ≤ xgh)
    (hs : ∀ x, |olen2 x| < dx * ((d.nx3 - xgh : ℤ) : ℝ)) (hX : X.x3.dxf k = dx) (ha : Sph.area2_i X i ≠ 0)
    (ht : 0 < Real.sin (X.x2.xf j))
    (k0 : d.ks ≤ k) (k1 : k ≤ d.ke) (j0 : (if pin then d.js + 1 else d.js) ≤ j) (j1 : j ≤ if pout then d.je else d.je + 1)
    (i0 : d.is ≤ i) (i1 : i ≤ d.ie) :
    let U := ring3 d (fun b => (B b).x2f) j i
    let old := (B b).x2f (k, j, i)
    (advectField2 ppm .spherical X d xgh dx olen1 olen2 B first old0 old1 s pin pout b).x2f (k, j, i) =
      old + (X.x1.dxf i * x1v X .spherical i / Sph.area2_i X i) *
        (displaced (profile ppm U) (olen2 (j, i) / dx) (b * d.nx3 + (k - d.ks)) - old) := by
  intro U old
  have hg0 : 0 ≤ xgh := by split_ifs at hg <;> omega
  have jo : d.ke = d.ks + d.nx3 - 1 := by unfold Dims.ke Dims.ks; split_ifs <;> omega
  have key := row_snd (P := partB1' d xgh (fun x => offset (olen1 x) dx) B) (Q := partB2 d xgh (fun x => offset (olen2 x) dx) B)
    (olen := olen2) (dx := dx) (ppm := ppm) (n := 0) (a := j) (i := i) (o := k)
    ⟨hdx, by show 0 < d.nx3; omega, hg0, fun a i _ _ _ _ => ⟨rfl, hs _⟩⟩
    ⟨⟨by decide, by show (0 : ℤ) < 1; decide⟩, ⟨by show d.js ≤ j; split_ifs at j0 <;> omega, by show j ≤ d.je + 1; split_ifs at j1 <;> omega⟩,
      ⟨i0, i1⟩⟩ hg k0 (by show k ≤ d.ks + d.nx3 - 1; omega) first old0 old1 b s
  have key' : displaced (profile ppm U) (olen2 (j, i) / dx) (b * d.nx3 + (k - d.ks)) = _ := key.symm
  rw [key']
  unfold advectField2 ct
  dsimp only
  rw [ctB2_eq, if_pos ⟨k0, k1, j0, j1, i0, i1⟩]
  simp only [EF.line1, EF.line3, emf2, mul_zero, sub_self, zero_sub, if_pos h3]
  simp only [geom, edges, h2v, h32f, hX, Sph.area2_j, abs_of_pos ht]
  simp only [partB2, old]
  field_simp
  ring

/-- The factor of the polar field is greater than one. -/
theorem spherical_factor (hg : Good .spherical X k j i) : 1 < X.x1.dxf i * x1v X .spherical i / Sph.area2_i X i := by
  have r0 := hg.r0 (by decide)
  have l1 := hg.l1
  unfold Sph.area2_i x1v
  rw [hg.d1]
  dsimp only
  set r := X.x1.xf i
  set R := X.x1.xf (i+1)
  have hRr : 0 < R - r := by linarith
  have hs : 0 < R + r := by linarith
  have hq : 0 < R ^ 2 + R * r + r ^ 2 := by nlinarith
  have e2 : (R - r) * (0.75 * (R ^ 4 - r ^ 4) / (R ^ 3 - r ^ 3)) / (0.5 * (R * R - r * r)) =
      3 / 2 * (R ^ 2 + r ^ 2) / (R ^ 2 + R * r + r ^ 2) := by
    rw [show R ^ 3 - r ^ 3 = (R - r) * (R ^ 2 + R * r + r ^ 2) by ring, show R ^ 4 - r ^ 4 = (R - r) * (R + r) * (R ^ 2 + r ^ 2) by ring,
      show (0.5 : ℝ) = 1 / 2 by norm_num, show (0.75 : ℝ) = 3 / 4 by norm_num, show R * R - r * r = (R - r) * (R + r) by ring]
    field_simp
    ring
  rw [e2, lt_div_iff₀ hq]
  nlinarith [mul_pos hRr hRr]

/-- **The divergence of the field is unchanged** by orbital advection, in every cell. -/
theorem orbital_keeps_divergence1 (hd : d.Ok)
    (hk : d.ks ≤ k ∧ k ≤ d.ke) (hj : d.js ≤ j ∧ j ≤ d.je) (hi : d.is ≤ i ∧ i ≤ d.ie)
    (h1 : (geom X c).a1 (k, j, i) ≠ 0 ∧ (geom X c).a1 (k, j, i+1) ≠ 0)
    (h2 : (geom X c).a2 (k, j, i) ≠ 0 ∧ (geom X c).a2 (k, j+1, i) ≠ 0)
    (h3 : (geom X c).a3 (k, j, i) ≠ 0 ∧ (geom X c).a3 (k+1, j, i) ≠ 0) :
    divB d (geom X c) (advectField1 ppm c X d xgh dx olen1 olen2 B first old0 old1 s false false b) k j i =
      divB d (geom X c) (B b) k j i := by
  unfold advectField1
  exact ct_keeps_divergence hd hk hj hi h1 ⟨Or.inl h2.1, Or.inl h2.2⟩ h3 (fun h => absurd h (by decide)) (fun h => absurd h (by decide))

/-- The same in direction 2, with or without poles. -/
theorem orbital_keeps_divergence2 (hd : d.Ok)
    (hk : d.ks ≤ k ∧ k ≤ d.ke) (hj : d.js ≤ j ∧ j ≤ d.je) (hi : d.is ≤ i ∧ i ≤ d.ie)
    (h1 : (geom X .spherical).a1 (k, j, i) ≠ 0 ∧ (geom X .spherical).a1 (k, j, i+1) ≠ 0)
    (h2 : ((geom X .spherical).a2 (k, j, i) ≠ 0 ∨ (j = d.js ∧ pin = true)) ∧
      ((geom X .spherical).a2 (k, j+1, i) ≠ 0 ∨ (j = d.je ∧ pout = true)))
    (h3 : (geom X .spherical).a3 (k, j, i) ≠ 0 ∧ (geom X .spherical).a3 (k+1, j, i) ≠ 0)
    (hin : pin = true → Real.sin (X.x2.xf d.js) = 0) (hout : pout = true → Real.sin (X.x2.xf (d.je + 1)) = 0) :
    divB d (geom X .spherical) (advectField2 ppm .spherical X d xgh dx olen1 olen2 B first old0 old1 s pin pout b) k j i =
      divB d (geom X .spherical) (B b) k j i := by
  unfold advectField2
  refine ct_keeps_divergence hd hk hj hi h1 h2 h3 ?_ ?_
  · intro h
    have z := hin h
    refine ⟨fun k i => ?_, fun k i => ?_, fun _ k i _ _ _ _ => ?_⟩
    · simp only [geom, Sph.area2_j, z, abs_zero]; ring
    · simp only [edges, Sph.area2_j, z, abs_zero]; ring
    · simp only [EF.line1, emf2, h32f, z]; ring
  · intro h
    have z := hout h
    refine ⟨fun k i => ?_, fun k i => ?_, fun _ k i _ _ _ _ => ?_⟩
    · simp only [geom, Sph.area2_j, z, abs_zero]; ring
    · simp only [edges, Sph.area2_j, z, abs_zero]; ring
    · simp only [EF.line1, emf2, h32f, z]; ring

/-- The hypotheses about the grid are satisfiable: two cells in azimuth, radii 1 to 3. -/
example : ∃ X : XF, Good .cylindrical X 0 2 2 ∧ X.x2.dxf 2 = 1 :=
  ⟨⟨⟨fun i => (i : ℝ) - 1, fun _ => 1⟩, ⟨fun j => (j : ℝ), fun _ => 1⟩, ⟨fun k => (k : ℝ), fun _ => 1⟩⟩,
    ⟨by norm_num, by norm_num, by norm_num, by norm_num, by norm_num, by norm_num, fun _ => by norm_num, by decide, by decide⟩, rfl⟩
example : ∃ X : XF, Good .spherical X 2 2 2 ∧ X.x3.dxf 2 = 1 ∧ 0 < Real.sin (X.x2.xf 2) :=
  ⟨⟨⟨fun i => (i : ℝ) - 1, fun _ => 1⟩, ⟨fun j => (j : ℝ) - 1, fun _ => 1⟩, ⟨fun k => (k : ℝ), fun _ => 1⟩⟩,
    ⟨by norm_num, by norm_num, by norm_num, by norm_num, by norm_num, by norm_num, fun _ => by norm_num, fun _ => by norm_num,
      fun _ => by norm_num; linarith [Real.two_le_pi]⟩, rfl,
    Real.sin_pos_of_pos_of_lt_pi (by norm_num) (by norm_num; linarith [Real.two_le_pi])⟩
end
end Verif.Orbital
