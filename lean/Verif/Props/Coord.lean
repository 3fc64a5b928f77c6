import Verif.Lemmas.Coord

/-!
# Properties of the coordinate systems (C62)

`Good`, `GoodBlock`, `moment`, `AtRest`, `RestFlux` and the integrals are in `Verif/Spec/Coord.lean`.
-/
namespace Verif.Coord
open Verif.Grid Verif.Arr
variable {c : Sys} {X : XF} {k j i : ℤ}

/-! ## Areas, volumes, lengths, centroids -/

/-- The areas, volumes and edge lengths of the code are the integrals of the scale factors over the
faces, cells and edges. -/
theorem measures (g : Good c X k j i) :
    (geom X c).a1 (k, j, i) = onFace1 c X k j i (fun _ => 1) ∧
    (geom X c).a2 (k, j, i) = onFace2 c X k j i (fun _ => 1) ∧
    (geom X c).a3 (k, j, i) = onFace3 c X j i (fun _ _ => 1) ∧
    (geom X c).vol (k, j, i) = inCell c X k j i (fun _ _ _ => 1) ∧
    (edges X c).x1e (k, j, i) = over X.x1 i (fun _ => 1) ∧
    (edges X c).x2e (k, j, i) = over X.x2 j (fun x2 => h2 c (X.x1.xf i) x2) ∧
    (edges X c).x3e (k, j, i) = over X.x3 k (fun _ => h3 c (X.x1.xf i) (X.x2.xf j)) := by
  obtain ⟨d1, d2, d3, l1, l2, l3, r0, t0, tp⟩ := g
  cases c
  · simp only [geom, edges, onFace1, onFace2, onFace3, inCell, h2, h3, over_const, d1, d2, d3]
    refine ⟨?_, ?_, ?_, ?_, ?_, ?_, ?_⟩ <;> first | trivial | ring
  · simp only [geom, edges, onFace1, onFace2, onFace3, inCell, h2, h3, over_const, over_id, one_mul,
      mul_one, d1, d2, d3, Cyl.area3_i, Cyl.vol_i]
    refine ⟨?_, ?_, ?_, ?_, ?_, ?_, ?_⟩ <;> first | trivial | ring
  · have hc := cos_fall (t0 rfl) l2 (tp rfl)
    have hs := sin_pair (t0 rfl) l2 (tp rfl)
    simp only [geom, edges, onFace1, onFace2, onFace3, inCell, h2, h3, over_const, over_mul, over_id, one_mul,
      mul_one, d1, d2, d3, Sph.area1_i, Sph.area2_i, Sph.area3_i, Sph.vol_i, Sph.area1_j, Sph.area2_j, Sph.vol_j,
      abs_of_pos (sub_pos.2 hc), abs_of_nonneg hs.1, over_idr, over_sq, over_sin]
    refine ⟨?_, ?_, ?_, ?_, ?_, ?_, ?_⟩ <;> first | trivial | ring

/-- Volumes are positive; face areas are positive except at the axis or the origin. -/
theorem measures_pos (g : Good c X k j i) :
    0 < (geom X c).vol (k, j, i) ∧
    (c = .cartesian ∨ 0 < X.x1.xf i → 0 < (geom X c).a1 (k, j, i)) ∧
    (c ≠ .spherical ∨ 0 < X.x2.xf j → 0 < (geom X c).a2 (k, j, i)) ∧
    0 < (geom X c).a3 (k, j, i) := by
  obtain ⟨d1, d2, d3, l1, l2, l3, r0, t0, tp⟩ := g
  have p1 : 0 < X.x1.dxf i := by rw [d1]; linarith
  have p2 : 0 < X.x2.dxf j := by rw [d2]; linarith
  have p3 : 0 < X.x3.dxf k := by rw [d3]; linarith
  cases c
  · simp only [geom]
    exact ⟨by positivity, fun _ => by positivity, fun _ => by positivity, by positivity⟩
  · have r0 := r0 (by simp)
    have a3 : 0 < Cyl.area3_i X i := by unfold Cyl.area3_i; nlinarith
    simp only [geom, Cyl.vol_i]
    refine ⟨by positivity, ?_, fun _ => by positivity, by positivity⟩
    rintro (h | h)
    · simp at h
    · positivity
  · have r0 := r0 (by simp)
    have hc := cos_fall (t0 rfl) l2 (tp rfl)
    have a2 : 0 < Sph.area2_i X i := by unfold Sph.area2_i; nlinarith
    have av : 0 < Sph.vol_i X i := by
      unfold Sph.vol_i
      have : X.x1.xf i ^ 3 < X.x1.xf (i+1) ^ 3 := by gcongr
      nlinarith
    have aj : 0 < Sph.area1_j X j := by
      unfold Sph.area1_j
      exact abs_pos.2 (by linarith)
    simp only [geom, Sph.vol_j, Sph.area3_i]
    refine ⟨by positivity, ?_, ?_, by positivity⟩
    · rintro (h | h)
      · simp at h
      · have : 0 < Sph.area1_i X i := by unfold Sph.area1_i; positivity
        positivity
    · rintro (h | h)
      · simp at h
      · have : 0 < Sph.area2_j X j := by
          unfold Sph.area2_j
          exact abs_pos.2 (Real.sin_pos_of_pos_of_lt_pi h (by have := tp rfl; linarith)).ne'
        positivity

/-- The cell positions of the code are the centroids of the cells. With one cell in the polar direction
this uses that the range is symmetric about the equator, which the code demands. -/
theorem centroids (g : Good c X k j i) {nx2 : ℤ}
    (hs : c = .spherical → nx2 = 1 → X.x2.xf j + X.x2.xf (j+1) = Real.pi) :
    x1v X c i = inCell c X k j i (fun x1 _ _ => x1) / inCell c X k j i (fun _ _ _ => 1) ∧
    x2v X nx2 c j = inCell c X k j i (fun _ x2 _ => x2) / inCell c X k j i (fun _ _ _ => 1) ∧
    x3v X k = inCell c X k j i (fun _ _ x3 => x3) / inCell c X k j i (fun _ _ _ => 1) := by
  have hv : inCell c X k j i (fun _ _ _ => 1) ≠ 0 := by
    rw [← (measures g).2.2.2.1]; exact (measures_pos g).1.ne'
  obtain ⟨d1, d2, d3, l1, l2, l3, r0, t0, tp⟩ := g
  refine ⟨?_, ?_, ?_⟩ <;> rw [eq_div_iff hv]
  · cases c
    · rw [inCell_prod (fun _ => 1) (fun _ => 1) (fun _ => 1) (by intros; simp [h2, h3]),
        inCell_prod (fun x => x) (fun _ => 1) (fun _ => 1) (by intros; simp [h2, h3])]
      simp only [over_const, over_id, x1v, mid]; ring
    · have r0 := r0 (by simp)
      rw [inCell_prod (fun x => x) (fun _ => 1) (fun _ => 1) (by intros; simp [h2, h3]),
        inCell_prod (fun x => x ^ 2) (fun _ => 1) (fun _ => 1) (by intros; simp [h2, h3]; ring)]
      have : X.x1.xf (i+1) ^ 2 - X.x1.xf i ^ 2 ≠ 0 := by nlinarith
      simp only [over_const, over_id, over_pow, x1v, cyl1]; push_cast; field_simp; ring
    · have r0 := r0 (by simp)
      rw [inCell_prod (fun x => x ^ 2) Real.sin (fun _ => 1) (by intros; simp [h2, h3]; ring),
        inCell_prod (fun x => x ^ 3) Real.sin (fun _ => 1) (by intros; simp [h2, h3]; ring)]
      have : X.x1.xf (i+1) ^ 3 - X.x1.xf i ^ 3 ≠ 0 := by
        have : X.x1.xf i ^ 3 < X.x1.xf (i+1) ^ 3 := by gcongr
        linarith
      simp only [over_const, over_pow, over_sin, x1v]; push_cast; field_simp; ring
  · cases c
    · rw [inCell_prod (fun _ => 1) (fun _ => 1) (fun _ => 1) (by intros; simp [h2, h3]),
        inCell_prod (fun _ => 1) (fun x => x) (fun _ => 1) (by intros; simp [h2, h3])]
      simp only [over_const, over_id, x2v, mid]; ring
    · rw [inCell_prod (fun x => x) (fun _ => 1) (fun _ => 1) (by intros; simp [h2, h3]),
        inCell_prod (fun x => x) (fun x => x) (fun _ => 1) (by intros; simp [h2, h3]; ring)]
      simp only [over_const, over_id, x2v, mid]; ring
    · rw [inCell_prod (fun x => x ^ 2) Real.sin (fun _ => 1) (by intros; simp [h2, h3]; ring),
        inCell_prod (fun x => x ^ 2) (fun x => x * Real.sin x) (fun _ => 1) (by intros; simp [h2, h3]; ring)]
      have hc := cos_fall (t0 rfl) l2 (tp rfl)
      have : Real.cos (X.x2.xf j) - Real.cos (X.x2.xf (j+1)) ≠ 0 := by linarith
      simp only [over_const, over_pow, over_sin, over_id_sin, x2v, mid, sph2]
      split
      · next h =>
        have e : X.x2.xf (j+1) = Real.pi - X.x2.xf j := by have := hs rfl h; linarith
        rw [e, Real.sin_pi_sub, Real.cos_pi_sub]; ring
      · field_simp
  · cases c
    · rw [inCell_prod (fun _ => 1) (fun _ => 1) (fun _ => 1) (by intros; simp [h2, h3]),
        inCell_prod (fun _ => 1) (fun _ => 1) (fun x => x) (by intros; simp [h2, h3])]
      simp only [over_const, over_id, x3v, mid]; ring
    · rw [inCell_prod (fun x => x) (fun _ => 1) (fun _ => 1) (by intros; simp [h2, h3]),
        inCell_prod (fun x => x) (fun _ => 1) (fun x => x) (by intros; simp [h2, h3]; ring)]
      simp only [over_const, over_id, x3v, mid]; ring
    · rw [inCell_prod (fun x => x ^ 2) Real.sin (fun _ => 1) (by intros; simp [h2, h3]; ring),
        inCell_prod (fun x => x ^ 2) Real.sin (fun x => x) (by intros; simp [h2, h3]; ring)]
      simp only [over_const, over_pow, over_sin, over_id, x3v, mid]; ring

/-- The positions used to interpolate fields across levels are the centroids of the faces, wherever
the face has an area. -/
theorem face_centroids (g : Good c X k j i) {nx2 : ℤ}
    (hs : c = .spherical → nx2 = 1 → X.x2.xf j + X.x2.xf (j+1) = Real.pi) :
    (c ≠ .spherical ∨ 0 < X.x2.xf j →
      x1s2 X c i = onFace2 c X k j i (fun x1 => x1) / onFace2 c X k j i (fun _ => 1)) ∧
    x1s3 X c i = onFace3 c X j i (fun x1 _ => x1) / onFace3 c X j i (fun _ _ => 1) ∧
    (c = .cartesian ∨ 0 < X.x1.xf i →
      x2s1 X nx2 c j = onFace1 c X k j i (fun x2 => x2) / onFace1 c X k j i (fun _ => 1)) ∧
    x2s3 X c j = onFace3 c X j i (fun _ x2 => x2) / onFace3 c X j i (fun _ _ => 1) := by
  obtain ⟨m1, m2, m3, -⟩ := measures g
  obtain ⟨-, q1, q2, q3⟩ := measures_pos g
  rw [m1] at q1
  rw [m2] at q2
  rw [m3] at q3
  obtain ⟨d1, d2, d3, l1, l2, l3, r0, t0, tp⟩ := g
  have hq : c ≠ .cartesian → X.x1.xf (i+1) ^ 2 - X.x1.xf i ^ 2 ≠ 0 := fun h => by have := r0 h; nlinarith
  refine ⟨fun h => ?_, ?_, fun h => ?_, ?_⟩
  · rw [eq_div_iff (q2 h).ne']
    cases c
    · rw [onFace2_prod 1 (fun _ => 1) (by intros; simp [h3]), onFace2_prod 1 (fun x => x) (by intros; simp [h3])]
      simp only [over_const, over_id, x1s2, mid]; ring
    · rw [onFace2_prod 1 (fun _ => 1) (by intros; simp [h3]), onFace2_prod 1 (fun x => x) (by intros; simp [h3])]
      simp only [over_const, over_id, x1s2, mid]; ring
    · rw [onFace2_prod (Real.sin (X.x2.xf j)) (fun x => x) (by intros; simp [h3]; ring),
        onFace2_prod (Real.sin (X.x2.xf j)) (fun x => x ^ 2) (by intros; simp [h3]; ring)]
      have := hq (by simp)
      simp only [over_id, over_pow, x1s2, cyl1]; push_cast; field_simp; ring
  · rw [eq_div_iff q3.ne']
    cases c
    · rw [onFace3_prod (fun _ => 1) (fun _ => 1) (by intros; simp [h2]),
        onFace3_prod (fun x => x) (fun _ => 1) (by intros; simp [h2])]
      simp only [over_const, over_id, x1s3, mid]; ring
    all_goals
      rw [onFace3_prod (fun x => x) (fun _ => 1) (by intros; simp [h2]),
        onFace3_prod (fun x => x ^ 2) (fun _ => 1) (by intros; simp [h2]; ring)]
      have := hq (by simp)
      simp only [over_const, over_id, over_pow, x1s3, cyl1]; push_cast; field_simp; ring
  · rw [eq_div_iff (q1 h).ne']
    cases c
    · rw [onFace1_prod 1 (fun _ => 1) (by intros; simp [h2, h3]), onFace1_prod 1 (fun x => x) (by intros; simp [h2, h3])]
      simp only [over_const, over_id, x2s1, mid]; ring
    · rw [onFace1_prod (X.x1.xf i) (fun _ => 1) (by intros; simp [h2, h3]),
        onFace1_prod (X.x1.xf i) (fun x => x) (by intros; simp [h2, h3]; ring)]
      simp only [over_const, over_id, x2s1, mid]; ring
    · rw [onFace1_prod (X.x1.xf i ^ 2) Real.sin (by intros; simp [h2, h3]; ring),
        onFace1_prod (X.x1.xf i ^ 2) (fun x => x * Real.sin x) (by intros; simp [h2, h3]; ring)]
      have hc := cos_fall (t0 rfl) l2 (tp rfl)
      have : Real.cos (X.x2.xf j) - Real.cos (X.x2.xf (j+1)) ≠ 0 := by linarith
      simp only [over_sin, over_id_sin, x2s1, mid, sph2]
      split
      · next h =>
        have e : X.x2.xf (j+1) = Real.pi - X.x2.xf j := by have := hs rfl h; linarith
        rw [e, Real.sin_pi_sub, Real.cos_pi_sub]; ring
      · field_simp
  · rw [eq_div_iff q3.ne']
    cases c
    · rw [onFace3_prod (fun _ => 1) (fun _ => 1) (by intros; simp [h2]),
        onFace3_prod (fun _ => 1) (fun x => x) (by intros; simp [h2])]
      simp only [over_const, over_id, x2s3, mid]; ring
    all_goals
      rw [onFace3_prod (fun x => x) (fun _ => 1) (by intros; simp [h2]),
        onFace3_prod (fun x => x) (fun x => x) (by intros; simp [h2]; ring)]
      simp only [over_const, over_id, x2s3, mid]; ring

/-- They are inside the cell. -/
theorem centroids_inside (g : Good c X k j i) {nx2 : ℤ} :
    X.x1.xf i < x1v X c i ∧ x1v X c i < X.x1.xf (i+1) ∧ X.x2.xf j < x2v X nx2 c j ∧ x2v X nx2 c j < X.x2.xf (j+1) ∧
    X.x3.xf k < x3v X k ∧ x3v X k < X.x3.xf (k+1) := by
  obtain ⟨d1, d2, d3, l1, l2, l3, r0, t0, tp⟩ := g
  have hm : ∀ {f : MeshGen.Faces} {i : ℤ}, f.xf i < f.xf (i+1) → f.xf i < mid f i ∧ mid f i < f.xf (i+1) := by
    intro f i h; unfold mid; constructor <;> linarith
  have h1 : X.x1.xf i < x1v X c i ∧ x1v X c i < X.x1.xf (i+1) := by
    cases c
    · exact hm l1
    · have r0 := r0 (by simp)
      have e : x1v X .cylindrical i =
          2/3 * (X.x1.xf (i+1) ^ 2 + X.x1.xf (i+1) * X.x1.xf i + X.x1.xf i ^ 2) / (X.x1.xf (i+1) + X.x1.xf i) := by
        have : X.x1.xf (i+1) ^ 2 - X.x1.xf i ^ 2 ≠ 0 := by nlinarith
        have : X.x1.xf (i+1) + X.x1.xf i ≠ 0 := by linarith
        simp only [x1v, cyl1]; field_simp; ring
      rw [e, lt_div_iff₀ (by linarith), div_lt_iff₀ (by linarith)]
      constructor <;> nlinarith
    · have r0 := r0 (by simp)
      have p0 : 0 < X.x1.xf (i+1) ^ 2 + X.x1.xf (i+1) * X.x1.xf i + X.x1.xf i ^ 2 := by nlinarith
      have e : x1v X .spherical i =
          3/4 * (X.x1.xf (i+1) ^ 3 + X.x1.xf (i+1) ^ 2 * X.x1.xf i + X.x1.xf (i+1) * X.x1.xf i ^ 2 + X.x1.xf i ^ 3) /
            (X.x1.xf (i+1) ^ 2 + X.x1.xf (i+1) * X.x1.xf i + X.x1.xf i ^ 2) := by
        have e3 : X.x1.xf (i+1) ^ 3 - X.x1.xf i ^ 3 =
            (X.x1.xf (i+1) - X.x1.xf i) * (X.x1.xf (i+1) ^ 2 + X.x1.xf (i+1) * X.x1.xf i + X.x1.xf i ^ 2) := by ring
        have : X.x1.xf (i+1) - X.x1.xf i ≠ 0 := by linarith
        simp only [x1v]; rw [e3]; field_simp; ring
      generalize X.x1.xf i = a at *
      generalize X.x1.xf (i+1) = b at *
      rw [e, lt_div_iff₀ p0, div_lt_iff₀ p0]
      have hd : 0 < b - a := by linarith
      constructor
      · nlinarith [mul_pos hd hd, mul_nonneg r0 r0, mul_pos (mul_pos hd hd) hd, mul_nonneg (mul_nonneg r0 hd.le) hd.le,
          mul_nonneg (mul_nonneg r0 r0) hd.le]
      · nlinarith [mul_pos hd hd, mul_nonneg r0 r0, mul_pos (mul_pos hd hd) hd, mul_nonneg (mul_nonneg r0 hd.le) hd.le,
          mul_nonneg (mul_nonneg r0 r0) hd.le]
  have h2 : X.x2.xf j < x2v X nx2 c j ∧ x2v X nx2 c j < X.x2.xf (j+1) := by
    cases c
    · exact hm l2
    · exact hm l2
    · simp only [x2v]
      split
      · exact hm l2
      · have t0 := t0 rfl
        have tp := tp rfl
        have hc := cos_fall t0 l2 tp
        unfold sph2
        generalize X.x2.xf j = a at *
        generalize X.x2.xf (j+1) = b at *
        obtain ⟨ξ, ⟨x1, x2⟩, hx⟩ := exists_hasDerivAt_eq_slope Real.sin Real.cos l2 Real.continuous_sin.continuousOn
          (fun x _ => Real.hasDerivAt_sin x)
        rw [eq_div_iff (by linarith)] at hx
        have c1 := cos_fall t0 x1 (by linarith : ξ ≤ Real.pi)
        have c2 := cos_fall (by linarith : 0 ≤ ξ) x2 tp
        rw [lt_div_iff₀ (by linarith), div_lt_iff₀ (by linarith)]
        constructor <;> nlinarith
  exact ⟨h1.1, h1.2, h2.1, h2.2, hm l3⟩

/-! ## The geometric source terms -/

section
variable {d : Dims} {S : Src} {w : ℝ} {F : Flx ℝ} {u : A4 ℝ}

/-- The source terms change only the momenta of active cells; mass and energy see the flux divergence
alone. -/
theorem sources_momentum_only (n k j i : ℤ) (h : n < 1 ∨ 3 < n) :
    addCoordTerms X c d S w F u (n, k, j, i) = u (n, k, j, i) := by
  rw [addCoordTerms_at]
  split
  · have : inc X c d S w F n k j i = 0 := by
      have n1 : n ≠ 1 := by omega
      have n2 : n ≠ 2 := by omega
      have n3 : n ≠ 3 := by omega
      cases c
      · rfl
      · simp only [inc, cylCell, add_at, sub_at, n1, n2, if_false]; ring
      · simp only [inc, sphCell]
        split <;> simp only [add_at, sub_at, n1, n2, n3, if_false] <;> ring
    rw [this, add_zero]
  · rfl

/-- The geometric source terms of an active cell. The radial momentum gets the exact mean of `1/r` over the
cell times the azimuthal stress (in spherical coordinates plus the polar stress). Momentum that flows
through the radial faces turns with the unit vectors. In spherical coordinates the polar momentum gets
the exact mean of `cot θ / r` times the azimuthal stress, and with one cell in polar angle the azimuthal
momentum loses the same mean times the stress between them. -/
theorem geometric_sources {k j i : ℤ} (g : Good c X k j i) (hk : d.ks ≤ k ∧ k ≤ d.ke) (hj : d.js ≤ j ∧ j ≤ d.je)
    (hi : d.is ≤ i ∧ i ≤ d.ie) :
    (c = .cylindrical →
      addCoordTerms X c d S w F u (1, k, j, i) = u (1, k, j, i)
        + w * (cellMean c X k j i (fun r _ _ => 1 / r) * stress k j i S 2 2) ∧
      addCoordTerms X c d S w F u (2, k, j, i) = u (2, k, j, i) - w * turning c X k j i F 2 ∧
      addCoordTerms X c d S w F u (3, k, j, i) = u (3, k, j, i)) ∧
    (c = .spherical →
      addCoordTerms X c d S w F u (1, k, j, i) = u (1, k, j, i)
        + w * (cellMean c X k j i (fun r _ _ => 1 / r) * (stress k j i S 2 2 + stress k j i S 3 3)) ∧
      addCoordTerms X c d S w F u (2, k, j, i) = u (2, k, j, i) - w * turning c X k j i F 2
        + w * (cellMean c X k j i (fun r θ _ => Real.cos θ / Real.sin θ / r) * stress k j i S 3 3) ∧
      (d.nx2 ≤ 1 → addCoordTerms X c d S w F u (3, k, j, i) = u (3, k, j, i) - w * turning c X k j i F 3
        - w * (cellMean c X k j i (fun r θ _ => Real.cos θ / Real.sin θ / r) * stress k j i S 2 3))) := by
  have pv := (measures_pos g).1
  have mv := (measures g).2.2.2.1
  obtain ⟨d1, d2, d3, l1, l2, l3, r0, t0, tp⟩ := g
  have q2 : X.x2.dxf j ≠ 0 := by rw [d2]; linarith
  have q3 : X.x3.dxf k ≠ 0 := by rw [d3]; linarith
  simp only [addCoordTerms_at, if_pos (And.intro hk (And.intro hj hi))]
  constructor
  · rintro rfl
    have r0 := r0 (by simp)
    have s0 : X.x1.xf i + X.x1.xf (i+1) ≠ 0 := by linarith
    have a0 : Cyl.vol_i X i ≠ 0 := by intro h; simp [geom, h] at pv
    have hm : cellMean .cylindrical X k j i (fun r _ _ => 1 / r) = Cyl.src1_i X i := by
      unfold cellMean
      rw [← mv, inCell_prod (fun r => 1 / r * r) (fun _ => 1) (fun _ => 1) (by intros; simp only [h2, h3]; ring),
        over_inv_id _ _ r0 l1, over_const, over_const, ← d1, ← d2, ← d3]
      simp only [geom, Cyl.src1_i]
      field_simp
    have ht : turning .cylindrical X k j i F 2 = Cyl.src2_i X i * (X.x1.xf i * F.x1 (2,k,j,i) + X.x1.xf (i+1) * F.x1 (2,k,j,i+1)) := by
      simp only [turning, geom, Cyl.src2_i, rMid, ← d1]
      field_simp
    rw [hm, ht]
    refine ⟨?_, ?_, ?_⟩
    · simp only [inc, cylCell, add_at, sub_at, stress, gasPressure, viscous]
      cases S.nonBaro <;> cases S.mhd <;> cases S.vis <;>
        simp only [reduceIte, Int.reduceEq, Int.reduceSub, Bool.false_eq_true] <;> ring
    · simp only [inc, cylCell, add_at, sub_at]
      norm_num; ring
    · simp only [inc, cylCell, add_at, sub_at]
      norm_num
  · rintro rfl
    have r0 := r0 (by simp)
    have t0 := t0 rfl
    have tp := tp rfl
    have s0 : X.x1.xf i + X.x1.xf (i+1) ≠ 0 := by linarith
    have a0 : Sph.vol_i X i ≠ 0 := by intro h; simp [geom, h] at pv
    have b0 : Sph.vol_j X j ≠ 0 := by intro h; simp [geom, h] at pv
    have cf := cos_fall t0 l2 tp
    have sp := sin_pair t0 l2 tp
    have ej : Sph.vol_j X j = Real.cos (X.x2.xf j) - Real.cos (X.x2.xf (j+1)) := by
      simp only [Sph.vol_j, Sph.area1_j]; exact abs_of_pos (by linarith)
    have hm : cellMean .spherical X k j i (fun r _ _ => 1 / r) = Sph.src1_i X i := by
      unfold cellMean
      rw [← mv, inCell_prod (fun r => r) Real.sin (fun _ => 1) (by
          intro r θ _
          simp only [h2, h3]
          by_cases hr : r = 0
          · simp [hr]
          · field_simp),
        over_id, over_sin, over_const, ← d3, ← ej]
      simp only [geom, Sph.src1_i, Sph.area2_i]
      field_simp
      ring
    have hc : cellMean .spherical X k j i (fun r θ _ => Real.cos θ / Real.sin θ / r) = Sph.src1_i X i * Sph.src1_j X j := by
      unfold cellMean
      rw [← mv, inCell_prod (fun r => r) (fun θ => Real.cos θ / Real.sin θ * Real.sin θ) (fun _ => 1) (by
          intro r θ _
          simp only [h2, h3]
          by_cases hr : r = 0
          · simp [hr]
          · field_simp),
        over_id, over_cot_sin _ _ t0 l2 tp, over_const, ← d3]
      simp only [geom, Sph.src1_i, Sph.area2_i, Sph.src1_j, abs_of_nonneg sp.1, abs_of_nonneg sp.2.1]
      field_simp
      ring
    have ht : ∀ n, turning .spherical X k j i F n = Sph.src2_i X i *
        (Sph.area1_i X i * F.x1 (n,k,j,i) + Sph.area1_i X (i+1) * F.x1 (n,k,j,i+1)) := by
      intro n
      have : Sph.area1_j X j ≠ 0 := b0
      simp only [turning, geom, Sph.src2_i, rMid, ← d1, Sph.vol_j]
      field_simp
    rw [hm, hc]
    simp only [ht]
    refine ⟨?_, ?_, ?_⟩
    · simp only [inc, sphCell, stress, gasPressure, viscous]
      split <;>
      · simp only [add_at, sub_at]
        cases S.nonBaro <;> cases S.mhd <;> cases S.vis <;>
          simp only [reduceIte, Int.reduceEq, Int.reduceSub, Bool.false_eq_true] <;> ring
    · simp only [inc, sphCell, stress, gasPressure, viscous]
      split <;>
      · simp only [add_at, sub_at]
        cases S.nonBaro <;> cases S.mhd <;> cases S.vis <;>
          simp only [reduceIte, Int.reduceEq, Int.reduceSub, Bool.false_eq_true] <;> ring
    · intro hn
      simp only [inc, sphCell, stress, gasPressure, viscous]
      rw [if_neg (by omega)]
      simp only [add_at, sub_at, Sph.src3_j, Sph.src1_j]
      cases S.mhd <;> cases S.vis <;> simp only [reduceIte, Int.reduceEq, Int.reduceSub, Bool.false_eq_true] <;> ring

/-- Gas at rest with uniform pressure (and, in cylindrical coordinates, a uniform field along the axis)
stays exactly at rest. -/
theorem rest_stays {nv : ℕ} {P b : ℝ} (hg : GoodBlock c X d) (hr : AtRest c S P b) (hf : RestFlux nv F P b)
    (hd : d.Ok) (h1 : c = .spherical → ¬ 1 < d.nx2 → X.x2.xf d.js + X.x2.xf (d.js+1) = Real.pi) (hnv : 4 ≤ nv) {n : ℤ}
    (hn : 0 ≤ n ∧ n < nv) (k j i : ℤ) :
    stage X c d nv S w F u (n, k, j, i) = u (n, k, j, i) := by
  unfold stage
  rw [addCoordTerms_at]
  split
  · next ha =>
    obtain ⟨hk, hj, hi⟩ := ha
    rw [addFlux_in d nv _ F w u hn hk hj hi]
    have g := hg k j i hk.1 hk.2 hj.1 hj.2 hi.1 hi.2
    have pv := (measures_pos g).1
    have hsym : c = .spherical → ¬ 1 < d.nx2 → X.x2.xf (j+1) = Real.pi - X.x2.xf j := by
      intro hc h
      have h' := hd.x2
      have : d.je = d.js := by have := hd.jrange; omega
      have := h1 hc h
      have e : j = d.js := by omega
      rw [e]; linarith
    obtain ⟨d1, d2, d3, l1, l2, l3, r0, t0, tp⟩ := g
    obtain ⟨v, p, fld, nob, vis⟩ := hr
    obtain ⟨x1, x2, x3⟩ := hf
    have q1 : X.x1.dxf i ≠ 0 := by rw [d1]; linarith
    have q2 : X.x2.dxf j ≠ 0 := by rw [d2]; linarith
    have q3 : X.x3.dxf k ≠ 0 := by rw [d3]; linarith
    have v1 := v 1 k j i (by norm_num) (by norm_num)
    have v2 := v 2 k j i (by norm_num) (by norm_num)
    have v3 := v 3 k j i (by norm_num) (by norm_num)
    have pp := p k j i
    suffices h : inc X c d S w F n k j i = w * dflx d (geom X c) F n k j i / (geom X c).vol (k, j, i) by
      rw [h]; ring
    unfold dflx
    simp only [x1 n _ _ _ hn.1 hn.2, x2 n _ _ _ hn.1 hn.2, x3 n _ _ _ hn.1 hn.2]
    cases c
    · simp only [inc, geom]
      split_ifs <;> ring
    · have r0 := r0 (by simp)
      have s0 : X.x1.xf i + X.x1.xf (i+1) ≠ 0 := by linarith
      have a0 : Cyl.vol_i X i ≠ 0 := by
        intro h; simp [geom, h] at pv
      have hm : (let m := S.prim (0,k,j,i) * S.prim (2,k,j,i) * S.prim (2,k,j,i)
          let m := if S.nonBaro then m + S.prim (4,k,j,i) else m + S.cs * S.cs * S.prim (0,k,j,i)
          let m := if S.mhd then m + 0.5 * (S.bcc (0,k,j,i) ^ 2 - S.bcc (1,k,j,i) ^ 2 + S.bcc (2,k,j,i) ^ 2) else m
          if S.vis then m + 0.5 * (S.visflx.x2 (2,k,j+1,i) + S.visflx.x2 (2,k,j,i)) else m) = P + b ^ 2 / 2 := by
        simp only [v2, mul_zero, zero_add, pp]
        cases hB : S.mhd
        · rw [nob (.inl hB)]
          cases hV : S.vis
          · simp
          · simp [vis hV]
        · obtain ⟨b1, b2, b3⟩ := fld hB k j i
          rw [b1, b2, b3]
          cases hV : S.vis
          · simp; ring
          · simp [vis hV]; ring
      have f2 : ∀ k j i, F.x1 (2, k, j, i) = 0 := fun k j i => by
        rw [x1 2 k j i (by norm_num) (by omega), if_neg (by norm_num)]
      simp only at hm
      simp only [inc, cylCell, add_at, sub_at, f2, hm, geom]
      have e1 : X.x1.xf (i+1) = X.x1.dxf i + X.x1.xf i := by rw [d1]; ring
      by_cases n1 : n = 1
      · subst n1
        simp [Cyl.src1_i, e1]
        field_simp
        ring
      · by_cases n2 : n = 2
        · subst n2
          by_cases hx2 : 1 < d.nx2 <;> simp [hx2]
        · by_cases n3 : n = 3
          · subst n3
            by_cases hx3 : 1 < d.nx3 <;> simp [hx3]
          · simp [n1, n2, n3]
    · have r0 := r0 (by simp)
      have b0 := nob (.inr rfl)
      subst b0
      have a0 : Sph.vol_i X i ≠ 0 := by
        intro h; simp [geom, h] at pv
      have a1 : Sph.vol_j X j ≠ 0 := by
        intro h; simp [geom, h] at pv
      have f2 : ∀ k j i, F.x1 (2, k, j, i) = 0 := fun k j i => by
        rw [x1 2 k j i (by norm_num) (by omega), if_neg (by norm_num)]
      have f3 : ∀ k j i, F.x1 (3, k, j, i) = 0 := fun k j i => by
        rw [x1 3 k j i (by norm_num) (by omega), if_neg (by norm_num)]
      have g3 : ∀ k j i, F.x2 (3, k, j, i) = 0 := fun k j i => by
        rw [x2 3 k j i (by norm_num) (by omega), if_neg (by norm_num)]
      have hp : (let p := S.prim (0,k,j,i) * S.prim (3,k,j,i) ^ 2
          let p := if S.nonBaro then p + S.prim (4,k,j,i) else p + S.cs * S.cs * S.prim (0,k,j,i)
          let p := if S.mhd then p + 0.5 * (S.bcc (0,k,j,i) ^ 2 + S.bcc (1,k,j,i) ^ 2 - S.bcc (2,k,j,i) ^ 2) else p
          if S.vis then p + 0.5 * (S.visflx.x3 (3,k+1,j,i) + S.visflx.x3 (3,k,j,i)) else p) = P := by
        simp only [v3, ne_eq, OfNat.ofNat_ne_zero, not_false_eq_true, zero_pow, mul_zero, zero_add, pp]
        cases hB : S.mhd
        · cases hV : S.vis
          · simp
          · simp [vis hV]
        · obtain ⟨b1, b2, b3⟩ := fld hB k j i
          rw [b1, b2, b3]
          cases hV : S.vis
          · simp
          · simp [vis hV]
      have pp2 : (if S.nonBaro then 2 * S.prim (4,k,j,i) else 2 * (S.cs * S.cs) * S.prim (0,k,j,i)) = 2 * P := by
        rw [← pp]; split <;> ring
      have hm : (let m := S.prim (0,k,j,i) * (S.prim (2,k,j,i) ^ 2 + S.prim (3,k,j,i) ^ 2)
          let m := if S.nonBaro then m + 2 * S.prim (4,k,j,i) else m + 2 * (S.cs * S.cs) * S.prim (0,k,j,i)
          let m := if S.mhd then m + S.bcc (0,k,j,i) ^ 2 else m
          if S.vis then m + 0.5 * (S.visflx.x2 (2,k,j+1,i) + S.visflx.x2 (2,k,j,i))
            + 0.5 * (S.visflx.x3 (3,k+1,j,i) + S.visflx.x3 (3,k,j,i)) else m) = 2 * P := by
        simp only [v2, v3, ne_eq, OfNat.ofNat_ne_zero, not_false_eq_true, zero_pow, add_zero, mul_zero, zero_add, pp2]
        cases hB : S.mhd
        · cases hV : S.vis
          · simp
          · simp [vis hV]
        · obtain ⟨b1, b2, b3⟩ := fld hB k j i
          rw [b1]
          cases hV : S.vis
          · simp
          · simp [vis hV]
      have hq : (let q := S.prim (0,k,j,i) * S.prim (3,k,j,i) * S.prim (2,k,j,i)
          let q := if S.mhd then q - S.bcc (2,k,j,i) * S.bcc (1,k,j,i) else q
          if S.vis then q + 0.5 * (S.visflx.x2 (3,k,j+1,i) + S.visflx.x2 (3,k,j,i)) else q) = 0 := by
        simp only [v2, mul_zero]
        cases hB : S.mhd
        · cases hV : S.vis
          · simp
          · simp [vis hV]
        · obtain ⟨b1, b2, b3⟩ := fld hB k j i
          rw [b2]
          cases hV : S.vis
          · simp
          · simp [vis hV]
      simp only at hm hp hq
      simp only [inc, sphCell, geom]
      have es : ¬ 1 < d.nx2 → Sph.src1_j X j = 0 := by
        intro h
        rw [Sph.src1_j, hsym rfl h, Real.sin_pi_sub]; simp
      by_cases hx2 : 1 < d.nx2
      · simp only [gt_iff_lt, if_pos hx2, add_at, sub_at, f2, f3, g3, hp, hm]
        by_cases n1 : n = 1
        · subst n1
          simp [Sph.src1_i, Sph.area1_i, Sph.area2_i]
          rw [show Sph.area1_j X j = Sph.vol_j X j from rfl]
          field_simp
          ring
        · by_cases n2 : n = 2
          · subst n2
            simp [Sph.src1_i, Sph.src1_j, Sph.area2_j]
            field_simp
          · by_cases n3 : n = 3
            · subst n3
              by_cases hx3 : 1 < d.nx3 <;> simp [hx3]
            · simp [n1, n2, n3]
      · simp only [gt_iff_lt, if_neg hx2, add_at, sub_at, f2, f3, hp, hm, hq, es hx2]
        have hx3 : ¬ 1 < d.nx3 := fun h => hx2 (hd.ord h)
        by_cases n1 : n = 1
        · subst n1
          simp [Sph.src1_i, Sph.area1_i, Sph.area2_i, hx3]
          rw [show Sph.area1_j X j = Sph.vol_j X j from rfl]
          field_simp
          ring
        · simp [n1, hx3]
  · next ha =>
    exact addFlux_out d nv _ F w u (fun h => ha h.2)

/-- With these source terms the momentum along the azimuth, times the distance from the axis, changes
only by fluxes through faces. -/
theorem angular_momentum_cell {nv : ℕ} (hg : GoodBlock c X d) (hd : d.Ok)
    (h1 : c = .spherical → ¬ 1 < d.nx2 → X.x2.xf d.js + X.x2.xf (d.js+1) = Real.pi)
    (hn : azimuth c < nv) {k j i : ℤ}
    (hk : d.ks ≤ k ∧ k ≤ d.ke) (hj : d.js ≤ j ∧ j ≤ d.je) (hi : d.is ≤ i ∧ i ≤ d.ie) :
    (moment c X).vol (k, j, i) * stage X c d nv S w F u (azimuth c, k, j, i) =
      (moment c X).vol (k, j, i) * u (azimuth c, k, j, i) - w * dflx d (moment c X) F (azimuth c) k j i := by
  have h0 : 0 ≤ azimuth c := by cases c <;> simp [azimuth]
  unfold stage
  rw [addCoordTerms_at, if_pos ⟨hk, hj, hi⟩, addFlux_in d nv _ F w u ⟨h0, hn⟩ hk hj hi]
  have g := hg k j i hk.1 hk.2 hj.1 hj.2 hi.1 hi.2
  have pv := (measures_pos g).1
  -- the polar range of a cell is not everything when there are several
  have hne : c = .spherical → 1 < d.nx2 → 0 < X.x2.xf j ∨ X.x2.xf (j+1) < Real.pi := by
    intro hc h
    by_cases hj' : j = d.js
    · right
      have := hd.jrange
      have g' := hg k (j+1) i hk.1 hk.2 (by omega) (by omega) hi.1 hi.2
      have := g'.l2
      have := g'.tp hc
      linarith
    · left
      have g' := hg k (j-1) i hk.1 hk.2 (by omega) (by omega) hi.1 hi.2
      have := g'.l2
      have := g'.t0 hc
      rw [sub_add_cancel] at *
      linarith
  have hsym : c = .spherical → ¬ 1 < d.nx2 → X.x2.xf (j+1) = Real.pi - X.x2.xf j := by
    intro hc h
    have h' := hd.x2
    have : d.je = d.js := by have := hd.jrange; omega
    have := h1 hc h
    have e : j = d.js := by omega
    rw [e]; linarith
  obtain ⟨d1, d2, d3, l1, l2, l3, r0, t0, tp⟩ := g
  have ev : (moment c X).vol (k, j, i) = lever c (rMid X i) (sMid X j) * (geom X c).vol (k, j, i) := rfl
  suffices h : lever c (rMid X i) (sMid X j) * (w * dflx d (geom X c) F (azimuth c) k j i -
      (geom X c).vol (k, j, i) * inc X c d S w F (azimuth c) k j i) = w * dflx d (moment c X) F (azimuth c) k j i by
    rw [← h, ev]
    field_simp
    ring
  have q1 : X.x1.dxf i ≠ 0 := by rw [d1]; linarith
  have q2 : X.x2.dxf j ≠ 0 := by rw [d2]; linarith
  have q3 : X.x3.dxf k ≠ 0 := by rw [d3]; linarith
  have e1 : X.x1.xf (i+1) = X.x1.dxf i + X.x1.xf i := by rw [d1]; ring
  cases c
  · simp only [inc, lever, dflx, moment, azimuth]
    ring
  · have r0 := r0 (by simp)
    have s0 : X.x1.xf i + X.x1.xf (i+1) ≠ 0 := by linarith
    have a0 : Cyl.vol_i X i ≠ 0 := by
      intro h; simp [geom, h] at pv
    have ei : (geom X .cylindrical).vol (k, j, i) * inc X .cylindrical d S w F 2 k j i =
        - (w * X.x1.dxf i / (X.x1.xf i + X.x1.xf (i+1)) * X.x2.dxf j * X.x3.dxf k *
          (X.x1.xf i * F.x1 (2,k,j,i) + X.x1.xf (i+1) * F.x1 (2,k,j,i+1))) := by
      simp only [inc, cylCell, add_at, sub_at, geom, Cyl.src2_i]
      norm_num
      field_simp
    simp only [azimuth] at *
    rw [ei]
    unfold dflx
    simp only [moment, lever, geom, rMid]
    have er : X.x1.dxf i = X.x1.xf (i+1) - X.x1.xf i := d1
    by_cases hx2 : 1 < d.nx2 <;> by_cases hx3 : 1 < d.nx3 <;>
      simp only [gt_iff_lt, hx2, hx3, if_true, if_false] <;> rw [er] <;> field_simp <;> ring
  · have r0 := r0 (by simp)
    have s0 : X.x1.xf i + X.x1.xf (i+1) ≠ 0 := by linarith
    have a0 : Sph.vol_i X i ≠ 0 := by
      intro h; simp [geom, h] at pv
    have a1 : Sph.vol_j X j ≠ 0 := by
      intro h; simp [geom, h] at pv
    obtain ⟨sm0, sp0, ss⟩ := sin_pair (t0 rfl) l2 (tp rfl)
    have ea : ∀ j, Sph.area1_j X j = Sph.vol_j X j := fun _ => rfl
    have e1 : Sph.src1_i X i = Sph.area2_i X i / Sph.vol_i X i := rfl
    have e2 : Sph.src2_i X i = X.x1.dxf i / ((X.x1.xf i + X.x1.xf (i+1)) * Sph.vol_i X i) := rfl
    simp only [azimuth] at *
    by_cases hx2 : 1 < d.nx2
    · have t0 := ss (hne trivial hx2)
      have ej : Sph.src2_j X j = (Real.sin (X.x2.xf (j+1)) - Real.sin (X.x2.xf j)) /
          ((Real.sin (X.x2.xf j) + Real.sin (X.x2.xf (j+1))) * Sph.vol_j X j) := by
        rw [Sph.src2_j, abs_of_nonneg sm0, abs_of_nonneg sp0]
      have ei : (geom X .spherical).vol (k, j, i) * inc X .spherical d S w F 3 k j i =
          - (w * X.x3.dxf k * (Sph.vol_j X j * X.x1.dxf i / (X.x1.xf i + X.x1.xf (i+1)) *
            (X.x1.xf i ^ 2 * F.x1 (3,k,j,i) + X.x1.xf (i+1) ^ 2 * F.x1 (3,k,j,i+1)) +
            Sph.area2_i X i * (Real.sin (X.x2.xf (j+1)) - Real.sin (X.x2.xf j)) /
              (Real.sin (X.x2.xf j) + Real.sin (X.x2.xf (j+1))) *
            (Real.sin (X.x2.xf j) * F.x2 (3,k,j,i) + Real.sin (X.x2.xf (j+1)) * F.x2 (3,k,j+1,i)))) := by
        simp only [inc, sphCell, gt_iff_lt, if_pos hx2, add_at, sub_at, geom, e1, e2, ej, Sph.area1_i, Sph.area2_j,
          abs_of_nonneg sm0, abs_of_nonneg sp0]
        norm_num
        field_simp
        ring
      rw [ei]
      unfold dflx
      simp only [moment, lever, geom, rMid, sMid, ea, Sph.area1_i, Sph.area2_j, abs_of_nonneg sm0, abs_of_nonneg sp0]
      generalize Real.sin (X.x2.xf (j+1)) = sp at *
      generalize Real.sin (X.x2.xf j) = sm at *
      by_cases hx3 : 1 < d.nx3 <;>
        simp only [gt_iff_lt, hx2, hx3, if_true, if_false] <;> rw [d1] <;> field_simp <;> ring
    · have hx3 : ¬ 1 < d.nx3 := fun h => hx2 (hd.ord h)
      have es : Sph.src3_j X j = 0 := by
        rw [Sph.src3_j, hsym trivial hx2, Real.sin_pi_sub]; simp
      have ei : (geom X .spherical).vol (k, j, i) * inc X .spherical d S w F 3 k j i =
          - (w * X.x3.dxf k * (Sph.vol_j X j * X.x1.dxf i / (X.x1.xf i + X.x1.xf (i+1)) *
            (X.x1.xf i ^ 2 * F.x1 (3,k,j,i) + X.x1.xf (i+1) ^ 2 * F.x1 (3,k,j,i+1)))) := by
        simp only [inc, sphCell, gt_iff_lt, if_neg hx2, add_at, sub_at, geom, e2, es, Sph.area1_i]
        norm_num
        field_simp
      rw [ei]
      unfold dflx
      simp only [moment, lever, geom, rMid, ea, Sph.area1_i, gt_iff_lt, hx2, hx3, if_false]
      rw [d1]; field_simp; ring

/-- The angular momentum of a block about the axis changes only by the angular momentum that passes
through the faces of the block. -/
theorem angular_momentum_block {nv : ℕ} (hg : GoodBlock c X d) (hd : d.Ok)
    (h1 : c = .spherical → ¬ 1 < d.nx2 → X.x2.xf d.js + X.x2.xf (d.js+1) = Real.pi)
    (hn : azimuth c < nv) :
    content d (moment c X) (stage X c d nv S w F u) (azimuth c) =
      content d (moment c X) u (azimuth c) - w * ∑ f ∈ Finset.range 6, outflow d (moment c X) F (azimuth c) f := by
  rw [← sum_dflx hd]
  unfold content
  simp only [Finset.mul_sum, ← Finset.sum_sub_distrib]
  refine Finset.sum_congr rfl fun k hk => Finset.sum_congr rfl fun j hj => Finset.sum_congr rfl fun i hi => ?_
  exact angular_momentum_cell hg hd h1 hn (Finset.mem_Icc.1 hk) (Finset.mem_Icc.1 hj) (Finset.mem_Icc.1 hi)

end

/-! ## The hypotheses are met -/

/-- Radii 2, 3, ..., 10, polar angles 1/2, 3/4, ..., 3/2. -/
noncomputable def exX : XF := ⟨ofPos fun i => i, ofPos fun j => j / 4, ofPos fun k => k⟩
def exD : Dims := ⟨2, 8, 4, 1⟩
theorem exD_ok : exD.Ok := ⟨by decide, by decide, by decide, by decide⟩

theorem exX_good (c : Sys) : GoodBlock c exX exD := by
  intro k j i k0 k1 j0 j1 i0 i1
  have hj : (j : ℝ) ≤ 5 := by exact_mod_cast j1
  have hj0 : (2 : ℝ) ≤ j := by exact_mod_cast j0
  have hi0 : (2 : ℝ) ≤ i := by exact_mod_cast i0
  have hp : (2:ℝ) ≤ Real.pi := Real.two_le_pi
  refine ⟨rfl, rfl, rfl, ?_, ?_, ?_, fun _ => ?_, fun _ => ?_, fun _ => ?_⟩ <;>
    simp only [exX, ofPos] <;> push_cast <;> linarith

/-- Gas at rest with pressure 3, in cylindrical coordinates with a field along the axis. -/
def exRest (b : ℝ) : Src where
  nonBaro := true
  cs := 0
  mhd := true
  vis := false
  prim := fun (n, _) => if n = 0 then 1 else if n = 4 then 3 else 0
  bcc := fun (n, _) => if n = 2 then b else 0
  visflx := ⟨fun _ => 0, fun _ => 0, fun _ => 0⟩
noncomputable def exRestFlux (b : ℝ) : Flx ℝ where
  x1 := fun (n, _) => if n = 1 then 3 + b ^ 2 / 2 else 0
  x2 := fun (n, _) => if n = 2 then 3 + b ^ 2 / 2 else 0
  x3 := fun (n, _) => if n = 3 then 3 - b ^ 2 / 2 else 0

theorem exRest_ok (c : Sys) {b : ℝ} (hb : c = .spherical → b = 0) : AtRest c (exRest b) 3 b := by
  refine ⟨?_, ?_, ?_, ?_, ?_⟩
  · intro n k j i h1 h3
    have : n ≠ 0 ∧ n ≠ 4 := by omega
    simp [exRest, this]
  · simp [exRest]
  · simp [exRest]
  · simpa [exRest] using hb
  · simp [exRest]

/-- All hypotheses of `rest_stays` and of the theorems on angular momentum. -/
example : GoodBlock .cylindrical exX exD ∧ GoodBlock .spherical exX exD ∧ exD.Ok ∧ 1 < exD.nx2 ∧
    AtRest .cylindrical (exRest 2) 3 2 ∧ AtRest .spherical (exRest 0) 3 0 ∧
    RestFlux 5 (exRestFlux 2) 3 2 ∧ RestFlux 5 (exRestFlux 0) 3 0 :=
  ⟨exX_good _, exX_good _, exD_ok, by decide, exRest_ok _ (by simp), exRest_ok _ (by simp),
    ⟨fun _ _ _ _ _ _ => rfl, fun _ _ _ _ _ _ => rfl, fun _ _ _ _ _ _ => rfl⟩,
    ⟨fun _ _ _ _ _ _ => rfl, fun _ _ _ _ _ _ => rfl, fun _ _ _ _ _ _ => rfl⟩⟩

/-- The pressure alone, without the geometric terms, would move this gas: the source term is not zero. -/
example : addCoordTerms exX .cylindrical exD (exRest 0) 1 (exRestFlux 0) (fun _ => 0) (1, 0, 2, 2) = 6 / 5 := by
  rw [addCoordTerms_at, if_pos (by decide)]
  simp [inc, cylCell, add, sub, exX, exRest, exRestFlux, ofPos, Cyl.src1_i, Cyl.vol_i, Cyl.area3_i]
  norm_num

/-- The hypotheses of `geometric_sources`: the azimuthal stress there is the pressure `3`. -/
example : Good .spherical exX 0 2 2 ∧ exD.js ≤ 2 ∧ 2 ≤ exD.je ∧ stress 0 2 2 (exRest 0) 3 3 = 3 :=
  ⟨exX_good _ _ _ _ (by decide) (by decide) (by decide) (by decide) (by decide) (by decide), by decide, by decide,
    by simp [stress, gasPressure, viscous, exRest]⟩

/-- With one cell in polar angle that is not symmetric about the equator gas at rest does not stay at
rest: the source term `m_pp` is added to `IM2` and nothing balances it. -/
theorem rest_moves_off_equator : ∃ (X : XF) (d : Dims) (S : Src) (F : Flx ℝ), GoodBlock .spherical X d ∧ d.Ok ∧
    d.nx2 = 1 ∧ AtRest .spherical S 3 0 ∧ RestFlux 5 F 3 0 ∧
    ∀ u : A4 ℝ, u (2, 0, 0, 2) < stage X .spherical d 5 S 1 F u (2, 0, 0, 2) := by
  refine ⟨exX, ⟨2, 8, 1, 1⟩, exRest 0, exRestFlux 0, ?_, ⟨by decide, by decide, by decide, by decide⟩, rfl, exRest_ok _ (fun _ => rfl),
    ⟨fun _ _ _ _ _ _ => rfl, fun _ _ _ _ _ _ => rfl, fun _ _ _ _ _ _ => rfl⟩, fun u => ?_⟩
  · intro k j i k0 k1 j0 j1 i0 i1
    have hj : (j : ℝ) ≤ 0 := by exact_mod_cast j1
    have hj0 : (0 : ℝ) ≤ j := by exact_mod_cast j0
    have hi0 : (2 : ℝ) ≤ i := by exact_mod_cast i0
    have hp : (2:ℝ) ≤ Real.pi := Real.two_le_pi
    refine ⟨rfl, rfl, rfl, ?_, ?_, ?_, fun _ => ?_, fun _ => ?_, fun _ => ?_⟩ <;>
      simp only [exX, ofPos] <;> push_cast <;> linarith
  · unfold stage
    rw [addCoordTerms_at, if_pos (by decide), addFlux_in _ 5 _ _ _ _ (by decide) (by decide) (by decide) (by decide)]
    have e1 : dflx ⟨2, 8, 1, 1⟩ (geom exX .spherical) (exRestFlux 0) 2 0 0 2 = 0 := by
      simp [dflx, exRestFlux]
    have hs : 0 < Real.sin (4⁻¹ : ℝ) := Real.sin_pos_of_pos_of_lt_pi (by norm_num) (by linarith [Real.two_le_pi])
    have hc : Real.cos (4⁻¹ : ℝ) < 1 := by
      have := Real.cos_lt_cos_of_nonneg_of_le_pi (x := 0) (y := (4⁻¹ : ℝ)) le_rfl (by linarith [Real.two_le_pi]) (by norm_num)
      simpa using this
    have e2 : 0 < inc exX .spherical ⟨2, 8, 1, 1⟩ (exRest 0) 1 (exRestFlux 0) 2 0 0 2 := by
      simp [inc, sphCell, add_at, sub_at, exX, exRest, exRestFlux, ofPos, Sph.src1_i, Sph.vol_i, Sph.area2_i, Sph.src1_j, Sph.vol_j, Sph.area1_j]
      have h1 : 0 < |Real.sin (4⁻¹ : ℝ)| := abs_pos.2 hs.ne'
      have h2 : 0 < |1 - Real.cos (4⁻¹ : ℝ)| := abs_pos.2 (by linarith)
      refine mul_pos (by norm_num) (div_pos h1 h2)
    rw [e1, mul_zero, zero_div, sub_zero]
    linarith

end Verif.Coord
