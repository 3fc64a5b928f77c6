import Verif.Lemmas.Resist
import Verif.Lemmas.Diffusion
import Mathlib.Tactic.Tauto
import Mathlib.Data.Fin.VecNotation
import Mathlib.Tactic.FieldSimp
import Mathlib.Tactic.LinearCombination
import Mathlib.Tactic.Positivity

/-!
# Resistivity and ambipolar diffusion: current and electric field (C75)

Exact arithmetic in an ordered field.
-/
namespace Verif.Resist
open Verif.Grid
open Verif.Diffusion (Met Along)
open Verif.Coord (XF x1v x2v x3v)

section
variable {K : Type} [Field K] [LinearOrder K]

/-- A field that is the gradient of a potential has no current, in any coordinates: if the field times the distance of two cell
centres is the difference of a potential `φ` between them (in a direction without cells, the same everywhere), the current
vanishes on all edges of the active cells. -/
theorem current_potential (d : Dims) (hd : Shape d) (G : VC K) (b : FF K) (old : EF K) {phi : A3 K} {c2 c3 : K}
    (h1 : ∀ k j i, G.l1 (k, j, i-1) * b.x1f (k, j, i) = phi (k, j, i) - phi (k, j, i-1))
    (h2 : d.nx2 > 1 → ∀ k j i, G.l2 (k, j-1, i) * b.x2f (k, j, i) = phi (k, j, i) - phi (k, j-1, i))
    (h3 : d.nx3 > 1 → ∀ k j i, G.l3 (k-1, j, i) * b.x3f (k, j, i) = phi (k, j, i) - phi (k-1, j, i))
    (n2 : d.nx2 = 1 → ∀ k j i, G.l2 (k, j, i) * b.x2f (k, j, i) = c2)
    (n3 : d.nx3 = 1 → ∀ k j i, G.l3 (k, j, i) * b.x3f (k, j, i) = c3)
    {k j i : Int} (hk : Row3 d k) (hj : Row2 d j) (hi : d.is ≤ i ∧ i ≤ d.ie + 1) :
    (d.nx2 > 1 → (current d G b old).x1e (k, j, i) = 0) ∧ (current d G b old).x2e (k, j, i) = 0 ∧
      (current d G b old).x3e (k, j, i) = 0 := by
  obtain ⟨-, o2, o3, oo⟩ := hd
  refine ⟨fun m2 => ?_, ?_, ?_⟩
  · rw [current_x1, cur1_at d G b _ m2 hk hj hi]
    by_cases m3 : d.nx3 > 1
    · rw [show ext3 d = 1 from if_pos m3, if_pos m3, h3 m3, h3 m3, h2 m2, h2 m2]; ring
    · rw [show ext3 d = 0 from if_neg m3, if_neg m3]
      simp only [sub_zero, n3 (by omega), sub_self, zero_div]
  · rw [current_x2, cur2_at d oo G b _ hk hj hi]
    by_cases m3 : d.nx3 > 1
    · rw [show ext3 d = 1 from if_pos m3, if_pos m3, h3 m3, h3 m3, h1, h1]; ring
    · rw [show ext3 d = 0 from if_neg m3, if_neg m3]
      simp only [sub_zero, n3 (by omega), sub_self, neg_zero, zero_div, add_zero]
  · rw [current_x3, cur3_at d G b _ hk hj hi]
    by_cases m2 : d.nx2 > 1
    · rw [show ext2 d = 1 from if_pos m2, if_pos m2, h2 m2, h2 m2, h1, h1]; ring
    · rw [show ext2 d = 0 from if_neg m2, if_neg m2]
      simp only [sub_zero, n2 (by omega), sub_self, zero_div]

/-- On a Cartesian mesh, uniform or not, the current of a linear field is its curl. -/
theorem current_linear (d : Dims) (hd : Shape d) (M : Met K) (b : FF K) (old : EF K) {c1 c2 c3 f1 f2 f3 : Int → K}
    (m1 : ∀ i, M.dx1v i = c1 (i+1) - c1 i ∧ M.dx1v i ≠ 0) (m2 : ∀ j, M.dx2v j = c2 (j+1) - c2 j ∧ M.dx2v j ≠ 0)
    (m3 : ∀ k, M.dx3v k = c3 (k+1) - c3 k ∧ M.dx3v k ≠ 0) {v : Fin 3 → K} {A : Fin 3 → Fin 3 → K} (hA : Along d A)
    (hb : AtFaces c1 c2 c3 f1 f2 f3 v A b) {k j i : Int} (hk : Row3 d k) (hj : Row2 d j) (hi : d.is ≤ i ∧ i ≤ d.ie + 1) :
    (d.nx2 > 1 → (current d (cartVC M) b old).x1e (k, j, i) = A 2 1 - A 1 2) ∧
      (current d (cartVC M) b old).x2e (k, j, i) = A 0 2 - A 2 0 ∧
      (current d (cartVC M) b old).x3e (k, j, i) = A 1 0 - A 0 1 := by
  obtain ⟨-, o2, o3, oo⟩ := hd
  obtain ⟨e1, n1⟩ := m1 (i-1)
  obtain ⟨e2, n2⟩ := m2 (j-1)
  obtain ⟨e3, n3⟩ := m3 (k-1)
  rw [show i - 1 + 1 = i by omega] at e1
  rw [show j - 1 + 1 = j by omega] at e2
  rw [show k - 1 + 1 = k by omega] at e3
  have z3 := (m3 (k - ext3 d)).2
  have z2 := (m2 (j - ext2 d)).2
  have q : ∀ {l s D x y : K}, l ≠ 0 → D ≠ 0 → x - y = s * D → (l * x - l * y) / (D * l) = s := by
    intro l s D x y hl hD h
    rw [← mul_sub, h, div_eq_iff (mul_ne_zero hD hl)]; ring
  have q' : ∀ {l s D x y : K}, l ≠ 0 → D ≠ 0 → x - y = s * D → (l * x - l * y) / (l * D) = s := by
    intro l s D x y hl hD h
    rw [mul_comm l D]; exact q hl hD h
  refine ⟨fun g2 => ?_, ?_, ?_⟩
  · rw [current_x1, cur1_at d _ b _ g2 hk hj hi]
    simp only [cartVC, hb.x3, hb.x2, lin]
    rw [q z3 n2 (s := A 2 1) (by rw [e2]; ring)]
    by_cases g3 : d.nx3 > 1
    · rw [if_pos g3, q' n2 n3 (s := A 1 2) (by rw [e3]; ring)]
    · rw [if_neg g3, hA.2 g3]
  · rw [current_x2, cur2_at d oo _ b _ hk hj hi]
    simp only [cartVC, hb.x3, hb.x1, lin]
    rw [neg_div, q z3 n1 (s := A 2 0) (by rw [e1]; ring)]
    by_cases g3 : d.nx3 > 1
    · rw [if_pos g3, q' n1 n3 (s := A 0 2) (by rw [e3]; ring)]; ring
    · rw [if_neg g3, hA.2 g3]; ring
  · rw [current_x3, cur3_at d _ b _ hk hj hi]
    simp only [cartVC, hb.x2, hb.x1, lin]
    rw [q z2 n1 (s := A 1 0) (by rw [e1]; ring)]
    by_cases g2 : d.nx2 > 1
    · rw [if_pos g2, q' n1 n2 (s := A 0 1) (by rw [e2]; ring)]
    · rw [if_neg g2, hA.1 g2]

end

/-! ## Fields around the axis -/

/-- In cylindrical coordinates a field around the axis, the sum of that of a uniform vertical current `2 α` and that of a current on
the axis, `B_φ = α r + β/r`, has the current `2 α` along the axis and no other. -/
theorem current_cylindrical (d : Dims) (hd : Shape d) (X : XF) (M : Met ℝ) (b : FF ℝ) (old : EF ℝ) {al be : ℝ}
    (m2 : ∀ j, M.dx2v j ≠ 0) (h1 : ∀ q, b.x1f q = 0) (h2 : ∀ k j i, b.x2f (k, j, i) = al * x1v X .cylindrical i + be / x1v X .cylindrical i)
    (h3 : ∀ q, b.x3f q = 0) {k j i : ℤ} (hk : Row3 d k) (hj : Row2 d j) (hi : d.is ≤ i ∧ i ≤ d.ie + 1)
    (hr : 0 < x1v X .cylindrical (i-1) ∧ x1v X .cylindrical (i-1) < x1v X .cylindrical i) :
    (d.nx2 > 1 → (current d (cylVC X M) b old).x1e (k, j, i) = 0) ∧ (current d (cylVC X M) b old).x2e (k, j, i) = 0 ∧
      (current d (cylVC X M) b old).x3e (k, j, i) = 2 * al := by
  obtain ⟨-, o2, o3, oo⟩ := hd
  refine ⟨fun g2 => ?_, ?_, ?_⟩
  · rw [current_x1, cur1_at d _ b _ g2 hk hj hi]
    simp only [h3, h2, cylVC, mul_zero, sub_zero, sub_self, zero_div, ite_self]
  · rw [current_x2, cur2_at d oo _ b _ hk hj hi]
    simp only [h3, h1, mul_zero, sub_self, neg_zero, zero_div, ite_self, add_zero]
  · rw [current_x3, cur3_at d _ b _ hk hj hi]
    simp only [h1, h2, cylVC, mul_zero, sub_self, zero_div, ite_self, sub_zero, show i - 1 + 1 = i by omega]
    obtain ⟨p, l⟩ := hr
    have p' := p.trans l
    have z := m2 (j - ext2 d)
    generalize M.dx2v (j - ext2 d) = w at *
    generalize x1v X .cylindrical i = r' at *
    generalize x1v X .cylindrical (i-1) = r at *
    have n : r' ^ 2 - r ^ 2 ≠ 0 := by
      have : r ^ 2 < r' ^ 2 := by nlinarith
      linarith
    have e : r' * w * (al * r' + be / r') - r * w * (al * r + be / r) = al * (r' ^ 2 - r ^ 2) * w := by
      field_simp
      ring
    rw [e, div_eq_iff (mul_ne_zero (mul_ne_zero (by norm_num) n) z)]
    ring

/-- In spherical coordinates the same field, `B_φ = α r sin θ + β/(r sin θ)`: the current along the polar angle is `-2 α sin θ`, along
the radius `2 α` times the mean of the cosines at the two cells that share the edge. -/
theorem current_spherical (d : Dims) (hd : Shape d) (h2 : d.nx2 > 1) (X : XF) (M : Met ℝ) (b : FF ℝ) (old : EF ℝ) {al be : ℝ}
    (m3 : ∀ k, M.dx3v k ≠ 0) (b1 : ∀ q, b.x1f q = 0) (b2 : ∀ q, b.x2f q = 0)
    (b3 : ∀ k j i, b.x3f (k, j, i) = al * (x1v X .spherical i * Real.sin (x2v X d.nx2 .spherical j))
      + be / (x1v X .spherical i * Real.sin (x2v X d.nx2 .spherical j)))
    {k j i : ℤ} (hk : Row3 d k) (hj : Row2 d j) (hi : d.is ≤ i ∧ i ≤ d.ie + 1)
    (hr : 0 < x1v X .spherical (i-1) ∧ x1v X .spherical (i-1) < x1v X .spherical i)
    (ht : ∀ j', (j' = j - 1 ∨ j' = j) → 0 < Real.sin (x2v X d.nx2 .spherical j'))
    (hc : Real.cos (x2v X d.nx2 .spherical j) < Real.cos (x2v X d.nx2 .spherical (j-1))) :
    (current d (sphVC X d.nx2 M) b old).x1e (k, j, i) =
        al * (Real.cos (x2v X d.nx2 .spherical (j-1)) + Real.cos (x2v X d.nx2 .spherical j)) ∧
      (current d (sphVC X d.nx2 M) b old).x2e (k, j, i) = -(2 * al * Real.sin (x2v X d.nx2 .spherical j)) ∧
      (current d (sphVC X d.nx2 M) b old).x3e (k, j, i) = 0 := by
  obtain ⟨-, o2, o3, oo⟩ := hd
  have s1 := ht (j-1) (Or.inl rfl)
  have s0 := ht j (Or.inr rfl)
  have z := m3 (k - ext3 d)
  refine ⟨?_, ?_, ?_⟩
  · rw [current_x1, cur1_at d _ b _ h2 hk hj hi]
    simp only [b3, b2, sphVC, mul_zero, sub_self, zero_div, ite_self, sub_zero, show j - 1 + 1 = j by omega]
    have c1 := Real.sin_sq_add_cos_sq (x2v X d.nx2 .spherical j)
    have c2 := Real.sin_sq_add_cos_sq (x2v X d.nx2 .spherical (j-1))
    have p := hr.1.trans hr.2
    rw [abs_of_pos s1, abs_of_pos s0, abs_of_pos (sub_pos.2 hc)]
    generalize M.dx3v (k - ext3 d) = w at *
    generalize x1v X .spherical i = r at *
    generalize Real.sin (x2v X d.nx2 .spherical j) = s at *
    generalize Real.sin (x2v X d.nx2 .spherical (j-1)) = t at *
    generalize Real.cos (x2v X d.nx2 .spherical j) = c at *
    generalize Real.cos (x2v X d.nx2 .spherical (j-1)) = c' at *
    have e : r * s * w * (al * (r * s) + be / (r * s)) - r * t * w * (al * (r * t) + be / (r * t)) = al * r ^ 2 * (s ^ 2 - t ^ 2) * w := by
      field_simp
      ring
    have n : c' - c ≠ 0 := by linarith
    rw [e, div_eq_iff (mul_ne_zero (mul_ne_zero (pow_ne_zero 2 p.ne') n) z)]
    linear_combination al * r ^ 2 * w * (c1 - c2)
  · rw [current_x2, cur2_at d oo _ b _ hk hj hi]
    simp only [b3, b1, sphVC, mul_zero, sub_self, zero_div, ite_self, add_zero, show i - 1 + 1 = i by omega]
    obtain ⟨p, l⟩ := hr
    have p' := p.trans l
    rw [abs_of_pos s0]
    generalize M.dx3v (k - ext3 d) = w at *
    generalize x1v X .spherical i = r' at *
    generalize x1v X .spherical (i-1) = r at *
    generalize Real.sin (x2v X d.nx2 .spherical j) = s at *
    have n : r' ^ 2 - r ^ 2 ≠ 0 := by
      have : r ^ 2 < r' ^ 2 := by nlinarith
      linarith
    have e : -(r' * s * w * (al * (r' * s) + be / (r' * s)) - r * s * w * (al * (r * s) + be / (r * s)))
        = -(al * (r' ^ 2 - r ^ 2) * s ^ 2 * w) := by
      field_simp
      ring
    rw [e, div_eq_iff (mul_ne_zero (mul_ne_zero (mul_ne_zero (by norm_num) n) s0.ne') z)]
    ring
  · rw [current_x3, cur3_at d _ b _ hk hj hi]
    simp only [b2, b1, mul_zero, sub_self, zero_div, ite_self]

/-! ## Electric field -/

section
variable {K : Type} [Field K] [LinearOrder K] [IsStrictOrderedRing K]

/-- Ohm's law: on edges of active cells `OhmicEMF` adds `η J`, with `η` at the edge for diffusivities that vary linearly over a uniform mesh. -/
theorem ohmic_linear (d : Dims) (hd : Shape d) (etaB : A4 K) (J e : EF K) {v0 v1 v2 v3 : K}
    (he : ∀ k j i : Int, etaB (0, k, j, i) = v0 + v1 * i + v2 * j + v3 * k) (a2 : ¬ d.nx2 > 1 → v2 = 0) (a3 : ¬ d.nx3 > 1 → v3 = 0)
    {k j i : Int} (hk : Row3 d k) (hj : Row2 d j) (hi : d.is ≤ i ∧ i ≤ d.ie + 1) :
    (d.nx2 > 1 → (ohmicEMF d etaB J e).x1e (k, j, i) =
      e.x1e (k, j, i) + (v0 + v1 * i + v2 * (j - 1 / 2) + v3 * (k - 1 / 2)) * J.x1e (k, j, i)) ∧
    (ohmicEMF d etaB J e).x2e (k, j, i) =
      e.x2e (k, j, i) + (v0 + v1 * (i - 1 / 2) + v2 * j + v3 * (k - 1 / 2)) * J.x2e (k, j, i) ∧
    (k ≤ d.ke → (ohmicEMF d etaB J e).x3e (k, j, i) =
      e.x3e (k, j, i) + (v0 + v1 * (i - 1 / 2) + v2 * (j - 1 / 2) + v3 * k) * J.x3e (k, j, i)) := by
  obtain ⟨-, o2, o3, oo⟩ := hd
  have c3 : d.nx3 = 1 ∨ d.nx3 > 1 := by omega
  have c2 : d.nx2 = 1 ∨ d.nx2 > 1 := by omega
  refine ⟨fun m2 => ?_, ?_, fun hk' => ?_⟩
  · rw [ohmicEMF, addEdges1 d oo _ _ _ e m2 hk hj hi c3]
    congr 2
    unfold eta1
    rcases c3 with c3 | c3
    · rw [if_pos c3, he, he, a3 (by omega)]; push_cast; ring
    · rw [if_neg (by omega)]; simp only [he]; push_cast; ring
  · rw [ohmicEMF, addEdges2 d oo _ _ _ e hk hj hi c2 c3]
    congr 2
    unfold eta2
    rcases c2 with c2 | c2
    · rw [if_pos c2, he, he, a3 (by omega)]; push_cast; ring
    · rw [if_neg (by omega)]
      rcases c3 with c3 | c3
      · rw [if_pos c3, he, he, a3 (by omega)]; push_cast; ring
      · rw [if_neg (by omega)]; simp only [he]; push_cast; ring
  · rw [ohmicEMF, addEdges3 d oo _ _ _ e ⟨hk.1, hk'⟩ hj hi c2 c3]
    congr 2
    unfold eta3
    rcases c2 with c2 | c2
    · rw [if_pos c2, he, he, a2 (by omega)]; push_cast; ring
    · rw [if_neg (by omega)]; simp only [he]; push_cast; ring

/-- Ambipolar diffusion: for a current, a field and a diffusivity that vary linearly over a uniform mesh, `AmbipolarEMF` adds on every
edge of active cells `η` times the current across the field, all taken at the middle of the edge. In one dimension there is
no current along direction 1. -/
theorem ambipolar_linear (d : Dims) (hd : Shape d) (tiny : K) (etaB : A4 K) (b : FF K) (bc : A4 K) (J e : EF K) {v0 v1 v2 v3 : K}
    (he : ∀ k j i : Int, etaB (2, k, j, i) = v0 + v1 * i + v2 * j + v3 * k) (a2 : ¬ d.nx2 > 1 → v2 = 0) (a3 : ¬ d.nx3 > 1 → v3 = 0)
    {v w : Fin 3 → K} {A C : Fin 3 → Fin 3 → K} (hA : Along d A) (hC : Along d C) (h1 : d.nx2 = 1 → w 0 = 0 ∧ ∀ a, C 0 a = 0)
    (hb : AtFaces whole whole whole half half half v A b) (hbc : AtCells whole whole whole v A bc)
    (hJ : AtEdges whole whole whole half half half w C J) {k j i : Int} (hk : Row3 d k) (hj : Row2 d j) (hi : d.is ≤ i ∧ i ≤ d.ie + 1) :
    (d.nx2 > 1 → (ambipolarEMF d tiny etaB b bc J e).x1e (k, j, i) =
      e.x1e (k, j, i) + across tiny (v0 + v1 * i + v2 * (j - 1 / 2) + v3 * (k - 1 / 2))
        (fun a => lin w C a i (j - 1 / 2) (k - 1 / 2)) (fun a => lin v A a i (j - 1 / 2) (k - 1 / 2)) 0) ∧
    (ambipolarEMF d tiny etaB b bc J e).x2e (k, j, i) =
      e.x2e (k, j, i) + across tiny (v0 + v1 * (i - 1 / 2) + v2 * j + v3 * (k - 1 / 2))
        (fun a => lin w C a (i - 1 / 2) j (k - 1 / 2)) (fun a => lin v A a (i - 1 / 2) j (k - 1 / 2)) 1 ∧
    (k ≤ d.ke → (ambipolarEMF d tiny etaB b bc J e).x3e (k, j, i) =
      e.x3e (k, j, i) + across tiny (v0 + v1 * (i - 1 / 2) + v2 * (j - 1 / 2) + v3 * k)
        (fun a => lin w C a (i - 1 / 2) (j - 1 / 2) k) (fun a => lin v A a (i - 1 / 2) (j - 1 / 2) k) 2) := by
  obtain ⟨-, o2, o3, oo⟩ := hd
  have c3 : d.nx3 = 1 ∨ d.nx3 > 1 := by omega
  have c2 : d.nx2 = 1 ∨ d.nx2 > 1 := by omega
  have q0 := hbc 0
  have q1 := hbc 1
  have q2 := hbc 2
  simp only [Fin.isValue, Fin.val_zero, Fin.val_one, Fin.val_two, Nat.cast_zero, Nat.cast_one, Nat.cast_ofNat] at q0 q1 q2
  have key : ∀ {t eta eta' : K} {J' B' : K × K × K} {J B : Fin 3 → K}, eta' = eta → J'.1 = J 0 → J'.2.1 = J 1 → J'.2.2 = J 2 →
      B'.1 = B 0 → B'.2.1 = B 1 → B'.2.2 = B 2 →
      adTerm t eta' J' B' (fun v => v.1) = across t eta J B 0 ∧ adTerm t eta' J' B' (fun v => v.2.1) = across t eta J B 1 ∧
        adTerm t eta' J' B' (fun v => v.2.2) = across t eta J B 2 := by
    rintro t eta eta' ⟨x, y, z⟩ ⟨x', y', z'⟩ J B rfl h1 h2 h3 h4 h5 h6
    simp only at h1 h2 h3 h4 h5 h6
    subst h1 h2 h3 h4 h5 h6
    exact ⟨rfl, rfl, rfl⟩
  have zA2 := hA.2
  have zC2 := hC.2
  refine ⟨fun m2 => ?_, ?_, fun hk' => ?_⟩
  · rw [ambipolarEMF, addEdges1 d oo _ _ _ e m2 hk hj hi c3]
    congr 1
    unfold amb1
    refine (key ?_ ?_ ?_ ?_ ?_ ?_ ?_).1
    · unfold eta1
      rcases c3 with c3 | c3
      · rw [if_pos c3, he, he, a3 (by omega)]; push_cast; ring
      · rw [if_neg (by omega)]; simp only [he]; push_cast; ring
    all_goals
      rcases c3 with c3 | c3
      · simp only [if_pos c3, hJ.x1, hJ.x2, hJ.x3, hb.x1, hb.x2, hb.x3, q0, q1, q2, lin, zA2 (show ¬ d.nx3 > 1 by omega),
          zC2 (show ¬ d.nx3 > 1 by omega), whole, half] <;> push_cast <;> ring
      · simp only [if_neg (show ¬ d.nx3 = 1 by omega), hJ.x1, hJ.x2, hJ.x3, hb.x1, hb.x2, hb.x3, q0, q1, q2, lin, whole, half] <;> push_cast <;> ring
  · rw [ambipolarEMF, addEdges2 d oo _ _ _ e hk hj hi c2 c3]
    congr 1
    unfold amb2
    refine (key ?_ ?_ ?_ ?_ ?_ ?_ ?_).2.1
    · unfold eta2
      rcases c2 with c2 | c2
      · rw [if_pos c2, he, he, a3 (by omega)]; push_cast; ring
      · rw [if_neg (by omega)]
        rcases c3 with c3 | c3
        · rw [if_pos c3, he, he, a3 (by omega)]; push_cast; ring
        · rw [if_neg (by omega)]; simp only [he]; push_cast; ring
    all_goals
      rcases c2 with c2 | c2
      · simp only [if_pos c2, hJ.x1, hJ.x2, hJ.x3, hb.x1, hb.x2, hb.x3, q0, q1, q2, lin, zA2 (show ¬ d.nx3 > 1 by omega),
          zC2 (show ¬ d.nx3 > 1 by omega), hA.1 (show ¬ d.nx2 > 1 by omega), hC.1 (show ¬ d.nx2 > 1 by omega), (h1 c2).1, (h1 c2).2,
          whole, half] <;> push_cast <;> ring
      · rcases c3 with c3 | c3
        · simp only [if_neg (show ¬ d.nx2 = 1 by omega), if_pos c3, hJ.x1, hJ.x2, hJ.x3, hb.x1, hb.x2, hb.x3, q0, q1, q2, lin, zA2 (show ¬ d.nx3 > 1 by omega),
            zC2 (show ¬ d.nx3 > 1 by omega), whole, half] <;> push_cast <;> ring
        · simp only [if_neg (show ¬ d.nx2 = 1 by omega), if_neg (show ¬ d.nx3 = 1 by omega), hJ.x1, hJ.x2, hJ.x3, hb.x1, hb.x2, hb.x3, q0, q1, q2, lin, whole, half] <;> push_cast <;> ring
  · rw [ambipolarEMF, addEdges3 d oo _ _ _ e ⟨hk.1, hk'⟩ hj hi c2 c3]
    congr 1
    unfold amb3
    refine (key ?_ ?_ ?_ ?_ ?_ ?_ ?_).2.2
    · unfold eta3
      rcases c2 with c2 | c2
      · rw [if_pos c2, he, he, a2 (by omega)]; push_cast; ring
      · rw [if_neg (by omega)]; simp only [he]; push_cast; ring
    all_goals
      rcases c2 with c2 | c2
      · simp only [if_pos c2, hJ.x1, hJ.x2, hJ.x3, hb.x1, hb.x2, hb.x3, q0, q1, q2, lin, zA2 (show ¬ d.nx3 > 1 by omega),
          zC2 (show ¬ d.nx3 > 1 by omega), hA.1 (show ¬ d.nx2 > 1 by omega), hC.1 (show ¬ d.nx2 > 1 by omega), (h1 c2).1, (h1 c2).2,
          whole, half] <;> push_cast <;> ring
      · rcases c3 with c3 | c3
        · simp only [if_neg (show ¬ d.nx2 = 1 by omega), if_pos c3, hJ.x1, hJ.x2, hJ.x3, hb.x1, hb.x2, hb.x3, q0, q1, q2, lin, zA2 (show ¬ d.nx3 > 1 by omega),
            zC2 (show ¬ d.nx3 > 1 by omega), whole, half] <;> push_cast <;> ring
        · simp only [if_neg (show ¬ d.nx2 = 1 by omega), if_neg (show ¬ d.nx3 = 1 by omega), hJ.x1, hJ.x2, hJ.x3, hb.x1, hb.x2, hb.x3, q0, q1, q2, lin, whole, half] <;> push_cast <;> ring

/-- The upper edges in a direction with one cell are copies of the lower ones, as constrained transport on a mesh of this dimension expects. -/
theorem emf_copies (d : Dims) (f1 f2 f3 : Int → Int → Int → K) (e : EF K) {j i : Int} (hi : d.is ≤ i ∧ i ≤ d.ie + 1) :
    (d.nx2 = 1 → d.nx3 = 1 → (addEdges d f1 f2 f3 e).x2e (d.ke + 1, d.js, i) = (addEdges d f1 f2 f3 e).x2e (d.ks, d.js, i) ∧
      (addEdges d f1 f2 f3 e).x3e (d.ks, d.je + 1, i) = (addEdges d f1 f2 f3 e).x3e (d.ks, d.js, i)) ∧
    (d.nx2 > 1 → d.nx3 = 1 → d.js ≤ j ∧ j ≤ d.je + 1 →
      (addEdges d f1 f2 f3 e).x1e (d.ke + 1, j, i) = (addEdges d f1 f2 f3 e).x1e (d.ks, j, i) ∧
      (addEdges d f1 f2 f3 e).x2e (d.ke + 1, j, i) = (addEdges d f1 f2 f3 e).x2e (d.ks, j, i)) := by
  constructor
  · intro h2 h3
    simp only [addEdges, if_pos h2]
    constructor
    · simp [hi]
    · simp [hi]
  · intro h2 h3 hj
    simp only [addEdges, if_neg (show ¬ d.nx2 = 1 by omega), if_pos h3]
    constructor
    · simp [hi, hj]
    · simp [hi, hj]

/-- The electric field across the magnetic field takes energy from it and, apart from the small number in the denominator, has no
component along it. -/
theorem across_dissipates {t eta : K} (ht : 0 ≤ t) (he : 0 ≤ eta) (J B : Fin 3 → K) :
    0 ≤ J 0 * across t eta J B 0 + J 1 * across t eta J B 1 + J 2 * across t eta J B 2 ∧
      (B 0 ^ 2 + B 1 ^ 2 + B 2 ^ 2 + t ≠ 0 → B 0 * across t eta J B 0 + B 1 * across t eta J B 1 + B 2 * across t eta J B 2 =
        eta * t * (J 0 * B 0 + J 1 * B 1 + J 2 * B 2) / (B 0 ^ 2 + B 1 ^ 2 + B 2 ^ 2 + t)) := by
  have b0 : 0 ≤ B 0 ^ 2 + B 1 ^ 2 + B 2 ^ 2 := by positivity
  have cs : (J 0 * B 0 + J 1 * B 1 + J 2 * B 2) ^ 2 ≤ (J 0 ^ 2 + J 1 ^ 2 + J 2 ^ 2) * (B 0 ^ 2 + B 1 ^ 2 + B 2 ^ 2) := by
    nlinarith [sq_nonneg (J 0 * B 1 - J 1 * B 0), sq_nonneg (J 0 * B 2 - J 2 * B 0), sq_nonneg (J 1 * B 2 - J 2 * B 1)]
  unfold across
  constructor
  · have e : J 0 * (eta * (J 0 - (J 0 * B 0 + J 1 * B 1 + J 2 * B 2) * B 0 / (B 0 ^ 2 + B 1 ^ 2 + B 2 ^ 2 + t)))
        + J 1 * (eta * (J 1 - (J 0 * B 0 + J 1 * B 1 + J 2 * B 2) * B 1 / (B 0 ^ 2 + B 1 ^ 2 + B 2 ^ 2 + t)))
        + J 2 * (eta * (J 2 - (J 0 * B 0 + J 1 * B 1 + J 2 * B 2) * B 2 / (B 0 ^ 2 + B 1 ^ 2 + B 2 ^ 2 + t))) =
        eta * ((J 0 ^ 2 + J 1 ^ 2 + J 2 ^ 2) - (J 0 * B 0 + J 1 * B 1 + J 2 * B 2) ^ 2 / (B 0 ^ 2 + B 1 ^ 2 + B 2 ^ 2 + t)) := by ring
    rw [e]
    apply mul_nonneg he
    rw [sub_nonneg]
    rcases (add_nonneg b0 ht).eq_or_lt with z | z
    · rw [← z, div_zero]; positivity
    · rw [div_le_iff₀ z]
      have : 0 ≤ (J 0 ^ 2 + J 1 ^ 2 + J 2 ^ 2) * t := by positivity
      linarith
  · intro h
    field_simp
    ring

/-- In one dimension resistivity and ambipolar diffusion together take energy from the magnetic field at every edge, for any field and any
non-negative diffusivities. -/
theorem dissipation_1d (d : Dims) (hd : Shape d) (h2 : d.nx2 = 1) (G : VC K) (c : Coefs K) {tiny : K} (ht : 0 ≤ tiny) (etaB : A4 K)
    (b : FF K) (bc : A4 K) (old e : EF K) (he : ∀ q, 0 ≤ etaB q) (hc : c.ohm ≠ 0 ∨ c.ad ≠ 0) {i : Int} (hi : d.is ≤ i ∧ i ≤ d.ie + 1) :
    0 ≤ (diffusionEMF d G c tiny etaB b bc old e).x2e (d.ks, d.js, i) * (current d G b old).x2e (d.ks, d.js, i)
      + (diffusionEMF d G c tiny etaB b bc old e).x3e (d.ks, d.js, i) * (current d G b old).x3e (d.ks, d.js, i) := by
  have h3 : ¬ d.nx3 > 1 := fun h => by have := hd.ord h; omega
  have e3 : d.nx3 = 1 := by have := hd.x3; omega
  have R3 : Row3 d d.ks := ⟨le_rfl, Or.inl (by simp [Dims.ks, Dims.ke, h3])⟩
  have R2 : Row2 d d.js := ⟨le_rfl, Or.inl (by simp [Dims.js, Dims.je, h2])⟩
  have kk : d.ks ≤ d.ks ∧ d.ks ≤ d.ke := ⟨le_rfl, by simp [Dims.ks, Dims.ke, h3]⟩
  rw [diffusionEMF, if_neg (by tauto)]
  simp only
  set J := current d G b old with hJ
  have n : ∀ m, 0 ≤ 1 / 2 * (etaB (m, d.ks, d.js, i-1) + etaB (m, d.ks, d.js, i)) := fun m =>
    mul_nonneg (by norm_num) (add_nonneg (he _) (he _))
  have O2 : ∀ e, (ohmicEMF d etaB J e).x2e (d.ks, d.js, i) = e.x2e (d.ks, d.js, i)
      + 1 / 2 * (etaB (0, d.ks, d.js, i-1) + etaB (0, d.ks, d.js, i)) * J.x2e (d.ks, d.js, i) := by
    intro e
    rw [ohmicEMF, addEdges2 d hd.ord _ _ _ e R3 R2 hi (Or.inl h2) (Or.inl e3), eta2, if_pos h2]
  have O3 : ∀ e, (ohmicEMF d etaB J e).x3e (d.ks, d.js, i) = e.x3e (d.ks, d.js, i)
      + 1 / 2 * (etaB (0, d.ks, d.js, i-1) + etaB (0, d.ks, d.js, i)) * J.x3e (d.ks, d.js, i) := by
    intro e
    rw [ohmicEMF, addEdges3 d hd.ord _ _ _ e kk R2 hi (Or.inl h2) (Or.inl e3), eta3, if_pos h2]
  let Jv : Fin 3 → K := ![0, J.x2e (d.ks, d.js, i), J.x3e (d.ks, d.js, i)]
  let Bv : Fin 3 → K := ![b.x1f (d.ks, d.js, i), 1 / 2 * (b.x2f (d.ks, d.js, i) + b.x2f (d.ks, d.js, i-1)),
    1 / 2 * (b.x3f (d.ks, d.js, i) + b.x3f (d.ks, d.js, i-1))]
  have A2 : ∀ e, (ambipolarEMF d tiny etaB b bc J e).x2e (d.ks, d.js, i) = e.x2e (d.ks, d.js, i)
      + across tiny (1 / 2 * (etaB (2, d.ks, d.js, i-1) + etaB (2, d.ks, d.js, i))) Jv Bv 1 := by
    intro e
    rw [ambipolarEMF, addEdges2 d hd.ord _ _ _ e R3 R2 hi (Or.inl h2) (Or.inl e3), amb2, eta2, if_pos h2]
    simp only [if_pos h2]
    rfl
  have A3 : ∀ e, (ambipolarEMF d tiny etaB b bc J e).x3e (d.ks, d.js, i) = e.x3e (d.ks, d.js, i)
      + across tiny (1 / 2 * (etaB (2, d.ks, d.js, i-1) + etaB (2, d.ks, d.js, i))) Jv Bv 2 := by
    intro e
    rw [ambipolarEMF, addEdges3 d hd.ord _ _ _ e kk R2 hi (Or.inl h2) (Or.inl e3), amb3, eta3, if_pos h2]
    simp only [if_pos h2]
    rfl
  have D := (across_dissipates ht (n 2) Jv Bv).1
  have d0 : Jv 0 = 0 := rfl
  have d1 : Jv 1 = J.x2e (d.ks, d.js, i) := rfl
  have d2 : Jv 2 = J.x3e (d.ks, d.js, i) := rfl
  rw [d0, d1, d2, zero_mul, zero_add] at D
  have O : 0 ≤ 1 / 2 * (etaB (0, d.ks, d.js, i-1) + etaB (0, d.ks, d.js, i)) * (J.x2e (d.ks, d.js, i) ^ 2 + J.x3e (d.ks, d.js, i) ^ 2) :=
    mul_nonneg (n 0) (by positivity)
  by_cases q1 : c.ohm ≠ 0
  · by_cases q2 : c.ad ≠ 0
    · rw [if_pos q2, if_pos q1, A2, A3, O2, O3]
      linarith
    · rw [if_neg q2, if_pos q1, O2, O3]
      linarith
  · have q2 : c.ad ≠ 0 := by tauto
    rw [if_pos q2, if_neg q1, A2, A3]
    linarith

/-- The energy flux is `E × B`: for an electric and a magnetic field that vary linearly over a uniform mesh, `PoyntingFlux` gives it at
the centres of all faces of active cells. -/
theorem poynting_linear (d : Dims) (hd : Shape d) (bc : A4 K) (e : EF K) (old : FF K) {v w : Fin 3 → K} {A C : Fin 3 → Fin 3 → K}
    (hA : Along d A) (hC : Along d C) (hbc : AtCells whole whole whole v A bc) (he : AtEdges whole whole whole half half half w C e)
    {k j i : Int} :
    (d.ks ≤ k ∧ k ≤ d.ke → d.js ≤ j ∧ j ≤ d.je → d.is ≤ i ∧ i ≤ d.ie + 1 → (poynting d bc e old).x1f (k, j, i) =
      lin w C 1 (i - 1 / 2) j k * lin v A 2 (i - 1 / 2) j k - lin w C 2 (i - 1 / 2) j k * lin v A 1 (i - 1 / 2) j k) ∧
    (d.nx2 > 1 → d.ks ≤ k ∧ k ≤ d.ke → d.js ≤ j ∧ j ≤ d.je + 1 → d.is ≤ i ∧ i ≤ d.ie → (poynting d bc e old).x2f (k, j, i) =
      lin w C 2 i (j - 1 / 2) k * lin v A 0 i (j - 1 / 2) k - lin w C 0 i (j - 1 / 2) k * lin v A 2 i (j - 1 / 2) k) ∧
    (d.nx3 > 1 → d.ks ≤ k ∧ k ≤ d.ke + 1 → d.js ≤ j ∧ j ≤ d.je → d.is ≤ i ∧ i ≤ d.ie → (poynting d bc e old).x3f (k, j, i) =
      lin w C 0 i j (k - 1 / 2) * lin v A 1 i j (k - 1 / 2) - lin w C 1 i j (k - 1 / 2) * lin v A 0 i j (k - 1 / 2)) := by
  have q0 := hbc 0
  have q1 := hbc 1
  have q2 := hbc 2
  simp only [Fin.isValue, Fin.val_zero, Fin.val_one, Fin.val_two, Nat.cast_zero, Nat.cast_one, Nat.cast_ofNat] at q0 q1 q2
  have o2 := hd.x2
  have o3 := hd.x3
  have kk : ¬ d.nx3 > 1 → d.ks = d.ke := fun h => by simp [Dims.ks, Dims.ke, h]
  have jj : ¬ d.nx2 > 1 → d.js = d.je := fun h => by simp [Dims.js, Dims.je, h]
  refine ⟨fun hk hj hi => ?_, fun g2 hk hj hi => ?_, fun g3 hk hj hi => ?_⟩
  · by_cases g2 : d.nx2 > 1
    · by_cases g3 : d.nx3 > 1
      · simp only [poynting, if_neg (show ¬ d.nx2 = 1 by omega), if_neg (show ¬ d.nx3 = 1 by omega),
          if_pos (show (d.ks ≤ k ∧ k ≤ d.ke + 1) ∧ (d.js ≤ j ∧ j ≤ d.je + 1) ∧ d.is ≤ i ∧ i ≤ d.ie + 1 by omega), q1, q2, he.x2, he.x3, lin, whole, half]
        push_cast; ring
      · have := kk g3
        simp only [poynting, if_neg (show ¬ d.nx2 = 1 by omega), if_pos (show d.nx3 = 1 by omega),
          if_pos (show k = d.ks ∧ (d.js ≤ j ∧ j ≤ d.je + 1) ∧ d.is ≤ i ∧ i ≤ d.ie + 1 by omega), q1, q2, he.x2, he.x3, lin, whole, half,
          hA.2 g3, hC.2 g3]
        push_cast; ring
    · have g3 : ¬ d.nx3 > 1 := fun h => g2 (hd.ord h)
      have := kk g3
      have := jj g2
      simp only [poynting, if_pos (show d.nx2 = 1 by omega), if_pos (show k = d.ks ∧ j = d.js ∧ d.is ≤ i ∧ i ≤ d.ie + 1 by omega),
        q1, q2, he.x2, he.x3, lin, whole, half, hA.2 g3, hC.2 g3, hA.1 g2, hC.1 g2]
      push_cast; ring
  · by_cases g3 : d.nx3 > 1
    · simp only [poynting, if_neg (show ¬ d.nx2 = 1 by omega), if_neg (show ¬ d.nx3 = 1 by omega),
        if_pos (show (d.ks ≤ k ∧ k ≤ d.ke + 1) ∧ (d.js ≤ j ∧ j ≤ d.je + 1) ∧ d.is ≤ i ∧ i ≤ d.ie + 1 by omega), q0, q2, he.x1, he.x3, lin, whole, half]
      push_cast; ring
    · have := kk g3
      simp only [poynting, if_neg (show ¬ d.nx2 = 1 by omega), if_pos (show d.nx3 = 1 by omega),
        if_pos (show k = d.ks ∧ (d.js ≤ j ∧ j ≤ d.je + 1) ∧ d.is ≤ i ∧ i ≤ d.ie + 1 by omega), q0, q2, he.x1, he.x3, lin, whole, half,
        hA.2 g3, hC.2 g3]
      push_cast; ring
  · have g2 := hd.ord g3
    simp only [poynting, if_neg (show ¬ d.nx2 = 1 by omega), if_neg (show ¬ d.nx3 = 1 by omega),
      if_pos (show (d.ks ≤ k ∧ k ≤ d.ke + 1) ∧ (d.js ≤ j ∧ j ≤ d.je + 1) ∧ d.is ≤ i ∧ i ≤ d.ie + 1 by omega), q0, q1, he.x1, he.x2, lin, whole, half]
    push_cast; ring

omit [LinearOrder K] [IsStrictOrderedRing K] in
/-- `AddPoyntingFlux` adds it to the energy flux of every face of active cells once and changes nothing else in the fluxes there. -/
theorem poynting_added (d : Dims) (hd : Shape d) (f : FF K) (F : Flx K) (n : Int) {k j i : Int} :
    (d.ks ≤ k ∧ k ≤ d.ke → d.js ≤ j ∧ j ≤ d.je → d.is ≤ i ∧ i ≤ d.ie + 1 → (addPoynting d f F).x1 (n, k, j, i) =
      F.x1 (n, k, j, i) + if n = 4 then f.x1f (k, j, i) else 0) ∧
    (d.nx2 > 1 → d.ks ≤ k ∧ k ≤ d.ke → d.js ≤ j ∧ j ≤ d.je + 1 → d.is ≤ i ∧ i ≤ d.ie → (addPoynting d f F).x2 (n, k, j, i) =
      F.x2 (n, k, j, i) + if n = 4 then f.x2f (k, j, i) else 0) ∧
    (d.nx3 > 1 → d.ks ≤ k ∧ k ≤ d.ke + 1 → d.js ≤ j ∧ j ≤ d.je → d.is ≤ i ∧ i ≤ d.ie → (addPoynting d f F).x3 (n, k, j, i) =
      F.x3 (n, k, j, i) + if n = 4 then f.x3f (k, j, i) else 0) := by
  have o2 := hd.x2
  have o3 := hd.x3
  have kk : ¬ d.nx3 > 1 → d.ks = d.ke := fun h => by simp [Dims.ks, Dims.ke, h]
  have jj : ¬ d.nx2 > 1 → d.js = d.je := fun h => by simp [Dims.js, Dims.je, h]
  have ord := hd.ord
  refine ⟨fun hk hj hi => ?_, fun g2 hk hj hi => ?_, fun g3 hk hj hi => ?_⟩
  all_goals
    by_cases hn : n = 4
    · subst hn
      rw [if_pos rfl]
      unfold addPoynting
      split_ifs with a b
      all_goals first
        | omega
        | exact if_pos ⟨rfl, by simp only; omega⟩
    · rw [if_neg hn, add_zero]
      unfold addPoynting
      split_ifs with a b
      all_goals first
        | omega
        | exact if_neg fun h => hn h.1

/-! ## The Hall term -/

/-- FINDING: the Hall diffusivity gives no electric field. `eta_hall` is read and `etaB(hall)` computed, but the electric field does not
depend on either; with `eta_hall` alone `e_oa` is never computed. -/
theorem hall_no_emf (d : Dims) (G : VC K) (c : Coefs K) (hall tiny : K) (etaB etaB' : A4 K) (b : FF K) (bc : A4 K) (old e : EF K)
    (h : ∀ n q, n ≠ 1 → etaB' (n, q) = etaB (n, q)) :
    diffusionEMF d G { c with hall := hall } tiny etaB' b bc old e = diffusionEMF d G c tiny etaB b bc old e ∧
      diffusionEMF d G ⟨0, hall, 0⟩ tiny etaB b bc old e = e := by
  constructor
  · have z : ∀ q, etaB' (0, q) = etaB (0, q) := fun q => h 0 q (by norm_num)
    have t : ∀ q, etaB' (2, q) = etaB (2, q) := fun q => h 2 q (by norm_num)
    have z1 : eta1 d etaB' 0 = eta1 d etaB 0 := by funext k j i; simp only [eta1, z]
    have z2 : eta2 d etaB' 0 = eta2 d etaB 0 := by funext k j i; simp only [eta2, z]
    have z3 : eta3 d etaB' 0 = eta3 d etaB 0 := by funext k j i; simp only [eta3, z]
    have t1 : eta1 d etaB' 2 = eta1 d etaB 2 := by funext k j i; simp only [eta1, t]
    have t2 : eta2 d etaB' 2 = eta2 d etaB 2 := by funext k j i; simp only [eta2, t]
    have t3 : eta3 d etaB' 2 = eta3 d etaB 2 := by funext k j i; simp only [eta3, t]
    have o : ∀ J, ohmicEMF d etaB' J = ohmicEMF d etaB J := fun J => by unfold ohmicEMF; rw [z1, z2, z3]
    have a1 : ∀ J, amb1 d tiny etaB' b bc J = amb1 d tiny etaB b bc J := fun J => by funext k j i; unfold amb1; rw [t1]
    have a2 : ∀ J, amb2 d tiny etaB' b bc J = amb2 d tiny etaB b bc J := fun J => by funext k j i; unfold amb2; rw [t2]
    have a3 : ∀ J, amb3 d tiny etaB' b bc J = amb3 d tiny etaB b bc J := fun J => by funext k j i; unfold amb3; rw [t3]
    have a : ∀ J, ambipolarEMF d tiny etaB' b bc J = ambipolarEMF d tiny etaB b bc J := fun J => by unfold ambipolarEMF; rw [a1, a2, a3]
    unfold diffusionEMF
    simp only [o, a]
  · simp [diffusionEMF]

/-- FINDING, continued: a positive `eta_hall` nevertheless limits the time step of the whole calculation, by `(Δx)²/η_H` in two and three
dimensions and half of it in one. -/
theorem hall_limits_dt (d : Dims) {c : Coefs K} (hc : c.hall > 0) (realMax tiny : K) (w1 w2 w3 : A3 K) (etaB : A4 K) {k j i : Int}
    (hk : d.ks ≤ k ∧ k ≤ d.ke) (hj : d.js ≤ j ∧ j ≤ d.je) (hi : d.is ≤ i ∧ i ≤ d.ie) :
    newDtH d c realMax tiny w1 w2 w3 etaB ≤
      (if d.nx2 > 1 then 1 else 1 / 2) * Diffusion.least d w1 w2 w3 (k, j, i) ^ 2 / (|etaB (1, k, j, i)| + tiny) := by
  have e : newDtH d c realMax tiny w1 w2 w3 etaB =
      (Arr.prodL (Arr.rng d.ks d.ke) (Arr.prodL (Arr.rng d.js d.je) (Arr.rng d.is d.ie))).foldl
        (fun m a => min m ((if d.nx2 > 1 then 1 else 1 / 2) * Diffusion.least d w1 w2 w3 (a.1, a.2.1, a.2.2) ^ 2 /
          (|etaB (1, a.1, a.2.1, a.2.2)| + tiny))) realMax := by
    rw [Arr.foldl_prodL]
    simp only [Arr.foldl_prodL, newDtH, loop_eq, if_pos hc]
  rw [e]
  exact (Diffusion.foldl_min _ (fun a : Int × Int × Int => (if d.nx2 > 1 then 1 else 1 / 2) * Diffusion.least d w1 w2 w3 (a.1, a.2.1, a.2.2) ^ 2 /
    (|etaB (1, a.1, a.2.1, a.2.2)| + tiny)) realMax).2 (k, j, i)
    (Arr.mem_prodL.2 ⟨Arr.mem_rng.2 hk, Arr.mem_prodL.2 ⟨Arr.mem_rng.2 hj, Arr.mem_rng.2 hi⟩⟩)

end

/-! ## Cases that meet the hypotheses -/

def linF (v : Fin 3 → ℚ) (A : Fin 3 → Fin 3 → ℚ) : FF ℚ where
  x1f q := lin v A 0 (half q.2.2) (whole q.2.1) (whole q.1)
  x2f q := lin v A 1 (whole q.2.2) (half q.2.1) (whole q.1)
  x3f q := lin v A 2 (whole q.2.2) (whole q.2.1) (half q.1)
def linE (v : Fin 3 → ℚ) (A : Fin 3 → Fin 3 → ℚ) : EF ℚ where
  x1e q := lin v A 0 (whole q.2.2) (half q.2.1) (half q.1)
  x2e q := lin v A 1 (half q.2.2) (whole q.2.1) (half q.1)
  x3e q := lin v A 2 (half q.2.2) (half q.2.1) (whole q.1)
def linC (v : Fin 3 → ℚ) (A : Fin 3 → Fin 3 → ℚ) : A4 ℚ := fun q =>
  if q.1 = 0 then lin v A 0 (whole q.2.2.2) (whole q.2.2.1) (whole q.2.1)
  else if q.1 = 1 then lin v A 1 (whole q.2.2.2) (whole q.2.2.1) (whole q.2.1)
  else lin v A 2 (whole q.2.2.2) (whole q.2.2.1) (whole q.2.1)

/-- Fields with all derivatives different, in three dimensions and in two. -/
example (v : Fin 3 → ℚ) (A : Fin 3 → Fin 3 → ℚ) : Shape ⟨2, 4, 4, 4⟩ ∧ Along ⟨2, 4, 4, 4⟩ A ∧ AtFaces whole whole whole half half half v A (linF v A) ∧
    AtEdges whole whole whole half half half v A (linE v A) ∧ AtCells whole whole whole v A (linC v A) := by
  refine ⟨⟨by decide, by decide, by decide, by decide⟩, ⟨fun h => absurd (by decide) h, fun h => absurd (by decide) h⟩,
    ⟨fun _ _ _ => rfl, fun _ _ _ => rfl, fun _ _ _ => rfl⟩, ⟨fun _ _ _ => rfl, fun _ _ _ => rfl, fun _ _ _ => rfl⟩, ?_⟩
  intro a k j i
  obtain rfl | rfl | rfl : a = 0 ∨ a = 1 ∨ a = 2 := by omega
  all_goals rfl

example : Shape ⟨2, 4, 4, 1⟩ ∧ Along ⟨2, 4, 4, 1⟩ (fun a b => if b = 2 then 0 else (a.1 + 2 * b.1 + 1 : ℚ)) ∧ Row3 ⟨2, 4, 4, 1⟩ 0 ∧
    Row2 ⟨2, 4, 4, 1⟩ 6 := by
  refine ⟨⟨by decide, by decide, by decide, by decide⟩, ⟨fun h => absurd (by decide) h, fun _ a => if_pos rfl⟩, ?_, ?_⟩
  · unfold Row3; decide
  · unfold Row2; decide

/-- A field with a potential on a uniform mesh: `φ = x² y`. -/
example : ∃ (G : VC ℚ) (b : FF ℚ) (phi : A3 ℚ), b.x1f (0, 3, 4) ≠ 0 ∧ b.x2f (0, 3, 4) ≠ 0 ∧
    (∀ k j i, G.l1 (k, j, i-1) * b.x1f (k, j, i) = phi (k, j, i) - phi (k, j, i-1)) ∧
    (∀ k j i, G.l2 (k, j-1, i) * b.x2f (k, j, i) = phi (k, j, i) - phi (k, j-1, i)) ∧
    ∀ k j i, G.l3 (k, j, i) * b.x3f (k, j, i) = 7 := by
  refine ⟨⟨fun _ => 1, fun _ => 1, fun _ => 1, fun _ => 1, fun _ => 1, fun _ => 1⟩,
    ⟨fun q => (q.2.2 ^ 2 * q.2.1 : ℚ) - (q.2.2 - 1) ^ 2 * q.2.1, fun q => (q.2.2 ^ 2 * q.2.1 : ℚ) - q.2.2 ^ 2 * (q.2.1 - 1), fun _ => 7⟩,
    fun q => (q.2.2 ^ 2 * q.2.1 : ℚ), by norm_num, by norm_num, ?_, ?_, ?_⟩
  · intro k j i; push_cast; ring
  · intro k j i; push_cast; ring
  · intro k j i; norm_num

/-- Rings around the axis in cylindrical coordinates, and two cells in polar angle from pole to pole in spherical coordinates. -/
example : ∃ X : XF, (0 < x1v X .cylindrical (3-1) ∧ x1v X .cylindrical (3-1) < x1v X .cylindrical 3) ∧
    (0 < x1v X .spherical (3-1) ∧ x1v X .spherical (3-1) < x1v X .spherical 3) ∧
    (∀ j', (j' = (1 : ℤ) - 1 ∨ j' = 1) → 0 < Real.sin (x2v X 2 .spherical j')) ∧
    Real.cos (x2v X 2 .spherical 1) < Real.cos (x2v X 2 .spherical (1-1)) := by
  refine ⟨⟨⟨fun i => i, fun _ => 1⟩, ⟨fun j => j * (Real.pi / 2), fun _ => Real.pi / 2⟩, ⟨fun k => k, fun _ => 1⟩⟩, ?_, ?_, ?_⟩
  · simp only [x1v, Coord.cyl1]; norm_num
  · simp only [x1v]; norm_num
  · have a : x2v ⟨⟨fun i => i, fun _ => 1⟩, ⟨fun j => j * (Real.pi / 2), fun _ => Real.pi / 2⟩, ⟨fun k => k, fun _ => 1⟩⟩ 2 .spherical 0 = 1 := by
      simp [x2v, Coord.sph2]
    have b : x2v ⟨⟨fun i => i, fun _ => 1⟩, ⟨fun j => j * (Real.pi / 2), fun _ => Real.pi / 2⟩, ⟨fun k => k, fun _ => 1⟩⟩ 2 .spherical 1 = Real.pi - 1 := by
      have : (2 : ℝ) * (Real.pi / 2) = Real.pi := by ring
      simp [x2v, Coord.sph2, this, one_add_one_eq_two]
    have p := Real.two_le_pi
    have s1 : 0 < Real.sin 1 := Real.sin_pos_of_pos_of_lt_pi one_pos (by linarith)
    have c1 := Real.cos_one_pos
    refine ⟨?_, ?_⟩
    · rintro j' (rfl | rfl)
      · rw [show (1 : ℤ) - 1 = 0 by norm_num, a]; exact s1
      · rw [b, Real.sin_pi_sub]; exact s1
    · rw [show (1 : ℤ) - 1 = 0 by norm_num, a, b, Real.cos_pi_sub]; linarith

end Verif.Resist
