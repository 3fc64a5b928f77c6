import Verif.Lemmas.Resist
import Verif.Lemmas.Curl
import Verif.Lemmas.CT
import Mathlib.Algebra.Group.Commute.Basic
import Mathlib.Tactic.FieldSimp

/-! Helper lemmas: current and electric field of blocks with exchanged boundary values. -/
namespace Verif.Resist
open Verif.Grid
open Verif.Diffusion (Met fac least)

theorem go_add {P : Type} {s1 s2 s3 : Equiv.Perm P} (h : Steps s1 s2 s3) (o o' : ℤ × ℤ × ℤ) (p : P) :
    go s1 s2 s3 (o.1 + o'.1, o.2.1 + o'.2.1, o.2.2 + o'.2.2) p = go s1 s2 s3 o' (go s1 s2 s3 o p) := by
  have c12 : Commute s1 s2 := h.c12
  have c13 : Commute s1 s3 := h.c13
  have c23 : Commute s2 s3 := h.c23
  rw [← Equiv.Perm.mul_apply]
  congr 1
  simp only [go, zpow_add]
  have e1 := (c12.zpow_zpow o'.2.2 o.2.1).eq
  have e2 := (c13.zpow_zpow o'.2.2 o.1).eq
  have e3 := (c23.zpow_zpow o'.2.1 o.1).eq
  have f1 := (c12.zpow_zpow o.2.2 o'.2.2).eq
  have g1 : s3 ^ o.1 * s3 ^ o'.1 = s3 ^ o'.1 * s3 ^ o.1 := (Commute.refl s3).zpow_zpow _ _ |>.eq
  have g2 : s2 ^ o.2.1 * s2 ^ o'.2.1 = s2 ^ o'.2.1 * s2 ^ o.2.1 := (Commute.refl s2).zpow_zpow _ _ |>.eq
  have g3 : s1 ^ o.2.2 * s1 ^ o'.2.2 = s1 ^ o'.2.2 * s1 ^ o.2.2 := (Commute.refl s1).zpow_zpow _ _ |>.eq
  rw [g1, g2, g3]
  calc s3 ^ o'.1 * s3 ^ o.1 * (s2 ^ o'.2.1 * s2 ^ o.2.1) * (s1 ^ o'.2.2 * s1 ^ o.2.2)
      = s3 ^ o'.1 * (s3 ^ o.1 * s2 ^ o'.2.1) * (s2 ^ o.2.1 * s1 ^ o'.2.2) * s1 ^ o.2.2 := by simp only [mul_assoc]
    _ = s3 ^ o'.1 * (s2 ^ o'.2.1 * s3 ^ o.1) * (s1 ^ o'.2.2 * s2 ^ o.2.1) * s1 ^ o.2.2 := by rw [e1, e3]
    _ = s3 ^ o'.1 * s2 ^ o'.2.1 * (s3 ^ o.1 * s1 ^ o'.2.2) * s2 ^ o.2.1 * s1 ^ o.2.2 := by simp only [mul_assoc]
    _ = s3 ^ o'.1 * s2 ^ o'.2.1 * (s1 ^ o'.2.2 * s3 ^ o.1) * s2 ^ o.2.1 * s1 ^ o.2.2 := by rw [e2]
    _ = _ := by simp only [mul_assoc]

section
variable {K : Type} [Field K] [LinearOrder K] [IsStrictOrderedRing K] {B : Type} {n1 n2 n3 : ℕ} {d : Dims}
  {s1 s2 s3 : Equiv.Perm (Cell B n1 n2 n3)}

/-- The value of the cell. -/
def own (d : Dims) (x : B → A3 K) (p : Cell B n1 n2 n3) : K := x p.1 (place d p)

omit [Field K] [LinearOrder K] [IsStrictOrderedRing K] in
theorem read (hs : Steps s1 s2 s3) {x : B → A3 K} (hx : Filled d s1 s2 s3 x) (p : Cell B n1 n2 n3) (o o' : ℤ × ℤ × ℤ)
    (hn : Near d (o.1 + o'.1, o.2.1 + o'.2.1, o.2.2 + o'.2.2)) :
    x p.1 ((place d p).1 + o.1 + o'.1, (place d p).2.1 + o.2.1 + o'.2.1, (place d p).2.2 + o.2.2 + o'.2.2) =
      own d x (go s1 s2 s3 o' (go s1 s2 s3 o p)) := by
  have := hx p _ hn
  rw [go_add hs] at this
  simp only [← add_assoc] at this
  exact this

/-- Inverse widths of the directions with several cells. -/
def inv2 (d : Dims) (h : K) : K := if d.nx2 > 1 then 1 / h else 0
def inv3 (d : Dims) (h : K) : K := if d.nx3 > 1 then 1 / h else 0

omit [IsStrictOrderedRing K] in
theorem cart_cur (hd : Shape d) {h1 h2 h3 : K} (z1 : h1 ≠ 0) (z2 : h2 ≠ 0) (z3 : h3 ≠ 0) {M : Met K} (m1 : ∀ i, M.dx1v i = h1)
    (m2 : ∀ i, M.dx2v i = h2) (m3 : ∀ i, M.dx3v i = h3) (b : FF K) (old : EF K) {k j i : ℤ} (hk : Row3 d k) (hj : Row2 d j)
    (hi : d.is ≤ i ∧ i ≤ d.ie + 1) :
    (d.nx2 > 1 → (current d (cartVC M) b old).x1e (k, j, i) =
      inv2 d h2 * (b.x3f (k, j, i) - b.x3f (k, j-1, i)) - inv3 d h3 * (b.x2f (k, j, i) - b.x2f (k-1, j, i))) ∧
    (current d (cartVC M) b old).x2e (k, j, i) =
      inv3 d h3 * (b.x1f (k, j, i) - b.x1f (k-1, j, i)) - 1 / h1 * (b.x3f (k, j, i) - b.x3f (k, j, i-1)) ∧
    (current d (cartVC M) b old).x3e (k, j, i) =
      1 / h1 * (b.x2f (k, j, i) - b.x2f (k, j, i-1)) - inv2 d h2 * (b.x1f (k, j, i) - b.x1f (k, j-1, i)) := by
  refine ⟨fun g2 => ?_, ?_, ?_⟩
  · rw [current_x1, cur1_at d _ b _ g2 hk hj hi]
    simp only [cartVC, m1, m2, m3, inv2, inv3, if_pos g2]
    split
    · field_simp
    · field_simp; ring
  · rw [current_x2, cur2_at d hd.ord _ b _ hk hj hi]
    simp only [cartVC, m1, m2, m3, inv3]
    split
    · field_simp; ring
    · field_simp; ring
  · rw [current_x3, cur3_at d _ b _ hk hj hi]
    simp only [cartVC, m1, m2, m3, inv2]
    split
    · field_simp
    · field_simp; ring

theorem place_row (hdim : d.nx1 = n1 ∧ d.nx2 = n2 ∧ d.nx3 = n3) (hd : Shape d) (p : Cell B n1 n2 n3) :
    (d.ks ≤ (place d p).1 ∧ (place d p).1 ≤ d.ke) ∧ (d.js ≤ (place d p).2.1 ∧ (place d p).2.1 ≤ d.je) ∧
      d.is ≤ (place d p).2.2 ∧ (place d p).2.2 ≤ d.ie := by
  obtain ⟨B, ⟨k, hk⟩, ⟨j, hj⟩, ⟨i, hi⟩⟩ := p
  obtain ⟨o1, o2, o3, -⟩ := hd
  obtain ⟨e1, e2, e3⟩ := hdim
  simp only [place, Dims.ks, Dims.ke, Dims.js, Dims.je, Dims.is, Dims.ie]
  refine ⟨?_, ?_, by omega, by omega⟩
  · split <;> omega
  · split <;> omega

/-- Diffusivity at the edges, given that of the cells (`y`) and the steps. -/
def mid1 (d : Dims) (g : ℤ × ℤ × ℤ → Equiv.Perm (Cell B n1 n2 n3)) (y : Cell B n1 n2 n3 → K) (q : Cell B n1 n2 n3) : K :=
  if d.nx3 = 1 then 1 / 2 * (y q + y (g (0, -1, 0) q))
  else 1 / 4 * (y q + y (g (0, -1, 0) q) + y (g (-1, 0, 0) q) + y (g (-1, -1, 0) q))
@[inherit_doc mid1] def mid2 (d : Dims) (g : ℤ × ℤ × ℤ → Equiv.Perm (Cell B n1 n2 n3)) (y : Cell B n1 n2 n3 → K) (q : Cell B n1 n2 n3) : K :=
  if d.nx3 = 1 then 1 / 2 * (y q + y (g (0, 0, -1) q))
  else 1 / 4 * (y q + y (g (0, 0, -1) q) + y (g (-1, 0, 0) q) + y (g (-1, 0, -1) q))
@[inherit_doc mid1] def mid3 (d : Dims) (g : ℤ × ℤ × ℤ → Equiv.Perm (Cell B n1 n2 n3)) (y : Cell B n1 n2 n3 → K) (q : Cell B n1 n2 n3) : K :=
  if d.nx2 = 1 then 1 / 2 * (y q + y (g (0, 0, -1) q))
  else 1 / 4 * (y q + y (g (0, 0, -1) q) + y (g (0, -1, 0) q) + y (g (0, -1, -1) q))

omit [LinearOrder K] [IsStrictOrderedRing K] in
theorem go_zero {P : Type} (s1 s2 s3 : Equiv.Perm P) (p : P) : go s1 s2 s3 (0, 0, 0) p = p := by simp [go]

section
variable (hdim : d.nx1 = n1 ∧ d.nx2 = n2 ∧ d.nx3 = n3) (hd : Shape d) (hs : Steps s1 s2 s3) {h1 h2 h3 : K} (z1 : h1 ≠ 0)
  (z2 : h2 ≠ 0) (z3 : h3 ≠ 0) {M : Met K} (m1 : ∀ i, M.dx1v i = h1) (m2 : ∀ i, M.dx2v i = h2) (m3 : ∀ i, M.dx3v i = h3)
  {c : Coefs K} (c0 : c.ohm > 0) (cA : c.ad = 0) (tiny : K) (etaB : B → A4 K) (b : B → FF K) (bc : B → A4 K) (old e : B → EF K)
  (f1 : Filled d s1 s2 s3 fun B => (b B).x1f) (f2 : Filled d s1 s2 s3 fun B => (b B).x2f) (f3 : Filled d s1 s2 s3 fun B => (b B).x3f)
  (fe : Filled d s1 s2 s3 fun B q => etaB B (0, q))

/-- The electric field of block `B`. -/
def emf (d : Dims) (M : Met K) (c : Coefs K) (tiny : K) (etaB : B → A4 K) (b : B → FF K) (bc : B → A4 K) (old e : B → EF K) (B : B) : EF K :=
  diffusionEMF d (cartVC M) c tiny (etaB B) (b B) (bc B) (old B) (e B)

omit [IsStrictOrderedRing K] in
include c0 cA in
theorem emf_eq (B : B) : emf d M c tiny etaB b bc old e B =
    ohmicEMF d (etaB B) (current d (cartVC M) (b B) (old B)) ⟨fun _ => 0, fun _ => 0, fun _ => 0⟩ := by
  unfold emf diffusionEMF
  rw [if_neg (fun h => c0.ne' h.1)]
  simp only [if_pos c0.ne', cA, ne_eq, not_true_eq_false, if_false]

include hdim hd hs z1 z2 z3 m1 m2 m3 c0 cA f1 f2 f3 fe in
omit [IsStrictOrderedRing K] in
theorem emf_at (p : Cell B n1 n2 n3) (o : ℤ × ℤ × ℤ) (hn : Near d o) (h0 : 0 ≤ o.1 ∧ 0 ≤ o.2.1 ∧ 0 ≤ o.2.2) :
    (d.nx2 > 1 → (emf d M c tiny etaB b bc old e p.1).x1e ((place d p).1 + o.1, (place d p).2.1 + o.2.1, (place d p).2.2 + o.2.2) =
      mid1 d (go s1 s2 s3) (own d fun B q => etaB B (0, q)) (go s1 s2 s3 o p) *
        (inv2 d h2 * (own d (fun B => (b B).x3f) (go s1 s2 s3 o p) - own d (fun B => (b B).x3f) (go s1 s2 s3 (0, -1, 0) (go s1 s2 s3 o p)))
          - inv3 d h3 * (own d (fun B => (b B).x2f) (go s1 s2 s3 o p) - own d (fun B => (b B).x2f) (go s1 s2 s3 (-1, 0, 0) (go s1 s2 s3 o p))))) ∧
    (emf d M c tiny etaB b bc old e p.1).x2e ((place d p).1 + o.1, (place d p).2.1 + o.2.1, (place d p).2.2 + o.2.2) =
      mid2 d (go s1 s2 s3) (own d fun B q => etaB B (0, q)) (go s1 s2 s3 o p) *
        (inv3 d h3 * (own d (fun B => (b B).x1f) (go s1 s2 s3 o p) - own d (fun B => (b B).x1f) (go s1 s2 s3 (-1, 0, 0) (go s1 s2 s3 o p)))
          - 1 / h1 * (own d (fun B => (b B).x3f) (go s1 s2 s3 o p) - own d (fun B => (b B).x3f) (go s1 s2 s3 (0, 0, -1) (go s1 s2 s3 o p)))) ∧
    (o.1 = 0 → (emf d M c tiny etaB b bc old e p.1).x3e ((place d p).1 + o.1, (place d p).2.1 + o.2.1, (place d p).2.2 + o.2.2) =
      mid3 d (go s1 s2 s3) (own d fun B q => etaB B (0, q)) (go s1 s2 s3 o p) *
        (1 / h1 * (own d (fun B => (b B).x2f) (go s1 s2 s3 o p) - own d (fun B => (b B).x2f) (go s1 s2 s3 (0, 0, -1) (go s1 s2 s3 o p)))
          - inv2 d h2 * (own d (fun B => (b B).x1f) (go s1 s2 s3 o p) - own d (fun B => (b B).x1f) (go s1 s2 s3 (0, -1, 0) (go s1 s2 s3 o p))))) := by
  obtain ⟨r3, r2, r1⟩ := place_row hdim hd p
  obtain ⟨n3, n2, n1, x2, x3⟩ := hn
  have R3 : Row3 d ((place d p).1 + o.1) := by
    unfold Row3
    by_cases q : d.nx3 > 1
    · omega
    · have := x3 q; omega
  have R2 : Row2 d ((place d p).2.1 + o.2.1) := by
    unfold Row2
    by_cases q : d.nx2 > 1
    · omega
    · have := x2 q; omega
  have R1 : d.is ≤ (place d p).2.2 + o.2.2 ∧ (place d p).2.2 + o.2.2 ≤ d.ie + 1 := by omega
  have C := cart_cur hd z1 z2 z3 m1 m2 m3 (b p.1) (old p.1) R3 R2 R1
  have d2 : d.nx2 = 1 ∨ d.nx2 > 1 := by have := hd.x2; omega
  have d3 : d.nx3 = 1 ∨ d.nx3 > 1 := by have := hd.x3; omega
  have rd : ∀ {x : B → A3 K}, Filled d s1 s2 s3 x →
      x p.1 ((place d p).1 + o.1, (place d p).2.1 + o.2.1, (place d p).2.2 + o.2.2) = own d x (go s1 s2 s3 o p) ∧
      x p.1 ((place d p).1 + o.1, (place d p).2.1 + o.2.1, (place d p).2.2 + o.2.2 - 1) = own d x (go s1 s2 s3 (0, 0, -1) (go s1 s2 s3 o p)) ∧
      (d.nx2 > 1 → x p.1 ((place d p).1 + o.1, (place d p).2.1 + o.2.1 - 1, (place d p).2.2 + o.2.2) = own d x (go s1 s2 s3 (0, -1, 0) (go s1 s2 s3 o p))) ∧
      (d.nx2 > 1 → x p.1 ((place d p).1 + o.1, (place d p).2.1 + o.2.1 - 1, (place d p).2.2 + o.2.2 - 1) = own d x (go s1 s2 s3 (0, -1, -1) (go s1 s2 s3 o p))) ∧
      (d.nx3 > 1 → x p.1 ((place d p).1 + o.1 - 1, (place d p).2.1 + o.2.1, (place d p).2.2 + o.2.2) = own d x (go s1 s2 s3 (-1, 0, 0) (go s1 s2 s3 o p))) ∧
      (d.nx3 > 1 → x p.1 ((place d p).1 + o.1 - 1, (place d p).2.1 + o.2.1 - 1, (place d p).2.2 + o.2.2) = own d x (go s1 s2 s3 (-1, -1, 0) (go s1 s2 s3 o p))) ∧
      (d.nx3 > 1 → x p.1 ((place d p).1 + o.1 - 1, (place d p).2.1 + o.2.1, (place d p).2.2 + o.2.2 - 1) = own d x (go s1 s2 s3 (-1, 0, -1) (go s1 s2 s3 o p))) := by
    intro x hx
    have ho := hd.ord
    refine ⟨?_, ?_, fun q => ?_, fun q => ?_, fun q => ?_, fun q => ?_, fun q => ?_⟩
    · have := read hs hx p o (0, 0, 0) (by refine ⟨?_, ?_, ?_, ?_, ?_⟩ <;> dsimp only <;> omega)
      simpa only [add_zero, go_zero] using this
    · have := read hs hx p o (0, 0, -1) (by refine ⟨?_, ?_, ?_, ?_, ?_⟩ <;> dsimp only <;> omega)
      simpa only [add_zero, ← sub_eq_add_neg] using this
    · have := read hs hx p o (0, -1, 0) (by refine ⟨?_, ?_, ?_, ?_, ?_⟩ <;> dsimp only <;> omega)
      simpa only [add_zero, ← sub_eq_add_neg] using this
    · have := read hs hx p o (0, -1, -1) (by refine ⟨?_, ?_, ?_, ?_, ?_⟩ <;> dsimp only <;> omega)
      simpa only [add_zero, ← sub_eq_add_neg] using this
    · have := read hs hx p o (-1, 0, 0) (by refine ⟨?_, ?_, ?_, ?_, ?_⟩ <;> dsimp only <;> omega)
      simpa only [add_zero, ← sub_eq_add_neg] using this
    · have := read hs hx p o (-1, -1, 0) (by refine ⟨?_, ?_, ?_, ?_, ?_⟩ <;> dsimp only <;> omega)
      simpa only [add_zero, ← sub_eq_add_neg] using this
    · have := read hs hx p o (-1, 0, -1) (by refine ⟨?_, ?_, ?_, ?_, ?_⟩ <;> dsimp only <;> omega)
      simpa only [add_zero, ← sub_eq_add_neg] using this
  obtain ⟨a0, a1, a2, -, a3, -, -⟩ := rd f1
  obtain ⟨b0, b1, b2, -, b3, -, -⟩ := rd f2
  obtain ⟨g0, g1, g2, -, -, -, -⟩ := rd f3
  obtain ⟨y0, y1, y2, y12, y3, y23, y13⟩ := rd fe
  rw [emf_eq c0 cA]
  refine ⟨fun q2 => ?_, ?_, fun q => ?_⟩
  · rw [ohmicEMF, addEdges1 d hd.ord _ _ _ _ q2 R3 R2 R1 d3, zero_add, C.1 q2]
    congr 1
    · unfold eta1 mid1
      rcases d3 with d3 | d3
      · rw [if_pos d3, if_pos d3, y0, y2 q2]
      · rw [if_neg (by omega), if_neg (by omega), y0, y2 q2, y3 d3, y23 d3]
    · rw [g0, g2 q2, b0]
      rcases d3 with d3 | d3
      · rw [inv3, if_neg (by omega), zero_mul, zero_mul]
      · rw [b3 d3]
  · rw [ohmicEMF, addEdges2 d hd.ord _ _ _ _ R3 R2 R1 d2 d3, zero_add, C.2.1]
    congr 1
    · unfold eta2 mid2
      rcases d3 with d3 | d3
      · rw [if_pos d3, if_pos d3, y0, y1, add_comm (own _ _ (go s1 s2 s3 (0, 0, -1) _)), ite_self]
      · have := hd.ord d3
        rw [if_neg (by omega), if_neg (by omega), if_neg (by omega), y0, y1, y3 d3, y13 d3]
    · rw [g0, g1, a0]
      rcases d3 with d3 | d3
      · rw [inv3, if_neg (by omega), zero_mul, zero_mul]
      · rw [a3 d3]
  · rw [ohmicEMF, addEdges3 d hd.ord _ _ _ _ (by omega) R2 R1 d2 d3, zero_add, C.2.2]
    congr 1
    · unfold eta3 mid3
      rcases d2 with d2 | d2
      · rw [if_pos d2, if_pos d2, y0, y1, add_comm]
      · rw [if_neg (by omega), if_neg (by omega), y0, y1, y2 d2, y12 d2]
    · rw [b0, b1, a0]
      rcases d2 with d2 | d2
      · rw [inv2, if_neg (by omega), zero_mul, zero_mul]
      · rw [a2 d2]

end

end
end Verif.Resist
