import Verif.Lemmas.ResistMesh
import Verif.Lemmas.Diffusion

/-!
# Resistivity: the magnetic energy does not grow (C75)

Exact arithmetic in an ordered field; blocks of a periodic uniform Cartesian mesh with exchanged boundary values.
-/
namespace Verif.Resist
open Verif.Grid Verif.Arr
open Verif.Diffusion (Met fac least foldl_min)
open Finset (sum_congr)
variable {K : Type} [Field K] [LinearOrder K] [IsStrictOrderedRing K]

omit [IsStrictOrderedRing K] in
/-- The limit of the time step is at most that of each cell. -/
theorem newDtOA_le (d : Dims) {c : Coefs K} (c0 : c.ohm > 0) (cA : c.ad = 0) (realMax tiny : K) (w1 w2 w3 : A3 K) (etaB : A4 K) {k j i : Int}
    (hk : d.ks ≤ k ∧ k ≤ d.ke) (hj : d.js ≤ j ∧ j ≤ d.je) (hi : d.is ≤ i ∧ i ≤ d.ie) :
    newDtOA d c realMax tiny w1 w2 w3 etaB ≤ fac d * least d w1 w2 w3 (k, j, i) ^ 2 / (etaB (0, k, j, i) + tiny) := by
  have e : newDtOA d c realMax tiny w1 w2 w3 etaB =
      (prodL (rng d.ks d.ke) (prodL (rng d.js d.je) (rng d.is d.ie))).foldl
        (fun m a => min m (fac d * least d w1 w2 w3 (a.1, a.2.1, a.2.2) ^ 2 / (etaB (0, a.1, a.2.1, a.2.2) + tiny))) realMax := by
    rw [foldl_prodL]
    simp only [foldl_prodL, newDtOA, loop_eq, if_pos c0, cA, gt_iff_lt, lt_self_iff_false, or_false, if_false, zero_add]
  rw [e]
  exact (foldl_min _ (fun a : Int × Int × Int => fac d * least d w1 w2 w3 (a.1, a.2.1, a.2.2) ^ 2 / (etaB (0, a.1, a.2.1, a.2.2) + tiny))
    realMax).2 (k, j, i) (mem_prodL.2 ⟨mem_rng.2 hk, mem_prodL.2 ⟨mem_rng.2 hj, mem_rng.2 hi⟩⟩)

/-- One step of resistive diffusion by constrained transport, with any non-negative diffusivity and the time step limited by
`NewDiffusionDt`, does not increase the magnetic energy of a periodic mesh, in one, two and three dimensions. -/
theorem ohmic_decay {B : Type} [Fintype B] {n1 n2 n3 : ℕ} {d : Dims} (hdim : d.nx1 = n1 ∧ d.nx2 = n2 ∧ d.nx3 = n3) (hd : Shape d)
    {s1 s2 s3 : Equiv.Perm (Cell B n1 n2 n3)} (hs : Steps s1 s2 s3) {h1 h2 h3 : K} (hh : 0 < h1 ∧ 0 < h2 ∧ 0 < h3)
    {M : Met K} {G : Geom K} {len : EF K} (U : Uniform h1 h2 h3 M G len) {c : Coefs K} (c0 : c.ohm > 0) (cA : c.ad = 0)
    {tiny realMax dt : K} (htiny : 0 ≤ tiny) (etaB : B → A4 K) (b : B → FF K) (bc : B → A4 K) (old e : B → EF K)
    (heta : ∀ B q, 0 ≤ etaB B (0, q))
    (f1 : Filled d s1 s2 s3 fun B => (b B).x1f) (f2 : Filled d s1 s2 s3 fun B => (b B).x2f) (f3 : Filled d s1 s2 s3 fun B => (b B).x3f)
    (fe : Filled d s1 s2 s3 fun B q => etaB B (0, q)) (hdt : 0 ≤ dt)
    (hlim : ∀ B, dt ≤ newDtOA d c realMax tiny (fun _ => h1) (fun _ => h2) (fun _ => h3) (etaB B)) :
    energy (n1 := n1) (n2 := n2) (n3 := n3) d (fun B =>
        ct d false false G len (diffusionEMF d (cartVC M) c tiny (etaB B) (b B) (bc B) (old B) (e B)) dt (b B)) ≤
      energy (n1 := n1) (n2 := n2) (n3 := n3) d b := by
  obtain ⟨p1, p2, p3⟩ := hh
  have q1 := p1.ne'
  have q2 := p2.ne'
  have q3 := p3.ne'
  have y0 : ∀ q : Cell B n1 n2 n3, 0 ≤ own d (fun B q => etaB B (0, q)) q := fun q => heta _ _
  -- the limit
  have lim : ∀ q : Cell B n1 n2 n3, dt * own d (fun B q => etaB B (0, q)) q ≤ fac d * least d (fun _ => h1) (fun _ => h2) (fun _ => h3) (0, 0, 0) ^ 2 := by
    intro q
    obtain ⟨r3, r2, r1⟩ := place_row hdim hd q
    have l := (hlim q.1).trans (newDtOA_le d c0 cA realMax tiny _ _ _ (etaB q.1) r3 r2 r1)
    have y := heta q.1 (place d q)
    have le : least d (fun _ => h1) (fun _ => h2) (fun _ => h3) (place d q) = least d (fun _ => h1) (fun _ => h2) (fun _ => h3) (0, 0, 0) := rfl
    have l : dt ≤ fac d * least d (fun _ => h1) (fun _ => h2) (fun _ => h3) (0, 0, 0) ^ 2 / (etaB q.1 (0, place d q) + tiny) := l
    have F : (0 : K) ≤ fac d * least d (fun _ => h1) (fun _ => h2) (fun _ => h3) (0, 0, 0) ^ 2 := by
      have : (0 : K) ≤ fac d := by unfold fac; split_ifs <;> norm_num
      positivity
    show dt * etaB q.1 (0, place d q) ≤ _
    rcases (add_nonneg y htiny).eq_or_lt with z | z
    · have : etaB q.1 (0, place d q) = 0 := by linarith
      rw [this, mul_zero]; exact F
    · rw [le_div_iff₀ z] at l
      have := mul_nonneg hdt htiny
      linarith
  have sz : 2 * ((1 / h1) ^ 2 + inv2 d h2 ^ 2 + inv3 d h3 ^ 2) * (fac d * least d (fun _ => h1) (fun _ => h2) (fun _ => h3) (0, 0, 0) ^ 2) ≤ 1 := by
    have one : ∀ {h l : K}, 0 < h → 0 ≤ l → l ≤ h → (1 / h) ^ 2 * l ^ 2 ≤ 1 := by
      intro h l a b c
      rw [← mul_pow, one_div, inv_mul_eq_div]
      have h0 : 0 ≤ l / h := by positivity
      have h1 : l / h ≤ 1 := (div_le_one a).2 c
      nlinarith
    by_cases g3 : d.nx3 > 1
    · have g2 := hd.ord g3
      simp only [inv2, inv3, fac, least, if_pos g3, if_pos g2]
      have l0 : 0 ≤ min (min h1 h2) h3 := (lt_min (lt_min p1 p2) p3).le
      have a1 := one p1 l0 ((min_le_left _ _).trans (min_le_left _ _))
      have a2 := one p2 l0 ((min_le_left _ _).trans (min_le_right _ _))
      have a3 := one p3 l0 (min_le_right _ _)
      linarith
    · by_cases g2 : d.nx2 > 1
      · simp only [inv2, inv3, fac, least, if_neg g3, if_pos g2]
        have l0 : 0 ≤ min h1 h2 := (lt_min p1 p2).le
        have a1 := one p1 l0 (min_le_left _ _)
        have a2 := one p2 l0 (min_le_right _ _)
        linarith
      · simp only [inv2, inv3, fac, least, if_neg g3, if_neg g2]
        have a1 := one p1 p1.le le_rfl
        linarith
  have C0 : 0 ≤ 2 * ((1 / h1) ^ 2 + inv2 d h2 ^ 2 + inv3 d h3 ^ 2) := by positivity
  have E := emf_at hdim hd hs q1 q2 q3 U.d1 U.d2 U.d3 c0 cA tiny etaB b bc old e f1 f2 f3 fe
  have g1 : ∀ q, go s1 s2 s3 (0, 0, -1) q = s1⁻¹ q := fun q => by simp [go]
  have g2 : ∀ q, go s1 s2 s3 (0, -1, 0) q = s2⁻¹ q := fun q => by simp [go]
  have g3 : ∀ q, go s1 s2 s3 (-1, 0, 0) q = s3⁻¹ q := fun q => by simp [go]
  have u1 : ∀ q, go s1 s2 s3 (0, 0, 1) q = s1 q := fun q => by simp [go]
  have u2 : ∀ q, go s1 s2 s3 (0, 1, 0) q = s2 q := fun q => by simp [go]
  have u3 : ∀ q, go s1 s2 s3 (1, 0, 0) q = s3 q := fun q => by simp [go]
  set Y := own d fun B q => etaB B (0, q) with hY
  set β1 := own (n1 := n1) (n2 := n2) (n3 := n3) d fun B => (b B).x1f with hb1
  set β2 := own (n1 := n1) (n2 := n2) (n3 := n3) d fun B => (b B).x2f with hb2
  set β3 := own (n1 := n1) (n2 := n2) (n3 := n3) d fun B => (b B).x3f with hb3
  set N1 := mid1 d (go s1 s2 s3) Y with hN1
  set N2 := mid2 d (go s1 s2 s3) Y with hN2
  set N3 := mid3 d (go s1 s2 s3) Y with hN3
  let e1 : Cell B n1 n2 n3 → K := fun p => N1 p * (bw (inv2 d h2) s2 β3 p - bw (inv3 d h3) s3 β2 p)
  let e2 : Cell B n1 n2 n3 → K := fun p => N2 p * (bw (inv3 d h3) s3 β1 p - bw (1 / h1) s1 β3 p)
  let e3 : Cell B n1 n2 n3 → K := fun p => N3 p * (bw (1 / h1) s1 β2 p - bw (inv2 d h2) s2 β1 p)
  -- values of the electric field
  have E1 : ∀ p o, Near d o → 0 ≤ o.1 ∧ 0 ≤ o.2.1 ∧ 0 ≤ o.2.2 → d.nx2 > 1 →
      (emf d M c tiny etaB b bc old e p.1).x1e ((place d p).1 + o.1, (place d p).2.1 + o.2.1, (place d p).2.2 + o.2.2) = e1 (go s1 s2 s3 o p) := by
    intro p o hn h0 h2
    rw [(E p o hn h0).1 h2, g2, g3]; rfl
  have E2 : ∀ p o, Near d o → 0 ≤ o.1 ∧ 0 ≤ o.2.1 ∧ 0 ≤ o.2.2 →
      (emf d M c tiny etaB b bc old e p.1).x2e ((place d p).1 + o.1, (place d p).2.1 + o.2.1, (place d p).2.2 + o.2.2) = e2 (go s1 s2 s3 o p) := by
    intro p o hn h0
    rw [(E p o hn h0).2.1, g1, g3]; rfl
  have E3 : ∀ p o, Near d o → 0 ≤ o.1 ∧ 0 ≤ o.2.1 ∧ 0 ≤ o.2.2 → o.1 = 0 →
      (emf d M c tiny etaB b bc old e p.1).x3e ((place d p).1 + o.1, (place d p).2.1 + o.2.1, (place d p).2.2 + o.2.2) = e3 (go s1 s2 s3 o p) := by
    intro p o hn h0 h3
    rw [(E p o hn h0).2.2 h3, g1, g2]; rfl
  have near0 : Near d (0, 0, 0) := by unfold Near; simp
  have near1 : Near d (0, 0, 1) := by unfold Near; simp
  have near2 : d.nx2 > 1 → Near d (0, 1, 0) := by intro h; unfold Near; simp [h]
  have near3 : d.nx3 > 1 → Near d (1, 0, 0) := by intro h; unfold Near; simp [h]
  have D := decay (1 / h1) (inv2 d h2) (inv3 d h3) s1 s2 s3 hs.c12 hs.c13 hs.c23 β1 β2 β3 N1 N2 N3 hdt
    (fun p => by
      have mx : ∀ q, 0 ≤ Y q := y0
      refine ⟨?_, ?_, ?_⟩
      · simp only [hN1, mid1]; split <;> linarith [mx p, mx (go s1 s2 s3 (0, -1, 0) p), mx (go s1 s2 s3 (-1, 0, 0) p), mx (go s1 s2 s3 (-1, -1, 0) p)]
      · simp only [hN2, mid2]; split <;> linarith [mx p, mx (go s1 s2 s3 (0, 0, -1) p), mx (go s1 s2 s3 (-1, 0, 0) p), mx (go s1 s2 s3 (-1, 0, -1) p)]
      · simp only [hN3, mid3]; split <;> linarith [mx p, mx (go s1 s2 s3 (0, 0, -1) p), mx (go s1 s2 s3 (0, -1, 0) p), mx (go s1 s2 s3 (0, -1, -1) p)])
    (fun p => by
      have fin : ∀ {n : K}, dt * n ≤ fac d * least d (fun _ => h1) (fun _ => h2) (fun _ => h3) (0, 0, 0) ^ 2 →
          2 * ((1 / h1) ^ 2 + inv2 d h2 ^ 2 + inv3 d h3 ^ 2) * (dt * n) ≤ 1 := fun h => (mul_le_mul_of_nonneg_left h C0).trans sz
      have mx : ∀ q, dt * Y q ≤ _ := lim
      refine ⟨fin ?_, fin ?_, fin ?_⟩
      · simp only [hN1, mid1]; split <;> linarith [mx p, mx (go s1 s2 s3 (0, -1, 0) p), mx (go s1 s2 s3 (-1, 0, 0) p), mx (go s1 s2 s3 (-1, -1, 0) p)]
      · simp only [hN2, mid2]; split <;> linarith [mx p, mx (go s1 s2 s3 (0, 0, -1) p), mx (go s1 s2 s3 (-1, 0, 0) p), mx (go s1 s2 s3 (-1, 0, -1) p)]
      · simp only [hN3, mid3]; split <;> linarith [mx p, mx (go s1 s2 s3 (0, 0, -1) p), mx (go s1 s2 s3 (0, -1, 0) p), mx (go s1 s2 s3 (0, -1, -1) p)])
    (e1 := e1) (e2 := e2) (e3 := e3) (fun _ => rfl) (fun _ => rfl) (fun _ => rfl)
  refine le_trans (le_of_eq ?_) D
  unfold energy
  apply sum_congr rfl
  intro p _
  obtain ⟨r3, r2, r1⟩ := place_row hdim hd p
  have x1 : ∀ h : d.nx2 > 1, (emf d M c tiny etaB b bc old e p.1).x1e (place d p) = e1 p := by
    intro h; simpa only [add_zero, go_zero] using E1 p (0, 0, 0) near0 (by simp) h
  have x12 : ∀ h : d.nx2 > 1, (emf d M c tiny etaB b bc old e p.1).x1e ((place d p).1, (place d p).2.1 + 1, (place d p).2.2) = e1 (s2 p) := by
    intro h; simpa only [add_zero, u2] using E1 p (0, 1, 0) (near2 h) (by simp) h
  have x13 : ∀ h : d.nx3 > 1, (emf d M c tiny etaB b bc old e p.1).x1e ((place d p).1 + 1, (place d p).2.1, (place d p).2.2) = e1 (s3 p) := by
    intro h; simpa only [add_zero, u3] using E1 p (1, 0, 0) (near3 h) (by simp) (hd.ord h)
  have x2 : (emf d M c tiny etaB b bc old e p.1).x2e (place d p) = e2 p := by
    simpa only [add_zero, go_zero] using E2 p (0, 0, 0) near0 (by simp)
  have x21 : (emf d M c tiny etaB b bc old e p.1).x2e ((place d p).1, (place d p).2.1, (place d p).2.2 + 1) = e2 (s1 p) := by
    simpa only [add_zero, u1] using E2 p (0, 0, 1) near1 (by simp)
  have x23 : ∀ h : d.nx3 > 1, (emf d M c tiny etaB b bc old e p.1).x2e ((place d p).1 + 1, (place d p).2.1, (place d p).2.2) = e2 (s3 p) := by
    intro h; simpa only [add_zero, u3] using E2 p (1, 0, 0) (near3 h) (by simp)
  have x3 : (emf d M c tiny etaB b bc old e p.1).x3e (place d p) = e3 p := by
    simpa only [add_zero, go_zero] using E3 p (0, 0, 0) near0 (by simp) rfl
  have x31 : (emf d M c tiny etaB b bc old e p.1).x3e ((place d p).1, (place d p).2.1, (place d p).2.2 + 1) = e3 (s1 p) := by
    simpa only [add_zero, u1] using E3 p (0, 0, 1) near1 (by simp) rfl
  have x32 : ∀ h : d.nx2 > 1, (emf d M c tiny etaB b bc old e p.1).x3e ((place d p).1, (place d p).2.1 + 1, (place d p).2.2) = e3 (s2 p) := by
    intro h; simpa only [add_zero, u2] using E3 p (0, 1, 0) (near2 h) (by simp) rfl
  have B1 : (ct d false false G len (emf d M c tiny etaB b bc old e p.1) dt (b p.1)).x1f (place d p) =
      β1 p - dt * (fw (inv2 d h2) s2 e3 p - fw (inv3 d h3) s3 e2 p) := by
    simp only [ct, ctB1_eq, EF.line3, EF.line2, U.l3, U.l2, U.a1]
    by_cases h2 : 1 < d.nx2
    · rw [if_pos ⟨h2, r3.1, r3.2, r2.1, r2.2, r1.1, by omega⟩]
      simp only [fw, inv2, inv3, if_pos (show d.nx2 > 1 from h2), x32 h2]
      rw [show ((place d p).1, (place d p).2.1, (place d p).2.2) = place d p from rfl, x3]
      by_cases h3 : d.nx3 > 1
      · rw [if_pos h3, if_pos h3, x23 h3, x2]
        show β1 p + _ = _
        field_simp
        ring
      · rw [if_neg h3, if_neg h3]
        show β1 p + _ = _
        field_simp
        ring
    · rw [if_neg (fun h => h2 h.1)]
      have h3 : ¬ d.nx3 > 1 := fun h => h2 (hd.ord h)
      simp only [fw, inv2, inv3, if_neg (show ¬ d.nx2 > 1 from h2), if_neg h3, zero_mul, sub_zero, mul_zero]
      rfl
  have B2 : (ct d false false G len (emf d M c tiny etaB b bc old e p.1) dt (b p.1)).x2f (place d p) =
      β2 p - dt * (fw (inv3 d h3) s3 e1 p - fw (1 / h1) s1 e3 p) := by
    simp only [ct, ctB2_eq, EF.line3, EF.line1, U.l3, U.l1, U.a2, Bool.false_eq_true, if_false]
    rw [if_pos ⟨r3.1, r3.2, r2.1, by omega, r1.1, r1.2⟩]
    simp only [fw, inv3, x31]
    rw [show ((place d p).1, (place d p).2.1, (place d p).2.2) = place d p from rfl, x3]
    by_cases h3 : d.nx3 > 1
    · rw [if_pos h3, if_pos h3, x13 h3, x1 (hd.ord h3)]
      show β2 p + _ = _
      field_simp
      ring
    · rw [if_neg h3, if_neg h3]
      show β2 p + _ = _
      field_simp
      ring
  have B3 : (ct d false false G len (emf d M c tiny etaB b bc old e p.1) dt (b p.1)).x3f (place d p) =
      β3 p - dt * (fw (1 / h1) s1 e2 p - fw (inv2 d h2) s2 e1 p) := by
    simp only [ct, ctB3_eq, EF.line2, EF.line1, U.l2, U.l1, U.a3]
    rw [if_pos ⟨r3.1, by omega, r2.1, r2.2, r1.1, r1.2⟩]
    simp only [fw, inv2, x21]
    rw [show ((place d p).1, (place d p).2.1, (place d p).2.2) = place d p from rfl, x2]
    by_cases h2 : d.nx2 > 1
    · rw [if_pos h2, if_pos h2, x12 h2, x1 h2]
      show β3 p + _ = _
      field_simp
      ring
    · rw [if_neg h2, if_neg h2]
      show β3 p + _ = _
      field_simp
      ring
  rw [← B1, ← B2, ← B3]
  rfl

/-! ## A mesh that meets the hypotheses: two blocks of four by four cells, periodic -/

/-- The next cell in direction 1, possibly in the other block. -/
def exS1 : Equiv.Perm (Cell Bool 4 4 1) where
  toFun p := if p.2.2.2 = 3 then (!p.1, p.2.1, p.2.2.1, 0) else (p.1, p.2.1, p.2.2.1, p.2.2.2 + 1)
  invFun p := if p.2.2.2 = 0 then (!p.1, p.2.1, p.2.2.1, 3) else (p.1, p.2.1, p.2.2.1, p.2.2.2 - 1)
  left_inv := by decide
  right_inv := by decide
/-- The next cell in direction 2. -/
def exS2 : Equiv.Perm (Cell Bool 4 4 1) where
  toFun p := (p.1, p.2.1, p.2.2.1 + 1, p.2.2.2)
  invFun p := (p.1, p.2.1, p.2.2.1 - 1, p.2.2.2)
  left_inv := by decide
  right_inv := by decide

def exD : Dims := ⟨2, 4, 4, 1⟩
/-- Periodic values, different in the cells of the mesh, with the ghost cells filled. -/
def exV (a c : ℚ) (B : Bool) : A3 ℚ := fun q =>
  a * (((4 * (if B then 1 else 0) + q.2.2 - 2) % 8 : ℤ) : ℚ) ^ 2 + c * (((q.2.1 - 2) % 4 : ℤ) : ℚ)
def exB (B : Bool) : FF ℚ := ⟨exV 1 3 B, exV 2 (-1) B, exV (1/2) 5 B⟩
def exEta (B : Bool) : A4 ℚ := fun q => exV (1/100) (1/50) B q.2
def exMet : Met ℚ := ⟨fun _ => 1, fun _ => 1, fun _ => 1, fun _ => 1, fun _ => 1, fun _ => 1, fun _ => 1, fun _ => 1, fun _ => 1,
  fun _ => 0, fun _ => 0, fun _ => 0, fun _ => false⟩

theorem exFilled (a c : ℚ) : Filled exD exS1 exS2 1 (exV a c) := by
  have key : ∀ (o : Int × Int × Int), Near exD o → ∀ p : Cell Bool 4 4 1,
      (4 * (if p.1 then 1 else 0) + ((place exD p).2.2 + o.2.2) - 2) % 8 =
        (4 * (if (go exS1 exS2 1 o p).1 then 1 else 0) + (place exD (go exS1 exS2 1 o p)).2.2 - 2) % 8 ∧
      ((place exD p).2.1 + o.2.1 - 2) % 4 = ((place exD (go exS1 exS2 1 o p)).2.1 - 2) % 4 := by
    rintro ⟨o3, o2, o1⟩ hn
    obtain ⟨-, h2, h1, -, h3⟩ := hn
    have h3 : o3 = 0 := h3 (by decide)
    have g2 : o2 = -1 ∨ o2 = 0 ∨ o2 = 1 := by simp only at h2; omega
    have g1 : o1 = -1 ∨ o1 = 0 ∨ o1 = 1 := by simp only at h1; omega
    subst h3
    rcases g2 with rfl | rfl | rfl <;> rcases g1 with rfl | rfl | rfl <;> decide
  intro p o hn
  obtain ⟨k1, k2⟩ := key o hn p
  simp only [exV, k1, k2]

example : Shape exD ∧ Steps exS1 exS2 1 ∧ Uniform (1 : ℚ) 1 1 exMet ⟨fun _ => 1, fun _ => 1, fun _ => 1, fun _ => 1⟩ ⟨fun _ => 1, fun _ => 1, fun _ => 1⟩ ∧
    Filled exD exS1 exS2 1 (fun B => (exB B).x1f) ∧ Filled exD exS1 exS2 1 (fun B => (exB B).x2f) ∧
    Filled exD exS1 exS2 1 (fun B => (exB B).x3f) ∧ Filled exD exS1 exS2 1 (fun B q => exEta B (0, q)) ∧
    ∀ B, (1/4 : ℚ) ≤ newDtOA exD ⟨1, 0, 0⟩ 100 (1/100) (fun _ => 1) (fun _ => 1) (fun _ => 1) (exEta B) := by
  refine ⟨⟨by decide, by decide, by decide, by decide⟩, ⟨Equiv.ext (by decide), Equiv.ext (by decide), Equiv.ext (by decide)⟩,
    ⟨fun _ => rfl, fun _ => rfl, fun _ => rfl, fun _ => (one_mul 1).symm, fun _ => (one_mul 1).symm, fun _ => (one_mul 1).symm,
      fun _ => rfl, fun _ => rfl, fun _ => rfl⟩,
    exFilled _ _, exFilled _ _, exFilled _ _, exFilled _ _, by decide +kernel⟩

end Verif.Resist
