import Verif.Props.RadExchange

/-!
# C85: frames of the radiation and conservation of energy and momentum with the gas
-/

namespace Verif.RadX

open Finset Verif.RadX.Spec

variable {N : ℕ}

/-- Slower than light. -/
def Slow (c : ℝ) (vx vy vz : ℝ) : Prop := 0 < c ∧ vx * vx + vy * vy + vz * vz < c * c

theorem slow_beta {c vx vy vz : ℝ} (h : Slow c vx vy vz) :
    0 < 1 - (vx * vx + vy * vy + vz * vz) * (1 / c) * (1 / c) := by
  obtain ⟨hc, hv⟩ := h
  have : (vx * vx + vy * vy + vz * vz) * (1 / c) * (1 / c)
      = (vx * vx + vy * vy + vz * vz) / (c * c) := by field_simp
  rw [this, sub_pos, div_lt_one (by positivity)]; exact hv

theorem lorzsq_pos {c vx vy vz : ℝ} (h : Slow c vx vy vz) : 0 < lorzsq c vx vy vz :=
  one_div_pos.mpr (slow_beta h)

theorem vnc_pos {c vx vy vz x y z : ℝ} (h : Slow c vx vy vz)
    (hu : x * x + y * y + z * z = 1) : 0 < vnc c vx vy vz x y z := by
  obtain ⟨hc, hv⟩ := h
  have hcs : (vx * x + vy * y + vz * z) ^ 2 ≤ vx * vx + vy * vy + vz * vz := by
    have : (vx * x + vy * y + vz * z) ^ 2
        = (vx * vx + vy * vy + vz * vz) * (x * x + y * y + z * z)
          - ((vx * y - vy * x) ^ 2 + (vx * z - vz * x) ^ 2 + (vy * z - vz * y) ^ 2) := by ring
    rw [this, hu]
    nlinarith [sq_nonneg (vx * y - vy * x), sq_nonneg (vx * z - vz * x),
      sq_nonneg (vy * z - vz * y)]
  have hlt : vx * x + vy * y + vz * z < c := by
    by_contra hcon
    push Not at hcon
    nlinarith
  unfold vnc
  rw [mul_one_div, sub_pos, div_lt_one hc]; exact hlt

/-- `ComToLab` undoes `LabToCom` and the other way round; the factor is the fourth power of the
Doppler shift. -/
theorem frames_round_trip {c vx vy vz x y z : ℝ} (h : Slow c vx vy vz)
    (hu : x * x + y * y + z * z = 1) (ir : ℝ) :
    comToLab c vx vy vz x y z (labToCom c vx vy vz x y z ir) = ir ∧
    labToCom c vx vy vz x y z (comToLab c vx vy vz x y z ir) = ir ∧
    labToCom c vx vy vz x y z ir = ((1 - (vx * x + vy * y + vz * z) / c) ^ 2
      / (1 - (vx ^ 2 + vy ^ 2 + vz ^ 2) / c ^ 2)) ^ 2 * ir := by
  have h1 := (vnc_pos h hu).ne'
  have h2 := (lorzsq_pos h).ne'
  have h3 := (slow_beta h).ne'
  have hc := h.1.ne'
  refine ⟨?_, ?_, ?_⟩
  · unfold comToLab labToCom
    field_simp
  · unfold comToLab labToCom
    field_simp
  · unfold labToCom
    have e1 : vnc c vx vy vz x y z = 1 - (vx * x + vy * y + vz * z) / c := by
      unfold vnc; rw [mul_one_div]
    have e2 : lorzsq c vx vy vz = 1 / (1 - (vx ^ 2 + vy ^ 2 + vz ^ 2) / c ^ 2) := by
      unfold lorzsq
      have : (vx * vx + vy * vy + vz * vz) * (1 / c) * (1 / c)
          = (vx ^ 2 + vy ^ 2 + vz ^ 2) / c ^ 2 := by field_simp
      rw [this]
    rw [e1, e2]
    ring

/-- `ComAngle` gives a unit vector: the direction of the ray boosted to the frame of the gas. -/
theorem com_angle {c vx vy vz x y z : ℝ} (h : Slow c vx vy vz)
    (hu : x * x + y * y + z * z = 1) :
    let n := comAngle c vx vy vz x y z
    n.1 * n.1 + n.2.1 * n.2.1 + n.2.2 * n.2.2 = 1 ∧
    -- the boosted energy of the ray, times what the inverse boost gives back, is one
    ∀ g, 0 < g → g * g = lorzsq c vx vy vz →
      g * vnc c vx vy vz x y z * (g * (1 + (vx * n.1 + vy * n.2.1 + vz * n.2.2) * (1 / c))) = 1 := by
  have hb := slow_beta h
  have hl := lorzsq_pos h
  have hv := vnc_pos h hu
  obtain ⟨hc, _⟩ := h
  set g := √(lorzsq c vx vy vz) with hg
  have hgp : 0 < g := Real.sqrt_pos.mpr hl
  have hg2 : g * g = lorzsq c vx vy vz := Real.mul_self_sqrt hl.le
  have hgb : g * g * (1 - (vx * vx + vy * vy + vz * vz) * (1 / c) * (1 / c)) = 1 := by
    rw [hg2]; unfold lorzsq; exact one_div_mul_cancel hb.ne'
  set k := 1 / c with hk
  set d := vx * x + vy * y + vz * z with hd
  have hvn : vnc c vx vy vz x y z = 1 - d * k := rfl
  rw [hvn] at hv
  have hg1 : 1 + g ≠ 0 := by positivity
  set A := g * k * (1 - g * d * k / (1 + g)) with hA
  have hA' : A * (1 + g) = g * k * (1 + g - g * d * k) := by rw [hA]; field_simp
  have hgv : g * (1 - d * k) ≠ 0 := by positivity
  set V := vx * vx + vy * vy + vz * vz with hV
  have hN : comAngle c vx vy vz x y z = ((x - vx * A) * (1 / (g * (1 - d * k))),
      (y - vy * A) * (1 / (g * (1 - d * k))), (z - vz * A) * (1 / (g * (1 - d * k)))) := rfl
  intro n
  have hn : n = comAngle c vx vy vz x y z := rfl
  rw [hn, hN]
  have hnorm : 1 - 2 * A * d + A ^ 2 * V = (g * (1 - d * k)) ^ 2 := by
    have e : ((1 - 2 * A * d + A ^ 2 * V) - (g * (1 - d * k)) ^ 2) * (1 + g) ^ 2 = 0 := by
      have e1 : ((1 - 2 * A * d + A ^ 2 * V) - (g * (1 - d * k)) ^ 2) * (1 + g) ^ 2
          = (1 + g) ^ 2 - 2 * (A * (1 + g)) * d * (1 + g) + (A * (1 + g)) ^ 2 * V
            - (g * (1 - d * k)) ^ 2 * (1 + g) ^ 2 := by ring
      rw [e1, hA']
      have e2 : g ^ 2 * k ^ 2 * V = g ^ 2 - 1 := by linear_combination -hgb
      linear_combination ((1 + g - g * d * k) ^ 2) * e2
    rcases mul_eq_zero.mp e with e | e
    · linarith
    · exact absurd e (by positivity)
  constructor
  · dsimp only
    have e : (x - vx * A) * (x - vx * A) + (y - vy * A) * (y - vy * A)
        + (z - vz * A) * (z - vz * A) = (g * (1 - d * k)) ^ 2 := by
      rw [← hnorm, hd, hV]; linear_combination hu
    have : (x - vx * A) * (1 / (g * (1 - d * k))) * ((x - vx * A) * (1 / (g * (1 - d * k))))
        + (y - vy * A) * (1 / (g * (1 - d * k))) * ((y - vy * A) * (1 / (g * (1 - d * k))))
        + (z - vz * A) * (1 / (g * (1 - d * k))) * ((z - vz * A) * (1 / (g * (1 - d * k))))
        = ((x - vx * A) * (x - vx * A) + (y - vy * A) * (y - vy * A)
        + (z - vz * A) * (z - vz * A)) / (g * (1 - d * k)) ^ 2 := by
      field_simp
    rw [this, e, div_self (by positivity)]
  · intro g' hg'p hg'2
    have hgg : g' = g := by
      have : g' ^ 2 = g ^ 2 := by rw [sq, sq, hg'2, hg2]
      exact (pow_left_inj₀ hg'p.le hgp.le (by norm_num)).mp this
    rw [hgg, hvn]
    dsimp only
    have e0 : vx * ((x - vx * A) * (1 / (g * (1 - d * k))))
        + vy * ((y - vy * A) * (1 / (g * (1 - d * k))))
        + vz * ((z - vz * A) * (1 / (g * (1 - d * k))))
        = (d - V * A) / (g * (1 - d * k)) := by
      rw [hd, hV]; field_simp; ring
    rw [e0]
    have e1 : g * (1 - d * k) * (g * (1 + (d - V * A) / (g * (1 - d * k)) * k))
        = g * (g * (1 - d * k) + (d - V * A) * k) := by field_simp
    rw [e1]
    have e2 : (g * (g * (1 - d * k) + (d - V * A) * k) - 1) * (1 + g) = 0 := by
      have : (g * (g * (1 - d * k) + (d - V * A) * k) - 1) * (1 + g)
          = g * (g * (1 - d * k) + d * k) * (1 + g) - g * V * k * (A * (1 + g)) - (1 + g) := by
        ring
      rw [this, hA']
      have e3 : g ^ 2 * k ^ 2 * V = g ^ 2 - 1 := by linear_combination -hgb
      linear_combination (-(1 + g - g * d * k)) * e3
    rcases mul_eq_zero.mp e2 with e2 | e2
    · linarith
    · exact absurd e2 hg1

/-- What the module is called with: gas slower than light, unit directions, weights that sum to
one. -/
structure LabOk (l : Lab N) : Prop where
  slow : Slow l.c (l.v 0) (l.v 1) (l.v 2)
  unit : ∀ n, l.mu n 0 * l.mu n 0 + l.mu n 1 * l.mu n 1 + l.mu n 2 * l.mu n 2 = 1
  wmu : ∀ n, 0 ≤ l.wmu n
  norm : ∑ n, l.wmu n = 1

theorem tranCoef_pos {l : Lab N} (h : LabOk l) (n : Fin N) : 0 < tranCoef l n :=
  mul_pos (Real.sqrt_pos.mpr (lorzsq_pos h.slow)) (vnc_pos h.slow (h.unit n))

/-- The weights of the co-moving frame are weights: they sum to one. -/
theorem comoving_weights (l : Lab N) (h : LabOk l) :
    (∀ n, 0 ≤ wmuCm l n) ∧ ∑ n, wmuCm l n = 1 := by
  have hp : ∀ n, 0 < tranCoef l n * tranCoef l n := fun n =>
    mul_pos (tranCoef_pos h n) (tranCoef_pos h n)
  have hnn : ∀ n ∈ (Finset.univ : Finset (Fin N)), 0 ≤ l.wmu n / (tranCoef l n * tranCoef l n) :=
    fun n _ => div_nonneg (h.wmu n) (hp n).le
  have hpos : 0 < ∑ m, l.wmu m / (tranCoef l m * tranCoef l m) := by
    refine lt_of_le_of_ne (Finset.sum_nonneg hnn) fun hz => ?_
    have := (Finset.sum_eq_zero_iff_of_nonneg hnn).mp hz.symm
    have hw : ∀ n, l.wmu n = 0 := by
      intro n
      rcases div_eq_zero_iff.mp (this n (Finset.mem_univ n)) with h1 | h1
      · exact h1
      · exact absurd h1 (hp n).ne'
    have hn := h.norm
    simp [hw] at hn
  constructor
  · intro n
    exact mul_nonneg (hnn n (Finset.mem_univ n)) (one_div_pos.mpr hpos).le
  · unfold wmuCm
    rw [← Finset.sum_mul, mul_one_div_cancel hpos.ne']

/-- The source step of a moving cell of gas meets the hypotheses of C84. -/
theorem comoving_physical (l : Lab N) (h : LabOk l) {ct red prat gm1 rho tgas sa sp spe ss : ℝ}
    (hct : 0 ≤ ct) (hred : 0 < red) (hpr : 0 ≤ prat) (hg : 0 < gm1) (hr : 0 < rho)
    (ht : 0 < tgas) (hsa : 0 ≤ sa) (hsp : 0 ≤ sp) (hspe : 0 ≤ spe) (hss : 0 ≤ ss) :
    Physical (comoving l ct red prat gm1 rho tgas sa sp spe ss) where
  w := (comoving_weights l h).1
  norm := (comoving_weights l h).2
  tc := tranCoef_pos h
  im := fun _ => le_rfl
  ir := fun n => le_max_of_le_right (by unfold tiny; positivity)
  ct := hct
  red := hred
  prat := hpr
  gm1 := hg
  rho := hr
  tgas := ht
  sa := hsa
  sp := hsp
  spe := hspe
  ss := hss

/-- Radiation that is thermal in the frame of moving gas stays as it is, in the laboratory
frame: its intensity there is the equilibrium intensity times the fourth power of the Doppler
shift. -/
theorem moving_equilibrium (l : Lab N) (h : LabOk l)
    {ct red prat gm1 rho tgas sa sp ss : ℝ} (hred : 0 < red)
    (hg : 0 < gm1) (hr : 0 < rho) (ht : 0 < tgas) (hsa : 0 ≤ sa) (hsp : 0 ≤ sp) (hss : 0 ≤ ss)
    (hct : 0 ≤ ct) (hpr : 0 ≤ prat) (hpos : 0 < prat * ct * sp) (hle : sp ≤ sa + ss)
    (heq : ∀ n, l.ir n = ((1 - (l.v 0 ^ 2 + l.v 1 ^ 2 + l.v 2 ^ 2) / l.c ^ 2)
      / (1 - (l.v 0 * l.mu n 0 + l.v 1 * l.mu n 1 + l.v 2 * l.mu n 2) / l.c) ^ 2) ^ 2 * tgas ^ 4)
    (hfl : 1 / 10 ^ 20 < tgas ^ 4) (hfl' : ∀ n, 1 / 10 ^ 20 ≤ l.ir n)
    (hfn : ∀ n, 1 / 10 ^ 20 < newI (comoving l ct red prat gm1 rho tgas sa sp sp ss) n)
    (hbr : coef1 (comoving l ct red prat gm1 rho tgas sa sp sp ss) = 0 ∨
      (1 / 10 ^ 20 < coef1 (comoving l ct red prat gm1 rho tgas sa sp sp ss) ∧
        1 / 4 + 64 * |coef0 (comoving l ct red prat gm1 rho tgas sa sp sp ss)| ^ 3
          * coef1 (comoving l ct red prat gm1 rho tgas sa sp sp ss) / 27 ≤ 10 ^ 20)) :
    (newT (comoving l ct red prat gm1 rho tgas sa sp sp ss)).1 = tgas ∧
    ∀ n, labOut l (comoving l ct red prat gm1 rho tgas sa sp sp ss) n = l.ir n := by
  set q := comoving l ct red prat gm1 rho tgas sa sp sp ss with hq
  have hp : Physical q := comoving_physical l h hct hred hpr hg hr ht hsa hsp hsp hss
  have htc : ∀ n, 0 < cmToLab l n := by
    intro n
    have := tranCoef_pos h n
    unfold cmToLab; positivity
  have hD : ∀ n, cmToLab l n = ((1 - (l.v 0 * l.mu n 0 + l.v 1 * l.mu n 1 + l.v 2 * l.mu n 2)
      / l.c) ^ 2 / (1 - (l.v 0 ^ 2 + l.v 1 ^ 2 + l.v 2 ^ 2) / l.c ^ 2)) ^ 2 := by
    intro n
    have h1 := (frames_round_trip h.slow (h.unit n) 1).2.2
    rw [mul_one] at h1
    rw [← h1]
    have hs := Real.mul_self_sqrt (lorzsq_pos h.slow).le
    unfold cmToLab tranCoef labToCom
    set g := √(lorzsq l.c (l.v 0) (l.v 1) (l.v 2))
    rw [← hs]; ring
  have hir : ∀ n, l.ir n * cmToLab l n = tgas ^ 4 := by
    intro n
    have h1 := htc n
    rw [hD n] at h1
    rw [heq n, hD n]
    have ha : (1 - (l.v 0 * l.mu n 0 + l.v 1 * l.mu n 1 + l.v 2 * l.mu n 2) / l.c) ≠ 0 := by
      intro h0; rw [h0] at h1; norm_num at h1
    have hb : (1 - (l.v 0 ^ 2 + l.v 1 ^ 2 + l.v 2 ^ 2) / l.c ^ 2) ≠ 0 := by
      intro h0; rw [h0] at h1; norm_num at h1
    generalize (1 - (l.v 0 * l.mu n 0 + l.v 1 * l.mu n 1 + l.v 2 * l.mu n 2) / l.c) = A at ha ⊢
    generalize (1 - (l.v 0 ^ 2 + l.v 1 ^ 2 + l.v 2 ^ 2) / l.c ^ 2) = B at hb ⊢
    field_simp
  have hqir : ∀ n, q.ir n = tgas ^ 4 := by
    intro n
    have : q.ir n = max (l.ir n * cmToLab l n) (1 / 10 ^ 20) := rfl
    rw [this, hir n, max_eq_left hfl.le]
  obtain ⟨e1, e2⟩ := (equilibrium q hp (fun _ => rfl) rfl hle hpos hqir (newI q) (newT q).1
    (newT_spec hp).2.1).mp ⟨exchange_transfer q hp hfn, (exchange_gas q hp hfn).2 hbr⟩
  refine ⟨e1, fun n => ?_⟩
  have e3 : newI q n = tgas ^ 4 := e2 n
  unfold labOut
  rw [e3, ← hir n, mul_div_assoc, div_self (htc n).ne', mul_one]
  exact max_eq_left (hfl' n)

/-! ### energy and momentum of gas plus radiation -/

/-- Energy and momentum of gas and radiation together do not change in the source step: for the
energy unless the internal energy would be negative or above the ceiling or
`set_source_flag = 2`, for the momentum unless the velocity limit acts. -/
theorem total_conserved (l : Lab N) (hc : 0 < l.c) {prat redc vmax gm1 ceil tnew pb : ℝ}
    (hr : 0 < redc) (flag : ℕ) (a b : Fin N → ℝ) (u : Gas)
    (u' : Gas) (hu : u' = addSource l.c vmax gm1 ceil tnew pb flag (radSource l prat redc a b) u) :
    u'.d = u.d ∧
    (√((u'.m1 / u.d) ^ 2 + (u'.m2 / u.d) ^ 2 + (u'.m3 / u.d) ^ 2) < vmax * l.c →
      u'.m1 + prat / redc * ∑ n, b n * l.wmu n * l.mu n 0
        = u.m1 + prat / redc * ∑ n, a n * l.wmu n * l.mu n 0 ∧
      u'.m2 + prat / redc * ∑ n, b n * l.wmu n * l.mu n 1
        = u.m2 + prat / redc * ∑ n, a n * l.wmu n * l.mu n 1 ∧
      u'.m3 + prat / redc * ∑ n, b n * l.wmu n * l.mu n 2
        = u.m3 + prat / redc * ∑ n, a n * l.wmu n * l.mu n 2) ∧
    ((u'.e + prat / (redc / l.c) * ∑ n, b n * l.wmu n
        = u.e + prat / (redc / l.c) * ∑ n, a n * l.wmu n) ∨
      (u'.e = gasEnergy gm1 pb tnew u' ∧ (flag = 2 ∨
        u.e - prat / (redc / l.c) * (∑ n, b n * l.wmu n - ∑ n, a n * l.wmu n)
          < gasEnergy gm1 pb 0 u')) ∨
      (u'.e = gasEnergy gm1 pb ceil u' ∧
        ceil < (u.e - prat / (redc / l.c) * (∑ n, b n * l.wmu n - ∑ n, a n * l.wmu n)
          - gasEnergy gm1 pb 0 u') * gm1 / u.d)) := by
  classical
  set s := radSource l prat redc a b with hs
  have e1 : s 1 = -(prat / redc) * (∑ n, b n * l.wmu n * l.mu n 0 - ∑ n, a n * l.wmu n * l.mu n 0) := by
    rw [hs]; simp only [radSource]; field_simp
  have e2 : s 2 = -(prat / redc) * (∑ n, b n * l.wmu n * l.mu n 1 - ∑ n, a n * l.wmu n * l.mu n 1) := by
    rw [hs]; simp only [radSource]; field_simp
  have e3 : s 3 = -(prat / redc) * (∑ n, b n * l.wmu n * l.mu n 2 - ∑ n, a n * l.wmu n * l.mu n 2) := by
    rw [hs]; simp only [radSource]; field_simp
  have e0 : s 0 = -(prat / (redc / l.c)) * (∑ n, b n * l.wmu n - ∑ n, a n * l.wmu n) := by
    rw [hs]; simp only [radSource]; field_simp
  refine ⟨by rw [hu]; rfl, ?_, ?_⟩
  · intro hv
    set w1 := (u.m1 + s 1) / u.d with hw1
    set w2 := (u.m2 + s 2) / u.d with hw2
    set w3 := (u.m3 + s 3) / u.d with hw3
    set ratio := √(w1 * w1 + w2 * w2 + w3 * w3) * (1 / l.c) with hra
    have hm1 : u'.m1 = (u.m1 + s 1) * (if ratio > vmax then vmax / ratio else 1) := by rw [hu]; rfl
    have hm2 : u'.m2 = (u.m2 + s 2) * (if ratio > vmax then vmax / ratio else 1) := by rw [hu]; rfl
    have hm3 : u'.m3 = (u.m3 + s 3) * (if ratio > vmax then vmax / ratio else 1) := by rw [hu]; rfl
    have hno : ¬ ratio > vmax := by
      intro hgt
      rw [if_pos hgt] at hm1 hm2 hm3
      have hvv : 0 ≤ w1 * w1 + w2 * w2 + w3 * w3 := by nlinarith [sq_nonneg w1, sq_nonneg w2, sq_nonneg w3]
      have hrp : 0 ≤ ratio := by rw [hra]; positivity
      rw [hm1, hm2, hm3] at hv
      have e : ((u.m1 + s 1) * (vmax / ratio) / u.d) ^ 2 + ((u.m2 + s 2) * (vmax / ratio) / u.d) ^ 2
          + ((u.m3 + s 3) * (vmax / ratio) / u.d) ^ 2
          = (vmax / ratio) ^ 2 * (w1 * w1 + w2 * w2 + w3 * w3) := by
        rw [hw1, hw2, hw3]; ring
      have hvm : 0 < vmax := by
        have := (Real.sqrt_nonneg _).trans_lt hv
        exact (mul_pos_iff_of_pos_right hc).mp this
      have hr0 : 0 < ratio := hvm.trans hgt
      rw [e, Real.sqrt_mul (sq_nonneg _), Real.sqrt_sq (by positivity)] at hv
      have e4 : √(w1 * w1 + w2 * w2 + w3 * w3) = ratio * l.c := by rw [hra]; field_simp
      rw [e4] at hv
      have : vmax / ratio * (ratio * l.c) = vmax * l.c := by field_simp
      linarith
    rw [if_neg hno, mul_one] at hm1 hm2 hm3
    rw [hm1, hm2, hm3, e1, e2, e3]
    refine ⟨by ring, by ring, by ring⟩
  · have hk : ∀ T, gasEnergy gm1 pb T u' = T * u.d / gm1 + pb
        + 0.5 * (u'.m1 * u'.m1 + u'.m2 * u'.m2 + u'.m3 * u'.m3) / u.d := by
      intro T
      have : u'.d = u.d := by rw [hu]; rfl
      unfold gasEnergy
      rw [this]
      by_cases hd : u.d = 0
      · simp [hd]
      · field_simp; ring
    have he : u'.e = if flag = 2 then gasEnergy gm1 pb tnew u'
        else if u.e + s 0 - 0.5 * (u'.m1 * u'.m1 + u'.m2 * u'.m2 + u'.m3 * u'.m3) / u.d - pb < 0
          then gasEnergy gm1 pb tnew u'
        else if (u.e + s 0 - 0.5 * (u'.m1 * u'.m1 + u'.m2 * u'.m2 + u'.m3 * u'.m3) / u.d - pb)
            * gm1 / u.d > ceil
          then gasEnergy gm1 pb ceil u'
        else u.e + s 0 := by
      rw [hk, hk]
      have : 0.5 * (u'.m1 * u'.m1 + u'.m2 * u'.m2 + u'.m3 * u'.m3) / u.d + pb + ceil * u.d / gm1
          = ceil * u.d / gm1 + pb
            + 0.5 * (u'.m1 * u'.m1 + u'.m2 * u'.m2 + u'.m3 * u'.m3) / u.d := by ring
      rw [← this, hu]
      rfl
    have h0 := hk 0
    rw [zero_mul, zero_div, zero_add] at h0
    by_cases hf : flag = 2
    · rw [if_pos hf] at he
      exact Or.inr (Or.inl ⟨he, Or.inl hf⟩)
    · rw [if_neg hf] at he
      split_ifs at he with h1 h2
      · refine Or.inr (Or.inl ⟨he, Or.inr ?_⟩)
        rw [h0]; rw [e0] at h1; linarith
      · refine Or.inr (Or.inr ⟨he, ?_⟩)
        rw [h0]
        rw [e0] at h2
        have : u.e - prat / (redc / l.c) * (∑ n, b n * l.wmu n - ∑ n, a n * l.wmu n)
            - (pb + 0.5 * (u'.m1 * u'.m1 + u'.m2 * u'.m2 + u'.m3 * u'.m3) / u.d)
            = u.e + -(prat / (redc / l.c)) * (∑ n, b n * l.wmu n - ∑ n, a n * l.wmu n)
              - 0.5 * (u'.m1 * u'.m1 + u'.m2 * u'.m2 + u'.m3 * u'.m3) / u.d - pb := by ring
        rw [this]; exact h2
      · left
        rw [he, e0]; ring

/-- Above the limit the speed of the gas is cut to `vmax c`: whatever momentum the gas and the
radiation had together beyond that is lost (`vmax` is the limit the code reads as `vmax`,
0.9 by default). -/
theorem velocity_limit {c vmax gm1 ceil tnew pb : ℝ} (hc : 0 < c) (hvm : 0 < vmax) (flag : ℕ)
    (s : Fin 4 → ℝ) (u : Gas)
    (hfast : vmax * c < √(((u.m1 + s 1) / u.d) ^ 2 + ((u.m2 + s 2) / u.d) ^ 2
      + ((u.m3 + s 3) / u.d) ^ 2)) :
    let u' := addSource c vmax gm1 ceil tnew pb flag s u
    √((u'.m1 / u.d) ^ 2 + (u'.m2 / u.d) ^ 2 + (u'.m3 / u.d) ^ 2) = vmax * c := by
  classical
  set w1 := (u.m1 + s 1) / u.d with hw1
  set w2 := (u.m2 + s 2) / u.d with hw2
  set w3 := (u.m3 + s 3) / u.d with hw3
  set ratio := √(w1 * w1 + w2 * w2 + w3 * w3) * (1 / c) with hra
  intro u'
  have hm1 : u'.m1 = (u.m1 + s 1) * (if ratio > vmax then vmax / ratio else 1) := rfl
  have hm2 : u'.m2 = (u.m2 + s 2) * (if ratio > vmax then vmax / ratio else 1) := rfl
  have hm3 : u'.m3 = (u.m3 + s 3) * (if ratio > vmax then vmax / ratio else 1) := rfl
  have e4 : √(w1 * w1 + w2 * w2 + w3 * w3) = ratio * c := by rw [hra]; field_simp
  have hgt : ratio > vmax := by
    rw [sq, sq, sq, e4] at hfast
    exact lt_of_mul_lt_mul_right hfast hc.le
  have hr0 : 0 < ratio := hvm.trans hgt
  rw [if_pos hgt] at hm1 hm2 hm3
  have e : (u'.m1 / u.d) ^ 2 + (u'.m2 / u.d) ^ 2 + (u'.m3 / u.d) ^ 2
      = (vmax / ratio) ^ 2 * (w1 * w1 + w2 * w2 + w3 * w3) := by
    rw [hm1, hm2, hm3, hw1, hw2, hw3]; ring
  rw [e, Real.sqrt_mul (sq_nonneg _), Real.sqrt_sq (by positivity), e4]
  field_simp

/-- Gas at rest: the temperature of the implicit step is the temperature of the energy that is
conserved. -/
theorem rest_consistent (l : Lab N) (h : LabOk l) (hv : ∀ i, l.v i = 0)
    {ct redc prat gm1 rho tgas sa sp spe ss pb : ℝ} (hred : 0 < redc)
    (I : Fin N → ℝ) (T : ℝ) (hp : Physical (comoving l ct (redc / l.c) prat gm1 rho tgas sa sp spe ss))
    (hir : ∀ n, 1 / 10 ^ 20 ≤ l.ir n)
    (ht : Transfer (comoving l ct (redc / l.c) prat gm1 rho tgas sa sp spe ss) I T)
    (hg : gasResidual (comoving l ct (redc / l.c) prat gm1 rho tgas sa sp spe ss) I T = 0) :
    (tgas * rho / gm1 + pb) + radSource l prat redc l.ir I 0 = T * rho / gm1 + pb := by
  set q := comoving l ct (redc / l.c) prat gm1 rho tgas sa sp spe ss with hq
  have htc : ∀ n, tranCoef l n = 1 := by
    intro n
    unfold tranCoef lorzsq vnc
    simp [hv]
  have hw : ∀ n, wmuCm l n = l.wmu n := by
    intro n
    unfold wmuCm
    simp only [htc, mul_one, div_one, h.norm]
  have hi : ∀ n, q.ir n = l.ir n := by
    intro n
    rw [hq]
    unfold comoving cmToLab
    simp only [htc, mul_one]
    exact max_eq_left (hir n)
  have hcons := transfer_conserves q hp (fun _ => rfl) I T ht
  rw [hg] at hcons
  have hsum : ∑ n, q.w n / q.tc n * (I n - q.ir n)
      = ∑ n, I n * l.wmu n - ∑ n, l.ir n * l.wmu n := by
    rw [← Finset.sum_sub_distrib]
    refine Finset.sum_congr rfl fun n _ => ?_
    rw [hi n]
    have a1 : q.w n = l.wmu n := hw n
    have a2 : q.tc n = 1 := htc n
    rw [a1, a2]; ring
  rw [hsum] at hcons
  have hgm := hp.gm1.ne'
  have hc := h.slow.1.ne'
  have b1 : q.rho = rho := rfl
  have b2 : q.gm1 = gm1 := rfl
  have b3 : q.tgas = tgas := rfl
  have b4 : q.prat = prat := rfl
  have b5 : q.red = redc / l.c := rfl
  rw [b2] at hgm
  rw [b1, b2, b3, b4, b5] at hcons
  simp only [radSource]
  have hr := hred.ne'
  have e : prat / (redc / l.c) = prat * (1 / redc / (1 / l.c)) := by field_simp
  rw [e] at hcons
  linear_combination -hcons

/-- Light beams along the axes seen from gas that moves at half the speed of light. -/
noncomputable def sampleLab : Lab 2 where
  c := 1
  v := fun i => if i = 0 then 1 / 2 else 0
  mu := fun n i => if i = 0 then (if n = 0 then 1 else -1) else 0
  wmu := fun _ => 1 / 2
  ir := fun _ => 1

theorem sampleLab_ok : LabOk sampleLab := by
  constructor
  · constructor <;> simp [sampleLab]; norm_num
  · intro n; fin_cases n <;> simp [sampleLab]
  · intro n; simp [sampleLab]
  · simp [sampleLab]

example : ∑ n, wmuCm sampleLab n = 1 := (comoving_weights sampleLab sampleLab_ok).2

end Verif.RadX
