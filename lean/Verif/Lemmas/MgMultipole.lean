import Verif.Spec.Multipole
import Verif.Lemmas.MgFlux
import Mathlib.Tactic.FieldSimp
import Mathlib.Tactic.LinearCombination

/-!
# Multipole expansion: supporting lemmas
-/
namespace Verif.Mg
open Verif.Arr (loop)
open Verif.Grid (A3)

theorem total_list (b : Box) (f : A3 ℝ) : b.total f = ((boxPts b).map f).sum := by
  classical
  rw [← List.sum_toFinset f (nodup_boxPts b)]
  unfold Box.total
  congr 1
  ext q
  simp only [Box.cells, Finset.mem_product, Finset.mem_Icc, List.mem_toFinset]
  exact (mem_boxPts b q.1 q.2.1 q.2.2).symm

theorem total_add (b : Box) (f g : A3 ℝ) : b.total (fun c => f c + g c) = b.total f + b.total g := by
  unfold Box.total; exact Finset.sum_add_distrib

theorem total_mul (b : Box) (f : A3 ℝ) (a : ℝ) : b.total (fun c => a * f c) = a * b.total f := by
  unfold Box.total; exact (Finset.mul_sum _ _ _).symm

theorem massSum_add (bs : List MpBlock) (f g : MpBlock → ℤ × ℤ × ℤ → ℝ) :
    massSum bs (fun m c => f m c + g m c) = massSum bs f + massSum bs g := by
  unfold massSum
  induction bs with
  | nil => simp
  | cons m t ih =>
    simp only [List.map_cons, List.sum_cons]
    rw [ih]
    have : m.b.total (fun c => m.src c * m.vol * (f m c + g m c)) = m.b.total (fun c => m.src c * m.vol * f m c) + m.b.total (fun c => m.src c * m.vol * g m c) := by
      rw [← total_add]; congr 1; funext c; ring
    rw [this]; ring

theorem massSum_mul (bs : List MpBlock) (f : MpBlock → ℤ × ℤ × ℤ → ℝ) (a : ℝ) :
    massSum bs (fun m c => a * f m c) = a * massSum bs f := by
  unfold massSum
  induction bs with
  | nil => simp
  | cons m t ih =>
    simp only [List.map_cons, List.sum_cons]
    rw [ih]
    have : m.b.total (fun c => m.src c * m.vol * (a * f m c)) = a * m.b.total (fun c => m.src c * m.vol * f m c) := by
      rw [← total_mul]; congr 1; funext c; ring
    rw [this]; ring

theorem massSum_congr (bs : List MpBlock) (f g : MpBlock → ℤ × ℤ × ℤ → ℝ) (h : ∀ m c, f m c = g m c) : massSum bs f = massSum bs g := by
  have : f = g := by funext m c; exact h m c
  rw [this]

theorem fold_vec {α : Type} (l : List α) (s : α → ℝ) (B : α → ℕ → ℝ) (c : ℕ → ℝ) :
    l.foldl (fun (c : ℕ → ℝ) q => fun n => c n + s q * B q n) c = fun n => c n + (l.map fun q => s q * B q n).sum := by
  induction l generalizing c with
  | nil => simp
  | cons a t ih => rw [List.foldl_cons, ih]; funext n; simp; ring

theorem moments_eq (m : MpBlock) (cfg : MpCfg) (c : ℕ → ℝ) (n : ℕ) :
    m.moments cfg c n = c n + m.b.total fun q => m.src q * m.vol *
      mpBasis cfg.order cfg.nodipole (m.at cfg q).1 (m.at cfg q).2.1 (m.at cfg q).2.2 n := by
  unfold MpBlock.moments
  simp only
  rw [loops_eq m.b (fun k j i (c : ℕ → ℝ) => fun n => c n + m.src (k, j, i) * m.vol *
    mpBasis cfg.order cfg.nodipole (m.coord.x1v i - cfg.ox) (m.coord.x2v j - cfg.oy) (m.coord.x3v k - cfg.oz) n)]
  rw [fold_vec (boxPts m.b) (fun q => m.src (q.1, q.2.1, q.2.2) * m.vol) (fun q n => mpBasis cfg.order cfg.nodipole
    (m.coord.x1v q.2.2 - cfg.ox) (m.coord.x2v q.2.1 - cfg.oy) (m.coord.x3v q.1 - cfg.oz) n)]
  rw [total_list]
  simp only [zero_add]
  rfl

theorem coeff_eq (cfg : MpCfg) (bs : List MpBlock) (n : ℕ) :
    mpCoeff cfg bs n = mpScale cfg.order n * massSum bs fun m q =>
      mpBasis cfg.order cfg.nodipole (m.at cfg q).1 (m.at cfg q).2.1 (m.at cfg q).2.2 n := by
  unfold mpCoeff massSum
  have h : ∀ (l : List MpBlock) (c : ℕ → ℝ), l.foldl (fun c m => m.moments cfg c) c n
      = c n + (l.map fun m => m.b.total fun q => m.src q * m.vol *
      mpBasis cfg.order cfg.nodipole (m.at cfg q).1 (m.at cfg q).2.1 (m.at cfg q).2.2 n).sum := by
    intro l
    induction l with
    | nil => intro c; simp
    | cons a t ih =>
      intro c
      rw [List.foldl_cons, ih, moments_eq, List.map_cons, List.sum_cons]; ring
  simp only [h]
  ring

theorem com_eq (bs : List MpBlock) :
    bs.foldl (fun c m => m.com c) (0, 0, 0, 0) = (massSum bs (fun _ _ => 1), massSum bs (fun m q => m.coord.x2v q.2.1),
      massSum bs (fun m q => m.coord.x3v q.1), massSum bs (fun m q => m.coord.x1v q.2.2)) := by
  have one : ∀ (m : MpBlock) (c : ℝ × ℝ × ℝ × ℝ), m.com c = (c.1 + m.b.total (fun q => m.src q * m.vol * 1),
      c.2.1 + m.b.total (fun q => m.src q * m.vol * m.coord.x2v q.2.1), c.2.2.1 + m.b.total (fun q => m.src q * m.vol * m.coord.x3v q.1),
      c.2.2.2 + m.b.total (fun q => m.src q * m.vol * m.coord.x1v q.2.2)) := by
    intro m c
    have f : ∀ (l : List (ℤ × ℤ × ℤ)) (c : ℝ × ℝ × ℝ × ℝ), l.foldl (fun (c : ℝ × ℝ × ℝ × ℝ) q =>
        (c.1 + m.src (q.1, q.2.1, q.2.2) * m.vol, c.2.1 + m.src (q.1, q.2.1, q.2.2) * m.vol * m.coord.x2v q.2.1,
         c.2.2.1 + m.src (q.1, q.2.1, q.2.2) * m.vol * m.coord.x3v q.1, c.2.2.2 + m.src (q.1, q.2.1, q.2.2) * m.vol * m.coord.x1v q.2.2)) c
        = (c.1 + (l.map fun q => m.src q * m.vol * 1).sum, c.2.1 + (l.map fun q => m.src q * m.vol * m.coord.x2v q.2.1).sum,
          c.2.2.1 + (l.map fun q => m.src q * m.vol * m.coord.x3v q.1).sum, c.2.2.2 + (l.map fun q => m.src q * m.vol * m.coord.x1v q.2.2).sum) := by
      intro l
      induction l with
      | nil => intro c; simp
      | cons a t ih => intro c; rw [List.foldl_cons, ih]; simp only [List.map_cons, List.sum_cons, Prod.mk.injEq]; refine ⟨by ring, by ring, by ring, by ring⟩
    unfold MpBlock.com
    simp only
    rw [loops_eq m.b (fun k j i (c : ℝ × ℝ × ℝ × ℝ) =>
        (c.1 + m.src (k, j, i) * m.vol, c.2.1 + m.src (k, j, i) * m.vol * m.coord.x2v j,
         c.2.2.1 + m.src (k, j, i) * m.vol * m.coord.x3v k, c.2.2.2 + m.src (k, j, i) * m.vol * m.coord.x1v i)), f]
    simp only [total_list, zero_add]
  have h : ∀ (l : List MpBlock) (c : ℝ × ℝ × ℝ × ℝ), l.foldl (fun c m => m.com c) c
      = (c.1 + massSum l (fun _ _ => 1), c.2.1 + massSum l (fun m q => m.coord.x2v q.2.1),
        c.2.2.1 + massSum l (fun m q => m.coord.x3v q.1), c.2.2.2 + massSum l (fun m q => m.coord.x1v q.2.2)) := by
    intro l
    induction l with
    | nil => intro c; simp [massSum]
    | cons a t ih =>
      intro c
      rw [List.foldl_cons, ih, one]
      simp only [massSum, List.map_cons, List.sum_cons, Prod.mk.injEq]
      refine ⟨by ring, by ring, by ring, by ring⟩
  rw [h]; simp

theorem len_sq (p : ℝ × ℝ × ℝ) : len p ^ 2 = p.1 ^ 2 + p.2.1 ^ 2 + p.2.2 ^ 2 := Real.sq_sqrt (by positivity)

theorem len_nonneg (p : ℝ × ℝ × ℝ) : 0 ≤ len p := Real.sqrt_nonneg _

theorem len_zero (p : ℝ × ℝ × ℝ) (h : len p = 0) : p = (0, 0, 0) := by
  have := len_sq p
  rw [h] at this
  obtain ⟨a, b, c⟩ := p
  simp only at this
  have ha : a = 0 := by nlinarith [sq_nonneg a, sq_nonneg b, sq_nonneg c]
  have hb : b = 0 := by nlinarith [sq_nonneg a, sq_nonneg b, sq_nonneg c]
  have hc : c = 0 := by nlinarith [sq_nonneg a, sq_nonneg b, sq_nonneg c]
  rw [ha, hb, hc]

theorem len_ne (p : ℝ × ℝ × ℝ) (h : p ≠ (0, 0, 0)) : len p ≠ 0 := fun h' => h (len_zero p h')

/-- `ir1` of the boundary functions. -/
theorem sqrt_inv (x y z : ℝ) : Real.sqrt (1.0 / (x*x + y*y + z*z)) = 1 / len (x, y, z) := by
  have : x*x + y*y + z*z = x^2 + y^2 + z^2 := by ring
  rw [this]
  unfold len
  rw [show (1.0 : ℝ) / (x^2 + y^2 + z^2) = (x^2 + y^2 + z^2)⁻¹ by norm_num, Real.sqrt_inv]
  simp

theorem inv_r2 (x y z : ℝ) : 1.0 / (x*x + y*y + z*z) = 1 / len (x, y, z) ^ 2 := by
  rw [len_sq]; norm_num; ring

theorem legendre2 (t : ℝ) : legendre 2 t = (3 * t ^ 2 - 1) / 2 := by
  simp only [legendre]; push_cast; ring

theorem legendre3 (t : ℝ) : legendre 3 t = (5 * t ^ 3 - 3 * t) / 2 := by
  have : legendre 3 t = ((2 * (1 : ℕ) + 3) * t * legendre 2 t - ((1 : ℕ) + 1) * legendre 1 t) / ((1 : ℕ) + 2) := rfl
  rw [this, legendre2]
  simp only [legendre]; push_cast; ring

theorem legendre4 (t : ℝ) : legendre 4 t = (35 * t ^ 4 - 30 * t ^ 2 + 3) / 8 := by
  have : legendre 4 t = ((2 * (2 : ℕ) + 3) * t * legendre 3 t - ((2 : ℕ) + 1) * legendre 2 t) / ((2 : ℕ) + 2) := rfl
  rw [this, legendre3, legendre2]
  push_cast; ring

theorem pole0 (p q : ℝ × ℝ × ℝ) : pole 0 p q = 1 / len p := by simp [pole, legendre]

theorem pole1 (p q : ℝ × ℝ × ℝ) (hp : p ≠ (0, 0, 0)) : pole 1 p q = dot p q / len p ^ 3 := by
  have hl := len_ne p hp
  unfold pole
  rcases eq_or_ne q (0, 0, 0) with rfl | hq
  · simp [len, dot]
  · have hr := len_ne q hq
    simp only [legendre]
    field_simp
    ring

theorem pole2 (p q : ℝ × ℝ × ℝ) (hp : p ≠ (0, 0, 0)) : pole 2 p q = (3 * dot p q ^ 2 - len p ^ 2 * len q ^ 2) / (2 * len p ^ 5) := by
  have hl := len_ne p hp
  unfold pole
  rcases eq_or_ne q (0, 0, 0) with rfl | hq
  · simp [len, dot]
  · have hr := len_ne q hq
    rw [legendre2]
    field_simp

theorem pole3 (p q : ℝ × ℝ × ℝ) (hp : p ≠ (0, 0, 0)) :
    pole 3 p q = (5 * dot p q ^ 3 - 3 * dot p q * len p ^ 2 * len q ^ 2) / (2 * len p ^ 7) := by
  have hl := len_ne p hp
  unfold pole
  rcases eq_or_ne q (0, 0, 0) with rfl | hq
  · simp [len, dot]
  · have hr := len_ne q hq
    rw [legendre3]
    field_simp
    ring

theorem pole4 (p q : ℝ × ℝ × ℝ) (hp : p ≠ (0, 0, 0)) :
    pole 4 p q = (35 * dot p q ^ 4 - 30 * dot p q ^ 2 * len p ^ 2 * len q ^ 2 + 3 * len p ^ 4 * len q ^ 4) / (8 * len p ^ 9) := by
  have hl := len_ne p hp
  unfold pole
  rcases eq_or_ne q (0, 0, 0) with rfl | hq
  · simp [len, dot]
  · have hr := len_ne q hq
    rw [legendre4]
    field_simp

end Verif.Mg
