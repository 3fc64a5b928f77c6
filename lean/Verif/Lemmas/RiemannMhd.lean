import Verif.Spec.RiemannMhd
import Verif.Lemmas.Riemann
import Verif.Props.BlockDt

/-!
# Lemmas on the Riemann solvers with a magnetic field
-/
namespace Verif.Mhd
open Verif.TimeStep
open Verif.Riemann (Gas Gas.ifEnergy)

@[simp] theorem add_d (a b : F) : (a + b).d = a.d + b.d := rfl
@[simp] theorem add_mx (a b : F) : (a + b).mx = a.mx + b.mx := rfl
@[simp] theorem add_my (a b : F) : (a + b).my = a.my + b.my := rfl
@[simp] theorem add_mz (a b : F) : (a + b).mz = a.mz + b.mz := rfl
@[simp] theorem add_e (a b : F) : (a + b).e = a.e + b.e := rfl
@[simp] theorem add_bY (a b : F) : (a + b).bY = a.bY + b.bY := rfl
@[simp] theorem add_bZ (a b : F) : (a + b).bZ = a.bZ + b.bZ := rfl
@[simp] theorem sub_d (a b : F) : (a - b).d = a.d - b.d := rfl
@[simp] theorem sub_mx (a b : F) : (a - b).mx = a.mx - b.mx := rfl
@[simp] theorem sub_my (a b : F) : (a - b).my = a.my - b.my := rfl
@[simp] theorem sub_mz (a b : F) : (a - b).mz = a.mz - b.mz := rfl
@[simp] theorem sub_e (a b : F) : (a - b).e = a.e - b.e := rfl
@[simp] theorem sub_bY (a b : F) : (a - b).bY = a.bY - b.bY := rfl
@[simp] theorem sub_bZ (a b : F) : (a - b).bZ = a.bZ - b.bZ := rfl
@[simp] theorem smul_d (c : ℝ) (a : F) : (c • a).d = c * a.d := rfl
@[simp] theorem smul_mx (c : ℝ) (a : F) : (c • a).mx = c * a.mx := rfl
@[simp] theorem smul_my (c : ℝ) (a : F) : (c • a).my = c * a.my := rfl
@[simp] theorem smul_mz (c : ℝ) (a : F) : (c • a).mz = c * a.mz := rfl
@[simp] theorem smul_e (c : ℝ) (a : F) : (c • a).e = c * a.e := rfl
@[simp] theorem smul_bY (c : ℝ) (a : F) : (c • a).bY = c * a.bY := rfl
@[simp] theorem smul_bZ (c : ℝ) (a : F) : (c • a).bZ = c * a.bZ := rfl

theorem Ok.d_pos {g : Gas} {w : W} (h : Ok g w) : 0 < w.d := by
  cases g <;> exact h.1

theorem Ok.asq_pos {g : Gas} {w : W} (h : Ok g w) : 0 < asq g w := by
  cases g with
  | adiabatic gamma =>
    obtain ⟨hd, hp, hg⟩ := h
    have : 0 < gamma := by linarith
    exact mul_pos this hp
  | isothermal cs =>
    obtain ⟨hd, hc⟩ := h
    exact mul_pos (mul_pos hc hc) hd

/-- The fast speed is real and bounded below by the sound speed with the transverse field, and by the normal Alfven
speed. -/
theorem fast_bounds {g : Gas} {w : W} (bx : ℝ) (h : Ok g w) :
    0 < fast g bx w ∧ asq g w + w.bY ^ 2 + w.bZ ^ 2 ≤ w.d * fast g bx w ^ 2 ∧ bx ^ 2 ≤ w.d * fast g bx w ^ 2 := by
  have hd := h.d_pos
  have ha := h.asq_pos
  set A := asq g w with hA
  have ht : 0 ≤ w.bY * w.bY + w.bZ * w.bZ := add_nonneg (mul_self_nonneg _) (mul_self_nonneg _)
  have hx : 0 ≤ bx * bx := mul_self_nonneg _
  set T := w.bY * w.bY + w.bZ * w.bZ with hT
  set X := bx * bx with hX
  set R := Real.sqrt ((X + T - A) * (X + T - A) + 4 * A * T) with hR
  have hR0 : 0 ≤ R := Real.sqrt_nonneg _
  have hRsq : |A + T - X| ≤ R := by
    apply Real.abs_le_sqrt
    have : 0 ≤ X * T := mul_nonneg hx ht
    nlinarith
  have h1 := (abs_le.1 hRsq).1
  have h2 := (abs_le.1 hRsq).2
  have hpos : 0 < 1/2 * (X + T + A + R) / w.d := by positivity
  have hf : fast g bx w = Real.sqrt (1/2 * (X + T + A + R) / w.d) := rfl
  have hfsq : w.d * fast g bx w ^ 2 = 1/2 * (X + T + A + R) := by
    rw [hf, Real.sq_sqrt hpos.le]
    field_simp
  have e1 : w.bY ^ 2 + w.bZ ^ 2 = T := by rw [hT]; ring
  have e2 : bx ^ 2 = X := by rw [hX]; ring
  refine ⟨?_, ?_, ?_⟩
  · rw [hf]; exact Real.sqrt_pos.2 hpos
  · rw [hfsq, add_assoc, e1]; linarith
  · rw [hfsq, e2]; linarith

/-- The array form follows from the one in the frame of the face. -/
theorem consistent_of {g : Gas} {solver : ℝ → W → W → F} (h : ∀ bx w, Ok g w → solver bx w w = flux g bx w) :
    Consistent g solver := by
  intro w b oldF oldE m hm s hok
  rw [h _ _ hok]
  constructor
  · intro n
    rcases hm with rfl | rfl | rfl <;> cases g <;>
      (simp only [s, storeFlux, load, stateArr, iby, flux, axisFlux, nhydro, totalE, totalP, gasP, Function.update_apply]
       norm_num
       rcases n with _ | _ | _ | _ | _ | n <;> simp [-mul_eq_mul_right_iff, -mul_eq_mul_left_iff] <;>
         first | ring | skip)
  · intro c
    rcases hm with rfl | rfl | rfl <;> cases g <;>
      (simp only [s, storeE, load, stateArr, iby, flux, electric, Function.update_apply]
       norm_num
       rcases c with _ | _ | _ | _ | c <;> simp [electric, -mul_eq_mul_right_iff, -mul_eq_mul_left_iff] <;>
         first | ring | skip)

theorem sideFlux_eq (g : Gas) (bx : ℝ) (w : W) : sideFlux g bx w = flux g bx w := by
  cases g <;> ext <;> simp [sideFlux, flux, totalE, totalP, gasP, press, energy, pb, Gas.ifEnergy] <;> ring

theorem jump_eq (g : Gas) (bx : ℝ) (wl wr : W) : jump g bx wl wr = cons g bx wr - cons g bx wl := by
  cases g <;> ext <;> simp [jump, cons, totalE, energy, pb, Gas.ifEnergy] <;> ring

theorem lineFlux_eq (g : Gas) (bx : ℝ) (w : W) (b : ℝ) :
    lineFlux g bx w b = flux g bx w - b • cons g bx w := by
  cases g <;> ext <;> simp [lineFlux, flux, cons, totalE, totalP, gasP, press, energy, pb, Gas.ifEnergy] <;> ring

theorem hlldCons_eq (gamma bx : ℝ) (w : W) : hlldCons gamma bx w = cons (.adiabatic gamma) bx w := by
  ext <;> simp [hlldCons, cons, totalE] <;> ring

theorem hlldPt_eq (gamma bx : ℝ) (w : W) : hlldPt bx w = totalP (.adiabatic gamma) bx w := by
  simp [hlldPt, totalP, gasP]; ring

theorem hlldFlux_eq (gamma bx : ℝ) (w : W) : hlldFlux gamma bx w = flux (.adiabatic gamma) bx w := by
  unfold hlldFlux
  simp only [hlldCons_eq, hlldPt_eq gamma]
  ext <;> simp [flux, cons] <;> ring

theorem isoCons_eq (cs bx : ℝ) (w : W) : isoCons w = cons (.isothermal cs) bx w := by
  ext <;> simp [isoCons, cons, totalE] <;> ring

theorem isoFlux_eq (cs bx : ℝ) (w : W) : isoFlux cs bx w = flux (.isothermal cs) bx w := by
  ext <;> simp [isoFlux, isoCons, flux, totalP, gasP] <;> ring

theorem plus_eq (f : F) (s : ℝ) (u' u : F) : f.plus s u' u = f + s • (u' - u) := by
  ext <;> simp [F.plus]

end Verif.Mhd
