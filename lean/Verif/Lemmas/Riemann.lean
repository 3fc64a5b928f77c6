import Verif.Spec.Riemann
import Mathlib.Tactic.FieldSimp
import Mathlib.Tactic.Ring
import Mathlib.Tactic.Linarith
import Mathlib.Tactic.Positivity
import Mathlib.Tactic.LinearCombination

/-!
# Lemmas on the Riemann solvers
-/
namespace Verif.Riemann
open Verif.TimeStep

@[simp] theorem add_d (a b : F) : (a + b).d = a.d + b.d := rfl
@[simp] theorem add_mx (a b : F) : (a + b).mx = a.mx + b.mx := rfl
@[simp] theorem add_my (a b : F) : (a + b).my = a.my + b.my := rfl
@[simp] theorem add_mz (a b : F) : (a + b).mz = a.mz + b.mz := rfl
@[simp] theorem add_e (a b : F) : (a + b).e = a.e + b.e := rfl
@[simp] theorem sub_d (a b : F) : (a - b).d = a.d - b.d := rfl
@[simp] theorem sub_mx (a b : F) : (a - b).mx = a.mx - b.mx := rfl
@[simp] theorem sub_my (a b : F) : (a - b).my = a.my - b.my := rfl
@[simp] theorem sub_mz (a b : F) : (a - b).mz = a.mz - b.mz := rfl
@[simp] theorem sub_e (a b : F) : (a - b).e = a.e - b.e := rfl
@[simp] theorem smul_d (c : ℝ) (a : F) : (c • a).d = c * a.d := rfl
@[simp] theorem smul_mx (c : ℝ) (a : F) : (c • a).mx = c * a.mx := rfl
@[simp] theorem smul_my (c : ℝ) (a : F) : (c • a).my = c * a.my := rfl
@[simp] theorem smul_mz (c : ℝ) (a : F) : (c • a).mz = c * a.mz := rfl
@[simp] theorem smul_e (c : ℝ) (a : F) : (c • a).e = c * a.e := rfl

theorem Ok.d_pos {g : Gas} {w : W} (h : Ok g w) : 0 < w.d := by
  cases g <;> exact h.1

theorem Ok.sound_pos {g : Gas} {w : W} (h : Ok g w) : 0 < g.sound w := by
  cases g with
  | adiabatic gamma =>
    obtain ⟨hd, hp, hg⟩ := h
    have : 0 < gamma := by linarith
    exact Real.sqrt_pos.2 (by positivity)
  | isothermal cs => exact h.2

/-- The array form follows from the one in the frame of the face. -/
theorem consistent_of {g : Gas} {solver : W → W → F} (h : ∀ w, Ok g w → solver w w = flux g w) :
    Consistent g solver := by
  intro w old m hm hok n
  unfold face
  rw [h _ hok]
  rcases hm with rfl | rfl | rfl <;> cases g <;>
    (simp only [store, load, flux, axisFlux, Gas.nhydro, Function.update_apply]
     norm_num
     rcases n with _ | _ | _ | _ | _ | n <;> simp [-mul_eq_mul_right_iff, -mul_eq_mul_left_iff] <;> first | ring | skip)

theorem sideFlux_eq (g : Gas) (w : W) (h : Ok g w) : sideFlux g w = flux g w := by
  cases g with
  | adiabatic gamma =>
    obtain ⟨_, _, hg⟩ := h
    have : gamma - 1 ≠ 0 := by linarith
    ext <;> simp only [sideFlux, flux, Gas.press, Gas.energy, Gas.ifEnergy] <;> field_simp <;> ring
  | isothermal cs => ext <;> simp [sideFlux, flux, Gas.press, Gas.ifEnergy] <;> ring

theorem jump_eq (g : Gas) (wl wr : W) : jump g wl wr = cons g wr - cons g wl := by
  cases g <;> ext <;> simp [jump, cons, Gas.energy, Gas.ifEnergy] <;> ring

theorem lineFlux_eq (g : Gas) (w : W) (b : ℝ) (h : Ok g w) : lineFlux g w b = flux g w - b • cons g w := by
  cases g with
  | adiabatic gamma =>
    obtain ⟨_, _, hg⟩ := h
    have : gamma - 1 ≠ 0 := by linarith
    ext <;> simp [lineFlux, flux, cons, Gas.press, Gas.energy, Gas.ifEnergy] <;> field_simp <;> ring
  | isothermal cs => ext <;> simp [lineFlux, flux, cons, Gas.press, Gas.ifEnergy] <;> ring

/-! ## HLLE -/

theorem ite_pos_eq (x : ℝ) : (if 0 < x then x else 0) = max 0 x := by
  split
  · rw [max_eq_right (by linarith)]
  · rw [max_eq_left (by linarith)]

theorem ite_neg_eq (x : ℝ) : (if x < 0 then x else 0) = min 0 x := by
  split
  · rw [min_eq_right (by linarith)]
  · rw [min_eq_left (by linarith)]

/-- The combination of the two line fluxes is the HLL formula. -/
theorem hll_comb {fl fr ul ur bp bm : ℝ} (h : bp ≠ bm) :
    1/2 * ((fl - bm * ul) + (fr - bp * ur)) + ((fl - bm * ul) - (fr - bp * ur)) * (1/2 * (bp + bm) / (bp - bm))
      = (bp * fl - bm * fr + bp * bm * (ur - ul)) / (bp - bm) := by
  have : bp - bm ≠ 0 := sub_ne_zero.2 h
  field_simp
  ring

/-! ## The Roe average -/

theorem roeQ_eq (gamma : ℝ) (wl wr : W) (hl : Ok (.adiabatic gamma) wl) (hr : Ok (.adiabatic gamma) wr) :
    roeQ (.adiabatic gamma) wl wr =
      (Real.sqrt wl.d * (gamma / (gamma - 1) * wl.p / wl.d) + Real.sqrt wr.d * (gamma / (gamma - 1) * wr.p / wr.d))
        / (Real.sqrt wl.d + Real.sqrt wr.d)
      + 1/2 * (Real.sqrt wl.d * Real.sqrt wr.d) / (Real.sqrt wl.d + Real.sqrt wr.d) ^ 2
        * ((wl.vx - wr.vx) ^ 2 + (wl.vy - wr.vy) ^ 2 + (wl.vz - wr.vz) ^ 2) := by
  obtain ⟨hdl, hpl, hg⟩ := hl
  obtain ⟨hdr, hpr, _⟩ := hr
  have hg1 : gamma - 1 ≠ 0 := by linarith
  obtain ⟨dl, vxl, vyl, vzl, pl⟩ := wl
  obtain ⟨dr, vxr, vyr, vzr, pr⟩ := wr
  simp only at *
  have hs := Real.sqrt_pos.2 hdl
  have ht := Real.sqrt_pos.2 hdr
  have es : dl = Real.sqrt dl * Real.sqrt dl := (Real.mul_self_sqrt hdl.le).symm
  have et : dr = Real.sqrt dr * Real.sqrt dr := (Real.mul_self_sqrt hdr.le).symm
  simp only [roeQ, roeEnthalpy, roeMean, Gas.energy]
  generalize Real.sqrt dl = s at *
  generalize Real.sqrt dr = t at *
  subst es et
  field_simp
  ring

theorem roeQ_pos (gamma : ℝ) (wl wr : W) (hl : Ok (.adiabatic gamma) wl) (hr : Ok (.adiabatic gamma) wr) :
    0 < roeQ (.adiabatic gamma) wl wr := by
  rw [roeQ_eq gamma wl wr hl hr]
  obtain ⟨hdl, hpl, hg⟩ := hl
  obtain ⟨hdr, hpr, _⟩ := hr
  have hs := Real.sqrt_pos.2 hdl
  have ht := Real.sqrt_pos.2 hdr
  have hg1 : 0 < gamma - 1 := by linarith
  have hg0 : 0 < gamma := by linarith
  positivity

theorem hlleA_pos (g : Gas) (wl wr : W) (hl : Ok g wl) (hr : Ok g wr) : 0 < hlleA g wl wr := by
  cases g with
  | adiabatic gamma =>
    have hq := roeQ_pos gamma wl wr hl hr
    have hg1 : 0 < gamma - 1 := by linarith [hl.2.2]
    simp only [hlleA]
    rw [if_neg (by linarith)]
    exact Real.sqrt_pos.2 (by positivity)
  | isothermal cs => exact hl.2

end Verif.Riemann
