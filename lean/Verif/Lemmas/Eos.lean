import Verif.Spec.Eos
import Verif.Lemmas.BoundaryFn
import Mathlib.Tactic.Linarith
import Mathlib.Tactic.FieldSimp
import Mathlib.Tactic.Ring
import Mathlib.Tactic.Positivity

/-! Helper lemmas for the equation of state. -/
namespace Verif.Eos
open Verif.Grid
open Verif.Arr (loop)

section loops
variable {σ β : Type}

/-- Only the visit of cell `c` changes what `f` observes. -/
theorem cells_hit (f : σ → β) (F : β → β) {kl ku jl ju il iu : Int} {c : Int × Int × Int} (hc : In kl ku jl ju il iu c)
    (B : Int × Int × Int → σ → σ) (hit : ∀ st, f (B c st) = F (f st))
    (keep : ∀ c', c' ≠ c → ∀ st, f (B c' st) = f st) (st : σ) :
    f (cells kl ku jl ju il iu B st) = F (f st) := by
  obtain ⟨hk, hj, hi⟩ := hc
  unfold cells
  refine loop_once f F kl ku _ c.1 hk.1 hk.2 (fun st => ?_) (fun k hne st => ?_) st
  · refine loop_once f F jl ju _ c.2.1 hj.1 hj.2 (fun st => ?_) (fun j hne st => ?_) st
    · refine loop_once f F il iu _ c.2.2 hi.1 hi.2 (fun st => hit st) (fun i hne st => ?_) st
      exact keep _ (fun h => hne (by rw [← h])) st
    · exact loop_keep f _ _ _ (fun i _ _ st => keep _ (fun h => hne (by rw [← h])) st) st
  · exact loop2_keep f _ _ _ _ _ (fun j i _ _ st => keep _ (fun h => hne (by rw [← h])) st) st

theorem cells_keep (f : σ → β) {kl ku jl ju il iu : Int} (B : Int × Int × Int → σ → σ)
    (keep : ∀ c, In kl ku jl ju il iu c → ∀ st, f (B c st) = f st) (st : σ) :
    f (cells kl ku jl ju il iu B st) = f st :=
  loop3_keep f _ _ _ _ _ _ _ (fun k j i hk hj hi st => keep (k, j, i) ⟨hk, hj, hi⟩ st) st

theorem cells_inv (Inv : σ → Prop) {kl ku jl ju il iu : Int} (B : Int × Int × Int → σ → σ)
    (h : ∀ c, In kl ku jl ju il iu c → ∀ st, Inv st → Inv (B c st)) (st : σ) (h0 : Inv st) :
    Inv (cells kl ku jl ju il iu B st) :=
  loop_inv Inv _ _ _ (fun k h1 h2 st hst => loop_inv Inv _ _ _ (fun j h3 h4 st hst =>
    loop_inv Inv _ _ _ (fun i h5 h6 st hst => h (k, j, i) ⟨⟨h1, h2⟩, ⟨h3, h4⟩, ⟨h5, h6⟩⟩ st hst) st hst) st hst) st h0

/-- Assignments `x(n,c) = v(n,c)` over variables and cells. -/
theorem assign_val {K : Type} {nu kl ku jl ju il iu : Int} (v : Int → Int × Int × Int → K) (x : A4 K) {n : Int}
    {c : Int × Int × Int} (hn : 0 ≤ n ∧ n ≤ nu) (hc : In kl ku jl ju il iu c) :
    loop 0 nu (fun n => cells kl ku jl ju il iu fun c x => Function.update x (n, c) (v n c)) x (n, c) = v n c := by
  refine loop_once (fun x : A4 K => x (n, c)) (fun _ => v n c) 0 nu _ n hn.1 hn.2 (fun st => ?_) (fun n' hne st => ?_) x
  · refine cells_hit (fun x : A4 K => x (n, c)) (fun _ => v n c) hc _ (fun st => ?_) (fun c' hne st => ?_) st
    · exact Function.update_self _ _ _
    · exact Function.update_of_ne (by simpa [Prod.ext_iff, eq_comm] using hne) _ _
  · exact cells_keep (fun x : A4 K => x (n, c)) _
      (fun c' _ st => Function.update_of_ne (by simp [hne.symm]) _ _) st

theorem assign_keep {K : Type} {nu kl ku jl ju il iu : Int} (v : Int → Int × Int × Int → K) (x : A4 K)
    {q : Int × Int × Int × Int} (h : ¬ ((0 ≤ q.1 ∧ q.1 ≤ nu) ∧ In kl ku jl ju il iu q.2)) :
    loop 0 nu (fun n => cells kl ku jl ju il iu fun c x => Function.update x (n, c) (v n c)) x q = x q := by
  refine loop_keep (fun x : A4 K => x q) _ _ _ (fun n h1 h2 st => ?_) x
  refine cells_keep (fun x : A4 K => x q) _ (fun c hc st => ?_) st
  refine Function.update_of_ne ?_ _ _
  rintro rfl
  exact h ⟨⟨h1, h2⟩, hc⟩

end loops

theorem col_putCol {K : Type} (a : A4 K) (c : Int × Int × Int) (u : Col K) : col (putCol a c u) c = u := by
  funext n; simp [col, putCol]

theorem col_putCol_ne {K : Type} (a : A4 K) {c c' : Int × Int × Int} (h : c' ≠ c) (u : Col K) :
    col (putCol a c' u) c = col a c := by
  funext n; simp [col, putCol, h.symm]

section
variable {K : Type} [Field K] [LinearOrder K]

variable {p : Par K} {ad mag : Bool} {m : Mesh3 K} {bf : FF K} {kl ku jl ju il iu : Int}

theorem cellField_val {c : Int × Int × Int} (hc : In kl ku jl ju il iu c) (a : A4 K) :
    col (cellField m bf kl ku jl ju il iu a) c = Function.update (Function.update (Function.update (col a c)
      0 (faceAve m.uni.1 m.x1 c.2.2 (bf.x1f (c.1, c.2.1, c.2.2)) (bf.x1f (c.1, c.2.1, c.2.2 + 1))))
      1 (faceAve m.uni.2.1 m.x2 c.2.1 (bf.x2f (c.1, c.2.1, c.2.2)) (bf.x2f (c.1, c.2.1 + 1, c.2.2))))
      2 (faceAve m.uni.2.2 m.x3 c.1 (bf.x3f (c.1, c.2.1, c.2.2)) (bf.x3f (c.1 + 1, c.2.1, c.2.2))) := by
  unfold cellField
  refine cells_hit (fun a => col a c) (fun u => Function.update (Function.update (Function.update u
      0 (faceAve m.uni.1 m.x1 c.2.2 (bf.x1f (c.1, c.2.1, c.2.2)) (bf.x1f (c.1, c.2.1, c.2.2 + 1))))
      1 (faceAve m.uni.2.1 m.x2 c.2.1 (bf.x2f (c.1, c.2.1, c.2.2)) (bf.x2f (c.1, c.2.1 + 1, c.2.2))))
      2 (faceAve m.uni.2.2 m.x3 c.1 (bf.x3f (c.1, c.2.1, c.2.2)) (bf.x3f (c.1 + 1, c.2.1, c.2.2)))) hc _
      (fun st => ?_) (fun c' hne st => ?_) a
  · exact col_putCol _ _ _
  · exact col_putCol_ne _ hne _

theorem cellField_keep {c : Int × Int × Int} (hc : ¬ In kl ku jl ju il iu c) (a : A4 K) :
    col (cellField m bf kl ku jl ju il iu a) c = col a c := by
  unfold cellField
  refine cells_keep (fun a => col a c) _ (fun c' hc' st => ?_) a
  exact col_putCol_ne _ (by rintro rfl; exact hc hc') _

/-- The field used by the conversion. -/
def bccOf (mag : Bool) (m : Mesh3 K) (bf : FF K) (kl ku jl ju il iu : Int) (b : A4 K) : A4 K :=
  if mag then cellField m bf kl ku jl ju il iu b else b

theorem toPrim_bcc (s : St K) : (toPrim p ad mag m bf kl ku jl ju il iu s).bcc = bccOf mag m bf kl ku jl ju il iu s.bcc := by
  unfold toPrim
  refine (cells_keep (fun s : St K => s.bcc) _ (fun c _ st => ?_) _).trans ?_ <;> rfl

theorem toPrim_val (s : St K) {c : Int × Int × Int} (hc : In kl ku jl ju il iu c) :
    let s' := toPrim p ad mag m bf kl ku jl ju il iu s
    (col s'.cons c, col s'.prim c) = toPrimCell p ad mag (col s'.bcc c) (col s.cons c) (col s.prim c) := by
  intro s'
  have hb : s'.bcc = bccOf mag m bf kl ku jl ju il iu s.bcc := toPrim_bcc s
  have h := cells_hit (fun s : St K => (col s.bcc c, col s.cons c, col s.prim c))
    (fun x => (x.1, (toPrimCell p ad mag x.1 x.2.1 x.2.2))) hc (fun c s =>
    let r := toPrimCell p ad mag (col s.bcc c) (col s.cons c) (col s.prim c)
    { s with cons := putCol s.cons c r.1, prim := putCol s.prim c r.2 })
    (fun st => by simp only [col_putCol, Prod.mk.eta])
    (fun c' hne st => by simp only [col_putCol_ne _ hne])
    { s with bcc := bccOf mag m bf kl ku jl ju il iu s.bcc }
  have h2 := congrArg Prod.snd h
  rw [hb]
  exact h2

theorem toPrim_keep (s : St K) {c : Int × Int × Int} (hc : ¬ In kl ku jl ju il iu c) :
    let s' := toPrim p ad mag m bf kl ku jl ju il iu s
    col s'.cons c = col s.cons c ∧ col s'.prim c = col s.prim c ∧ col s'.bcc c = col s.bcc c := by
  intro s'
  have hb : s'.bcc = bccOf mag m bf kl ku jl ju il iu s.bcc := toPrim_bcc s
  have h := cells_keep (kl := kl) (ku := ku) (jl := jl) (ju := ju) (il := il) (iu := iu)
    (fun s : St K => (col s.cons c, col s.prim c)) (fun c s =>
    let r := toPrimCell p ad mag (col s.bcc c) (col s.cons c) (col s.prim c)
    { s with cons := putCol s.cons c r.1, prim := putCol s.prim c r.2 })
    (fun c' hc' st => by
      have : c' ≠ c := by rintro rfl; exact hc hc'
      simp only [col_putCol_ne _ this])
    { s with bcc := bccOf mag m bf kl ku jl ju il iu s.bcc }
  refine ⟨congrArg Prod.fst h, congrArg Prod.snd h, ?_⟩
  rw [hb]
  unfold bccOf
  split
  · exact cellField_keep hc _
  · rfl

theorem toCons_val (s : St K) {c : Int × Int × Int} (hc : In kl ku jl ju il iu c) :
    let s' := toCons p ad mag kl ku jl ju il iu s
    col s'.cons c = toConsCell p ad mag (col s.bcc c) (col s.prim c) (col s.cons c) := by
  intro s'
  have h := cells_hit (fun s : St K => (col s.bcc c, col s.prim c, col s.cons c))
    (fun x => (x.1, x.2.1, toConsCell p ad mag x.1 x.2.1 x.2.2)) hc (fun c s =>
    { s with cons := putCol s.cons c (toConsCell p ad mag (col s.bcc c) (col s.prim c) (col s.cons c)) })
    (fun st => by simp only [col_putCol])
    (fun c' hne st => by simp only [col_putCol_ne _ hne]) s
  exact congrArg (fun x => x.2.2) h

theorem toCons_prim (s : St K) : (toCons p ad mag kl ku jl ju il iu s).prim = s.prim
    ∧ (toCons p ad mag kl ku jl ju il iu s).bcc = s.bcc := by
  unfold toCons
  constructor
  · refine cells_keep (fun s : St K => s.prim) _ (fun c _ st => ?_) s; rfl
  · refine cells_keep (fun s : St K => s.bcc) _ (fun c _ st => ?_) s; rfl

theorem toCons_keep (s : St K) {c : Int × Int × Int} (hc : ¬ In kl ku jl ju il iu c) :
    col (toCons p ad mag kl ku jl ju il iu s).cons c = col s.cons c :=
  cells_keep (fun s : St K => col s.cons c) _ (fun c' hc' st => by
    have : c' ≠ c := by rintro rfl; exact hc hc'
    simp only [col_putCol_ne _ this]) s

/-! ## One cell -/

variable [IsStrictOrderedRing K] {b u w : Col K}

theorem floor_le (f x : K) : f ≤ (if x > f then x else f) := by split <;> linarith
theorem le_floor (f x : K) : x ≤ (if x > f then x else f) := by split <;> linarith
theorem floor_of_le {f x : K} (h : f ≤ x) : (if x > f then x else f) = x := by
  split
  · rfl
  · linarith

theorem magP_eq : magP mag b = if mag then (b 0 ^ 2 + b 1 ^ 2 + b 2 ^ 2) / 2 else 0 := by
  unfold magP; split <;> ring

/-- The entries of the result of `toPrimCell`. -/
theorem toPrimCell_entries :
    let r := toPrimCell p ad mag b u w
    let d := if u 0 > p.dfloor then u 0 else p.dfloor
    let P := gasP p.gamma d mag b u
    (r.1 0 = d ∧ r.2 0 = d) ∧ (∀ n, 1 ≤ n → n ≤ 3 → r.1 n = u n ∧ r.2 n = u n / d) ∧
    (r.1 4 = if ad then (if P > p.pfloor then u 4 else p.pfloor / (p.gamma - 1) + (u 1 ^ 2 + u 2 ^ 2 + u 3 ^ 2) / (2 * d)
      + if mag then (b 0 ^ 2 + b 1 ^ 2 + b 2 ^ 2) / 2 else 0) else u 4) ∧
    (r.2 4 = if ad then (if P > p.pfloor then P else p.pfloor) else w 4) ∧
    (∀ n, n < 0 ∨ 4 < n → r.1 n = u n ∧ r.2 n = w n) := by
  intro r d P
  have hP : (p.gamma - 1) * (u 4 - 1/2 * (1 / d) * (u 1 ^ 2 + u 2 ^ 2 + u 3 ^ 2) - magP mag b) = P := by
    show _ = gasP p.gamma d mag b u
    unfold gasP
    rw [magP_eq]
    ring
  have hr : r = toPrimCell p ad mag b u w := rfl
  unfold toPrimCell at hr
  simp only at hr
  change r = (if ad = true then _ else _) at hr
  have hd : (if u 0 > p.dfloor then u 0 else p.dfloor) = d := rfl
  simp only [hd, hP] at hr
  have e : ∀ n : Int, 1 ≤ n → n ≤ 3 → n = 1 ∨ n = 2 ∨ n = 3 := fun n h1 h2 => by omega
  cases ad
  · simp only [Bool.false_eq_true, if_false] at hr
    rw [hr]
    refine ⟨by simp, fun n h1 h2 => ?_, by simp, by simp, fun n hn => ?_⟩
    · rcases e n h1 h2 with rfl | rfl | rfl <;> simp [div_eq_mul_inv]
    · have h0 : n ≠ 0 := by omega
      have h1 : n ≠ 1 := by omega
      have h2 : n ≠ 2 := by omega
      have h3 : n ≠ 3 := by omega
      simp [Function.update_of_ne, h0, h1, h2, h3]
  · simp only [if_true] at hr
    rw [hr]
    refine ⟨by simp, fun n h1 h2 => ?_, ?_, by simp, fun n hn => ?_⟩
    · rcases e n h1 h2 with rfl | rfl | rfl <;> simp [div_eq_mul_inv]
    · simp only [Function.update_self, if_true]
      split
      · rfl
      · rw [magP_eq]; ring
    · have h0 : n ≠ 0 := by omega
      have h1 : n ≠ 1 := by omega
      have h2 : n ≠ 2 := by omega
      have h3 : n ≠ 3 := by omega
      have h4 : n ≠ 4 := by omega
      simp [Function.update_of_ne, h0, h1, h2, h3, h4]

theorem toPrimCell_same (hp : p.Ok) : let r := toPrimCell p ad mag b u w
    Same p.gamma ad mag b r.2 r.1 := by
  intro r
  obtain ⟨⟨h0, h0'⟩, hm, he, hq, -⟩ := toPrimCell_entries (p := p) (ad := ad) (mag := mag) (b := b) (u := u) (w := w)
  set d := if u 0 > p.dfloor then u 0 else p.dfloor with hd
  have hd0 : 0 < d := lt_of_lt_of_le hp.dfloor (floor_le _ _)
  have hg : p.gamma - 1 ≠ 0 := by linarith [hp.gamma]
  refine ⟨by rw [h0, h0'], fun n h1 h2 => ?_, fun had => ?_⟩
  · rw [(hm n h1 h2).1, (hm n h1 h2).2, h0']
    field_simp
  · rw [he, hq, h0', (hm 1 (by norm_num) (by norm_num)).2, (hm 2 (by norm_num) (by norm_num)).2,
      (hm 3 (by norm_num) (by norm_num)).2, if_pos had, if_pos had]
    split
    · unfold gasP
      field_simp
      ring
    · field_simp

theorem toConsCell_same : Same p.gamma ad mag b w (toConsCell p ad mag b w u) := by
  unfold toConsCell
  cases ad
  · refine ⟨by simp, fun n h1 h2 => ?_, by simp⟩
    have : n = 1 ∨ n = 2 ∨ n = 3 := by omega
    rcases this with rfl | rfl | rfl <;> simp [mul_comm]
  · refine ⟨by simp, fun n h1 h2 => ?_, fun _ => ?_⟩
    · have : n = 1 ∨ n = 2 ∨ n = 3 := by omega
      rcases this with rfl | rfl | rfl <;> simp [mul_comm]
    · simp only [if_true, Function.update_self]
      cases mag <;> simp <;> ring

/-- The conserved variables are determined by the primitive ones. -/
theorem Same.cons_eq {g : K} {u' : Col K} (h : Same g ad mag b w u) (h' : Same g ad mag b w u') {n : Int}
    (hn : IsVar ad n) : u n = u' n := by
  obtain ⟨h0, h1⟩ := hn
  rcases (show n = 0 ∨ (1 ≤ n ∧ n ≤ 3) ∨ (n = 4 ∧ ad = true) by cases ad <;> simp at h1 ⊢ <;> omega) with rfl | h2 | ⟨rfl, had⟩
  · rw [h.density, h'.density]
  · rw [h.momentum n h2.1 h2.2, h'.momentum n h2.1 h2.2]
  · rw [h.energy had, h'.energy had]

/-- The primitive variables are determined by the conserved ones. -/
theorem Same.prim_eq {g : K} {w' : Col K} (hg : g ≠ 1) (h : Same g ad mag b w u) (h' : Same g ad mag b w' u) (hw : w 0 ≠ 0)
    {n : Int} (hn : IsVar ad n) : w n = w' n := by
  have hd : w 0 = w' 0 := by rw [← h.density, ← h'.density]
  have hv : ∀ n, 1 ≤ n → n ≤ 3 → w n = w' n := fun n h1 h2 => by
    have e : w 0 * w n = w 0 * w' n := by rw [← h.momentum n h1 h2, h'.momentum n h1 h2, hd]
    exact mul_left_cancel₀ hw e
  obtain ⟨h0, h1⟩ := hn
  rcases (show n = 0 ∨ (1 ≤ n ∧ n ≤ 3) ∨ (n = 4 ∧ ad = true) by cases ad <;> simp at h1 ⊢ <;> omega) with rfl | h2 | ⟨rfl, had⟩
  · exact hd
  · exact hv n h2.1 h2.2
  · have e1 := h.energy had
    have e2 := h'.energy had
    rw [← hv 1 (by norm_num) (by norm_num), ← hv 2 (by norm_num) (by norm_num), ← hv 3 (by norm_num) (by norm_num), ← hd] at e2
    have e3 : w 4 / (g - 1) = w' 4 / (g - 1) := by
      rw [e1] at e2
      linarith
    exact (div_left_inj' (sub_ne_zero.2 hg)).1 e3

/-- Conserved variables that already describe a gas above the floors are not changed. -/
theorem toPrimCell_of_same (hp : p.Ok) (h : Same p.gamma ad mag b w u) (hd : p.dfloor ≤ w 0) (hq : ad = true → p.pfloor ≤ w 4)
    {w0 : Col K} {n : Int} (hn : IsVar ad n) : let r := toPrimCell p ad mag b u w0
    r.1 n = u n ∧ r.2 n = w n := by
  intro r
  have hd0 : 0 < w 0 := lt_of_lt_of_le hp.dfloor hd
  have hg : p.gamma - 1 ≠ 0 := by linarith [hp.gamma]
  have hr := toPrimCell_same (p := p) (ad := ad) (mag := mag) (b := b) (u := u) (w := w0) hp
  obtain ⟨⟨h0, h0'⟩, hm, he, hq', -⟩ := toPrimCell_entries (p := p) (ad := ad) (mag := mag) (b := b) (u := u) (w := w0)
  have hd' : (if u 0 > p.dfloor then u 0 else p.dfloor) = w 0 := by
    rw [floor_of_le (by rw [h.density]; exact hd), h.density]
  rw [hd'] at h0 h0' hm he hq'
  have hu : ∀ n, IsVar ad n → r.1 n = u n := by
    intro n hn
    obtain ⟨h1, h2⟩ := hn
    rcases (show n = 0 ∨ (1 ≤ n ∧ n ≤ 3) ∨ (n = 4 ∧ ad = true) by cases ad <;> simp at h2 ⊢ <;> omega) with rfl | h3 | ⟨rfl, had⟩
    · rw [h0, h.density]
    · exact (hm n h3.1 h3.2).1
    · rw [he, if_pos had]
      have hP : gasP p.gamma (w 0) mag b u = w 4 := by
        unfold gasP
        rw [h.energy had, h.momentum 1 (by norm_num) (by norm_num), h.momentum 2 (by norm_num) (by norm_num),
          h.momentum 3 (by norm_num) (by norm_num)]
        field_simp
        ring
      rw [hP]
      split
      · rfl
      · have : w 4 = p.pfloor := le_antisymm (by linarith) (hq had)
        rw [h.energy had, this, h.momentum 1 (by norm_num) (by norm_num), h.momentum 2 (by norm_num) (by norm_num),
          h.momentum 3 (by norm_num) (by norm_num)]
        field_simp
  refine ⟨hu n hn, ?_⟩
  have hs : Same p.gamma ad mag b r.2 u := by
    refine ⟨?_, fun n h1 h2 => ?_, fun had => ?_⟩
    · rw [← hr.density]; exact (hu 0 ⟨le_refl _, by cases ad <;> norm_num⟩).symm
    · rw [← hr.momentum n h1 h2]; exact (hu n ⟨by omega, by cases ad <;> simp <;> omega⟩).symm
    · rw [← hr.energy had]; exact (hu 4 ⟨by norm_num, by rw [had]; norm_num⟩).symm
  exact (Same.prim_eq (by linarith [hp.gamma]) h hs hd0.ne' hn).symm

end
end Verif.Eos
