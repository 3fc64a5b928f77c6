import Verif.Lemmas.Eos
import Mathlib.Tactic.LinearCombination

/-!
# Conversions between conserved and primitive variables (C48)

Statements in terms of `Same` (density, momentum and energy of a gas) and the floors. `ad` and `mag` select
among the four equation-of-state files; all theorems hold for all four.
-/
set_option linter.unusedSectionVars false
namespace Verif.Eos
open Verif.Grid
open Verif.Recon (Line)

section
variable {K : Type} [Field K] [LinearOrder K] [IsStrictOrderedRing K]
variable {p : Par K} {ad mag : Bool} {m : Mesh3 K} {bf : FF K} {kl ku jl ju il iu : Int} {s : St K} {c : Int × Int × Int}

/-- **Consistency and floors.** After `ConservedToPrimitive` the primitive and the conserved variables of every
converted cell describe the same gas, its density and pressure are at least the floors, and the momentum is the
one given. -/
theorem cons_to_prim (hp : p.Ok) (hc : In kl ku jl ju il iu c) :
    let s' := toPrim p ad mag m bf kl ku jl ju il iu s
    Same p.gamma ad mag (col s'.bcc c) (col s'.prim c) (col s'.cons c) ∧
    p.dfloor ≤ s'.prim (0, c) ∧ (ad = true → p.pfloor ≤ s'.prim (4, c)) ∧
    ∀ n, 1 ≤ n → n ≤ 3 → s'.cons (n, c) = s.cons (n, c) := by
  intro s'
  have h := toPrim_val (p := p) (ad := ad) (mag := mag) (m := m) (bf := bf) s hc
  obtain ⟨⟨h0, h0'⟩, hm, he, hq, -⟩ := toPrimCell_entries (p := p) (ad := ad) (mag := mag) (b := col s'.bcc c)
    (u := col s.cons c) (w := col s.prim c)
  have hs := toPrimCell_same (p := p) (ad := ad) (mag := mag) (b := col s'.bcc c)
    (u := col s.cons c) (w := col s.prim c) hp
  have h1 : col s'.cons c = _ := congrArg Prod.fst h
  have h2 : col s'.prim c = _ := congrArg Prod.snd h
  simp only at hs h0 h0' hm he hq
  rw [← h1, ← h2] at hs
  rw [← h2] at h0' hq
  rw [← h1] at h0 he
  refine ⟨hs, ?_, fun had => ?_, fun n hn1 hn2 => ?_⟩
  · show p.dfloor ≤ col s'.prim c 0
    rw [h0']; exact floor_le _ _
  · show p.pfloor ≤ col s'.prim c 4
    rw [hq, if_pos had]; exact floor_le _ _
  · have := (hm n hn1 hn2).1
    rw [← h1] at this
    exact this

/-- **Conservation.** A cell whose density and gas pressure exceed the floors keeps its conserved variables. In any
cell density and energy can only be raised, and only to the floors. -/
theorem cons_to_prim_conserves (hp : p.Ok) (hc : In kl ku jl ju il iu c) :
    let s' := toPrim p ad mag m bf kl ku jl ju il iu s
    s'.cons (0, c) = max (s.cons (0, c)) p.dfloor ∧
    (ad = true → s.cons (4, c) ≤ s'.cons (4, c) ∧
      (p.pfloor ≤ gasP p.gamma (s'.cons (0, c)) mag (col s'.bcc c) (col s.cons c) → s'.cons (4, c) = s.cons (4, c)) ∧
      (gasP p.gamma (s'.cons (0, c)) mag (col s'.bcc c) (col s.cons c) ≤ p.pfloor → s'.prim (4, c) = p.pfloor)) := by
  intro s'
  have h := toPrim_val (p := p) (ad := ad) (mag := mag) (m := m) (bf := bf) s hc
  obtain ⟨⟨h0, h0'⟩, hm, he, hq, -⟩ := toPrimCell_entries (p := p) (ad := ad) (mag := mag) (b := col s'.bcc c)
    (u := col s.cons c) (w := col s.prim c)
  have h1 : col s'.cons c = _ := congrArg Prod.fst h
  have h2 : col s'.prim c = _ := congrArg Prod.snd h
  rw [← h2] at h0' hq
  rw [← h1] at h0 he
  have hd : s'.cons (0, c) = max (s.cons (0, c)) p.dfloor := by
    show col s'.cons c 0 = _
    rw [h0, max_def]
    show (if s.cons (0, c) > p.dfloor then s.cons (0, c) else p.dfloor) = _
    split <;> split <;> linarith
  have hd0 : 0 < s'.cons (0, c) := by rw [hd]; exact lt_max_of_lt_right hp.dfloor
  refine ⟨hd, fun had => ?_⟩
  have hdd : s'.cons (0, c) = if col s.cons c 0 > p.dfloor then col s.cons c 0 else p.dfloor := h0
  rw [if_pos had, ← hdd] at he hq
  have hg : 0 < p.gamma - 1 := by linarith [hp.gamma]
  set P := gasP p.gamma (s'.cons (0, c)) mag (col s'.bcc c) (col s.cons c) with hP
  have hu : s.cons (4, c) = P / (p.gamma - 1) + (col s.cons c 1 ^ 2 + col s.cons c 2 ^ 2 + col s.cons c 3 ^ 2) / (2 * s'.cons (0, c))
      + if mag then (col s'.bcc c 0 ^ 2 + col s'.bcc c 1 ^ 2 + col s'.bcc c 2 ^ 2) / 2 else 0 := by
    rw [hP]
    unfold gasP
    rw [mul_div_cancel_left₀ _ hg.ne']
    show col s.cons c 4 = _
    ring
  have hle : P ≤ p.pfloor → P / (p.gamma - 1) ≤ p.pfloor / (p.gamma - 1) := fun h => (div_le_div_iff_of_pos_right hg).2 h
  refine ⟨?_, fun h => ?_, fun h => ?_⟩
  · show _ ≤ col s'.cons c 4
    rw [he]
    split
    · exact le_refl _
    · rename_i hn
      have := hle (not_lt.1 hn)
      rw [hu]
      linarith
  · show col s'.cons c 4 = _
    rw [he]
    split
    · rfl
    · rename_i hn
      have : P = p.pfloor := le_antisymm (not_lt.1 hn) h
      rw [hu, this]
  · show col s'.prim c 4 = _
    rw [hq, if_neg (not_lt.2 h)]

/-- Cells outside the range of the conversion are not touched. -/
theorem cons_to_prim_elsewhere (hc : ¬ In kl ku jl ju il iu c) (n : Int) :
    let s' := toPrim p ad mag m bf kl ku jl ju il iu s
    s'.cons (n, c) = s.cons (n, c) ∧ s'.prim (n, c) = s.prim (n, c) ∧ s'.bcc (n, c) = s.bcc (n, c) := by
  intro s'
  obtain ⟨h1, h2, h3⟩ := toPrim_keep (p := p) (ad := ad) (mag := mag) (m := m) (bf := bf) s hc
  exact ⟨congrFun h1 n, congrFun h2 n, congrFun h3 n⟩

/-- **Primitive to conserved.** -/
theorem prim_to_cons :
    let s' := toCons p ad mag kl ku jl ju il iu s
    s'.prim = s.prim ∧ s'.bcc = s.bcc ∧
    (In kl ku jl ju il iu c → Same p.gamma ad mag (col s.bcc c) (col s.prim c) (col s'.cons c)) ∧
    (¬ In kl ku jl ju il iu c → ∀ n, s'.cons (n, c) = s.cons (n, c)) := by
  intro s'
  refine ⟨(toCons_prim s).1, (toCons_prim s).2, fun hc => ?_, fun hc n => congrFun (toCons_keep s hc) n⟩
  have := toCons_val (p := p) (ad := ad) (mag := mag) s hc
  simp only at this
  rw [this]
  exact toConsCell_same

/-- **Round trip.** Primitive variables at or above the floors are recovered from the conserved variables computed
from them; `hb`: the cell-centred field is the one computed from the face field. -/
theorem prim_round_trip (hp : p.Ok) (hc : In kl ku jl ju il iu c) (hd : p.dfloor ≤ s.prim (0, c))
    (hq : ad = true → p.pfloor ≤ s.prim (4, c))
    (hb : mag = true → col (cellField m bf kl ku jl ju il iu s.bcc) c = col s.bcc c) {n : Int} (hn : IsVar ad n) :
    let s1 := toCons p ad mag kl ku jl ju il iu s
    let s2 := toPrim p ad mag m bf kl ku jl ju il iu s1
    s2.prim (n, c) = s.prim (n, c) ∧ s2.cons (n, c) = s1.cons (n, c) := by
  intro s1 s2
  obtain ⟨e1, e2, e3, -⟩ := prim_to_cons (p := p) (ad := ad) (mag := mag) (kl := kl) (ku := ku) (jl := jl) (ju := ju)
    (il := il) (iu := iu) (s := s) (c := c)
  have hs := e3 hc
  have h := toPrim_val (p := p) (ad := ad) (mag := mag) (m := m) (bf := bf) s1 hc
  have hbb : col s2.bcc c = col s.bcc c := by
    have : s2.bcc = bccOf mag m bf kl ku jl ju il iu s1.bcc := toPrim_bcc s1
    rw [this, e2]
    unfold bccOf
    split
    · rename_i hm; exact hb hm
    · rfl
  simp only at h
  rw [hbb] at h
  obtain ⟨k1, k2⟩ := toPrimCell_of_same (w0 := col s1.prim c) hp hs hd hq hn
  have h1 : col s2.cons c = _ := congrArg Prod.fst h
  have h2 : col s2.prim c = _ := congrArg Prod.snd h
  refine ⟨?_, ?_⟩
  · show col s2.prim c n = _
    rw [h2]; exact k2
  · show col s2.cons c n = _
    rw [h1]; exact k1

/-- **Round trip** the other way: the conserved variables left by `ConservedToPrimitive` are the ones computed from
the primitive variables. -/
theorem cons_round_trip (hp : p.Ok) (hc : In kl ku jl ju il iu c) {n : Int} (hn : IsVar ad n) :
    let s1 := toPrim p ad mag m bf kl ku jl ju il iu s
    let s2 := toCons p ad mag kl ku jl ju il iu s1
    s2.cons (n, c) = s1.cons (n, c) := by
  intro s1 s2
  obtain ⟨-, -, e3, -⟩ := prim_to_cons (p := p) (ad := ad) (mag := mag) (kl := kl) (ku := ku) (jl := jl) (ju := ju)
    (il := il) (iu := iu) (s := s1) (c := c)
  exact Same.cons_eq (e3 hc) (cons_to_prim hp hc).1 hn

/-- **Repeating the conversion changes nothing.** -/
theorem cons_to_prim_idempotent (hp : p.Ok) (hc : In kl ku jl ju il iu c) {n : Int} (hn : IsVar ad n) :
    let s1 := toPrim p ad mag m bf kl ku jl ju il iu s
    let s2 := toPrim p ad mag m bf kl ku jl ju il iu s1
    s2.cons (n, c) = s1.cons (n, c) ∧ s2.prim (n, c) = s1.prim (n, c) := by
  intro s1 s2
  obtain ⟨hs, hd, hq, -⟩ := cons_to_prim (p := p) (ad := ad) (mag := mag) (m := m) (bf := bf) (s := s) hp hc
  have h := toPrim_val (p := p) (ad := ad) (mag := mag) (m := m) (bf := bf) s1 hc
  have hbb : col s2.bcc c = col s1.bcc c := by
    have e1 : s2.bcc = bccOf mag m bf kl ku jl ju il iu s1.bcc := toPrim_bcc s1
    have e2 : s1.bcc = bccOf mag m bf kl ku jl ju il iu s.bcc := toPrim_bcc s
    rw [e1, e2]
    unfold bccOf
    split
    · rw [cellField_val hc, cellField_val hc]
      funext n
      by_cases h2 : n = 2
      · subst h2; simp
      by_cases h1 : n = 1
      · subst h1; simp
      by_cases h0 : n = 0
      · subst h0; simp
      simp [Function.update_of_ne, h0, h1, h2]
    · rfl
  simp only at h
  rw [hbb] at h
  obtain ⟨k1, k2⟩ := toPrimCell_of_same (w0 := col s1.prim c) hp hs hd hq hn
  have h1 : col s2.cons c = _ := congrArg Prod.fst h
  have h2 : col s2.prim c = _ := congrArg Prod.snd h
  refine ⟨?_, ?_⟩
  · show col s2.cons c n = _
    rw [h1]; exact k1
  · show col s2.prim c n = _
    rw [h2]; exact k2

/-- **Cell-centred field.** It lies between the two face values and is exact for fields linear in the coordinate
(`hx`: the centre lies in the cell; `hdx`: the stored width is the distance of the faces; on a uniform mesh the
centre is the midpoint). -/
theorem cell_field {uni : Bool} {x : Line K} {i : Int} (hdx : x.dxf i = x.xf (i+1) - x.xf i)
    (hx : x.xf i ≤ x.xv i ∧ x.xv i ≤ x.xf (i+1)) (h0 : x.xf i < x.xf (i+1))
    (hu : uni = true → 2 * x.xv i = x.xf i + x.xf (i+1)) (bl br : K) :
    (min bl br ≤ faceAve uni x i bl br ∧ faceAve uni x i bl br ≤ max bl br) ∧
    ∀ a g : K, faceAve uni x i (a + g * x.xf i) (a + g * x.xf (i+1)) = a + g * x.xv i := by
  have hp : 0 < x.xf (i+1) - x.xf i := by linarith
  have key : ∃ l r : K, 0 ≤ l ∧ 0 ≤ r ∧ l + r = 1 ∧ (∀ bl br, faceAve uni x i bl br = l * bl + r * br)
      ∧ l * x.xf i + r * x.xf (i+1) = x.xv i := by
    cases uni
    · refine ⟨(x.xf (i+1) - x.xv i) / x.dxf i, (x.xv i - x.xf i) / x.dxf i, ?_, ?_, ?_, fun _ _ => by simp [faceAve], ?_⟩
      · rw [hdx]; exact div_nonneg (by linarith) hp.le
      · rw [hdx]; exact div_nonneg (by linarith) hp.le
      · rw [hdx, ← add_div, div_eq_one_iff_eq hp.ne']; ring
      · rw [hdx]; field_simp; ring
    · refine ⟨1/2, 1/2, by norm_num, by norm_num, by norm_num, fun _ _ => by simp [faceAve], ?_⟩
      linarith [hu rfl]
  obtain ⟨l, r, hl, hr, h1, hf, hc⟩ := key
  refine ⟨?_, fun a g => ?_⟩
  · rw [hf]
    rcases le_total bl br with h | h
    · rw [min_eq_left h, max_eq_right h]
      have a1 := mul_nonneg hl (sub_nonneg.2 h)
      have a2 := mul_nonneg hr (sub_nonneg.2 h)
      rw [show l = 1 - r by linarith] at a1 ⊢
      constructor <;> linarith
    · rw [min_eq_right h, max_eq_left h]
      have a1 := mul_nonneg hl (sub_nonneg.2 h)
      have a2 := mul_nonneg hr (sub_nonneg.2 h)
      rw [show l = 1 - r by linarith] at a1 ⊢
      constructor <;> linarith
  · rw [hf, ← hc]
    linear_combination a * h1

/-- `ConservedToPrimitive` uses that field, of the faces of the cell. -/
theorem cons_to_prim_field (hm : mag = true) (hc : In kl ku jl ju il iu c) :
    let b := (toPrim p ad mag m bf kl ku jl ju il iu s).bcc
    b (0, c) = faceAve m.uni.1 m.x1 c.2.2 (bf.x1f c) (bf.x1f (c.1, c.2.1, c.2.2 + 1)) ∧
    b (1, c) = faceAve m.uni.2.1 m.x2 c.2.1 (bf.x2f c) (bf.x2f (c.1, c.2.1 + 1, c.2.2)) ∧
    b (2, c) = faceAve m.uni.2.2 m.x3 c.1 (bf.x3f c) (bf.x3f (c.1 + 1, c.2.1, c.2.2)) := by
  intro b
  have hb : b = bccOf mag m bf kl ku jl ju il iu s.bcc := toPrim_bcc s
  have h := cellField_val (m := m) (bf := bf) hc s.bcc
  rw [hb]
  unfold bccOf
  rw [if_pos hm]
  have e : ∀ n, cellField m bf kl ku jl ju il iu s.bcc (n, c) = col (cellField m bf kl ku jl ju il iu s.bcc) c n := fun _ => rfl
  simp only [e, h]
  simp

/-! ## Passive scalars -/

theorem scalar_val {ns : Int} {d : A3 K} {a : A4 K × A4 K} {n : Int} (hn : 0 ≤ n ∧ n < ns) (hc : In kl ku jl ju il iu c) :
    let a' := scalarToPrim p ns d kl ku jl ju il iu a
    (a'.1 (n, c), a'.2 (n, c)) =
      ((if a.1 (n, c) < p.sfloor * d c then p.sfloor * d c else a.1 (n, c)),
       (if a.1 (n, c) < p.sfloor * d c then p.sfloor * d c else a.1 (n, c)) / d c) := by
  intro a'
  refine Verif.Grid.loop_once (fun a : A4 K × A4 K => (a.1 (n, c), a.2 (n, c)))
    (fun x => ((if x.1 < p.sfloor * d c then p.sfloor * d c else x.1), (if x.1 < p.sfloor * d c then p.sfloor * d c else x.1) / d c))
    0 (ns - 1) _ n hn.1 (by omega) (fun st => ?_) (fun n' hne st => ?_) a
  · refine cells_hit (fun a : A4 K × A4 K => (a.1 (n, c), a.2 (n, c)))
      (fun x => ((if x.1 < p.sfloor * d c then p.sfloor * d c else x.1), (if x.1 < p.sfloor * d c then p.sfloor * d c else x.1) / d c))
      hc _ (fun st => ?_) (fun c' hne st => ?_) st
    · simp
    · have h : (n, c) ≠ (n, c') := by simpa [eq_comm] using hne
      simp only [Function.update_of_ne h]
  · refine cells_keep (fun a : A4 K × A4 K => (a.1 (n, c), a.2 (n, c))) _ (fun c' _ st => ?_) st
    have h : (n, c) ≠ (n', c') := by simp [hne.symm]
    simp only [Function.update_of_ne h]

/-- **Passive scalars.** The concentration is at least the floor, the mass is the concentration times the density, and
a mass at or above the floor is not changed (`d` is the density, positive by the density floor). -/
theorem scalar_to_prim {ns : Int} {d : A3 K} {a : A4 K × A4 K} {n : Int} (hn : 0 ≤ n ∧ n < ns) (hc : In kl ku jl ju il iu c)
    (hd : 0 < d c) :
    let a' := scalarToPrim p ns d kl ku jl ju il iu a
    p.sfloor ≤ a'.2 (n, c) ∧ a'.1 (n, c) = d c * a'.2 (n, c) ∧ a'.1 (n, c) = max (a.1 (n, c)) (p.sfloor * d c) := by
  intro a'
  have h := scalar_val (p := p) (d := d) (a := a) hn hc
  have h1 : a'.1 (n, c) = _ := congrArg Prod.fst h
  have h2 : a'.2 (n, c) = _ := congrArg Prod.snd h
  simp only at h1 h2
  have hge : p.sfloor * d c ≤ (if a.1 (n, c) < p.sfloor * d c then p.sfloor * d c else a.1 (n, c)) := by split <;> linarith
  refine ⟨?_, ?_, ?_⟩
  · rw [h2, le_div_iff₀ hd]; exact hge
  · rw [h1, h2]; field_simp
  · rw [h1, max_def]
    split <;> split <;> linarith

/-- **Passive scalars, round trip**: concentrations at or above the floor are recovered, and the mass too. -/
theorem scalar_round_trip {ns : Int} {d : A3 K} {s r r0 : A4 K} {n : Int} (hn : 0 ≤ n ∧ n < ns) (hc : In kl ku jl ju il iu c)
    (hd : 0 < d c) (hr : p.sfloor ≤ r (n, c)) :
    let s1 := scalarToCons ns d r kl ku jl ju il iu s
    let a := scalarToPrim p ns d kl ku jl ju il iu (s1, r0)
    a.2 (n, c) = r (n, c) ∧ a.1 (n, c) = s1 (n, c) ∧ s1 (n, c) = r (n, c) * d c := by
  intro s1 a
  have e : s1 (n, c) = r (n, c) * d c :=
    assign_val (nu := ns - 1) (fun n c => r (n, c) * d c) s ⟨hn.1, by omega⟩ hc
  obtain ⟨-, h2, h3⟩ := scalar_to_prim (p := p) (a := (s1, r0)) hn hc hd
  have h4 : a.1 (n, c) = r (n, c) * d c := by
    rw [h3]
    show max (s1 (n, c)) _ = _
    rw [e]
    exact max_eq_left (mul_le_mul_of_nonneg_right hr hd.le)
  refine ⟨?_, ?_, e⟩
  · have : d c * a.2 (n, c) = d c * r (n, c) := by rw [← h2, h4]; ring
    exact mul_left_cancel₀ hd.ne' this
  · rw [h4, e]

/-! ## Fourth order -/

theorem avg_val {f2 f3 : Bool} {t : Scr K} (hc : In kl ku jl ju il iu c) :
    let C := m.x1.dxf il * m.x1.dxf il / 24
    let s' := (toPrimAvg p ad mag f2 f3 m bf kl ku jl ju il iu s t).1
    ∃ (b u w : Col K), col s'.bcc c = b ∧
      (∀ n, IsVar ad n → u n = s.cons (n, c) - C * lapAt f2 f3 m s.cons n c) ∧
      (∀ n, IsVar ad n → w n = (toPrimCell p ad mag b u (col t.wcc c)).2 n + C * lapAt f2 f3 m s.prim n c) ∧
      (col s'.prim c, col s'.cons c) = primConsFloors p ad mag b w (col s.cons c) := by
  intro C
  unfold toPrimAvg
  extract_lets nu h C' lap1 ucc lap2 r prim s'
  have hnu : ∀ n, IsVar ad n ↔ 0 ≤ n ∧ n ≤ nu := fun n => Iff.rfl
  have hb : s'.bcc = r.bcc := by
    refine (cells_keep (fun s : St K => s.bcc) _ (fun c _ st => ?_) _).trans ?_ <;> rfl
  refine ⟨col r.bcc c, col ucc c, col prim c, by rw [hb], fun n hn => ?_, fun n hn => ?_, ?_⟩
  · have h1 : ucc (n, c) = s.cons (n, c) + -C' * lap1 (n, c) := assign_val _ _ ((hnu n).1 hn) hc
    have h2 : lap1 (n, c) = lapAt f2 f3 m s.cons n c := assign_val _ _ ((hnu n).1 hn) hc
    show ucc (n, c) = _
    rw [h1, h2]
    show _ + -C * _ = _
    ring
  · have h1 : prim (n, c) = r.prim (n, c) + C' * lap2 (n, c) := assign_val _ _ ((hnu n).1 hn) hc
    have h2 : lap2 (n, c) = lapAt f2 f3 m s.prim n c := assign_val _ _ ((hnu n).1 hn) hc
    have h3 := toPrim_val (p := p) (ad := ad) (mag := mag) (m := m) (bf := bf) ⟨ucc, t.wcc, s.bcc⟩ hc
    have h4 : col r.prim c = _ := congrArg Prod.snd h3
    show prim (n, c) = _
    rw [h1, h2, show r.prim (n, c) = col r.prim c n from rfl, h4]
  · have h := cells_hit (fun s : St K => (col s.bcc c, col s.prim c, col s.cons c))
      (fun x => (x.1, primConsFloors p ad mag x.1 x.2.1 x.2.2)) hc (fun c s =>
      let r := primConsFloors p ad mag (col s.bcc c) (col s.prim c) (col s.cons c)
      ({ s with prim := putCol s.prim c r.1, cons := putCol s.cons c r.2 } : St K))
      (fun st => by simp only [col_putCol, Prod.mk.eta])
      (fun c' hne st => by simp only [col_putCol_ne _ hne]) ⟨s.cons, prim, r.bcc⟩
    exact congrArg Prod.snd h

/-- **Fourth order: floors.** -/
theorem avg_floors {f2 f3 : Bool} {t : Scr K} (hc : In kl ku jl ju il iu c) :
    let s' := (toPrimAvg p ad mag f2 f3 m bf kl ku jl ju il iu s t).1
    p.dfloor ≤ s'.prim (0, c) ∧ (ad = true → p.pfloor ≤ s'.prim (4, c)) ∧ s'.cons (0, c) = s'.prim (0, c) ∧
    ∀ n, 1 ≤ n → n ≤ 3 → s'.cons (n, c) = s.cons (n, c) := by
  intro s'
  obtain ⟨b, u, w, -, -, -, h⟩ := avg_val (p := p) (ad := ad) (mag := mag) (m := m) (bf := bf) (s := s) (f2 := f2) (f3 := f3) (t := t) hc
  have h1 : col s'.prim c = _ := congrArg Prod.fst h
  have h2 : col s'.cons c = _ := congrArg Prod.snd h
  unfold primConsFloors at h1 h2
  have e0 : s'.prim (0, c) = if w 0 > p.dfloor then w 0 else p.dfloor := by
    show col s'.prim c 0 = _
    rw [h1]; cases ad <;> simp
  have e0' : s'.cons (0, c) = if w 0 > p.dfloor then w 0 else p.dfloor := by
    show col s'.cons c 0 = _
    rw [h2]; cases ad <;> simp
  refine ⟨by rw [e0]; exact floor_le _ _, fun had => ?_, by rw [e0, e0'], fun n hn1 hn2 => ?_⟩
  · show _ ≤ col s'.prim c 4
    rw [h1, if_pos had]
    simp only [Function.update_self]
    exact floor_le _ _
  · have : n = 1 ∨ n = 2 ∨ n = 3 := by omega
    show col s'.cons c n = _
    rw [h2]
    rcases this with rfl | rfl | rfl <;> cases ad <;> simp [col]

/-- **Fourth order: mass conservation.** Where the primitive density passed in equals the conserved one (the cell and
its six neighbours) and no density floor is hit, the conserved density is not changed; where moreover the new pressure
is above the floor, neither is the energy. -/
theorem avg_conserves {f2 f3 : Bool} {t : Scr K} (hc : In kl ku jl ju il iu c)
    (heq : ∀ a b e : Int, -1 ≤ a ∧ a ≤ 1 → -1 ≤ b ∧ b ≤ 1 → -1 ≤ e ∧ e ≤ 1 →
      s.prim (0, c.1 + a, c.2.1 + b, c.2.2 + e) = s.cons (0, c.1 + a, c.2.1 + b, c.2.2 + e))
    (h0 : p.dfloor ≤ s.cons (0, c))
    (h1 : p.dfloor ≤ s.cons (0, c) - m.x1.dxf il * m.x1.dxf il / 24 * lapAt f2 f3 m s.cons 0 c) :
    let s' := (toPrimAvg p ad mag f2 f3 m bf kl ku jl ju il iu s t).1
    s'.cons (0, c) = s.cons (0, c) ∧ s'.prim (0, c) = s.cons (0, c) ∧
    (ad = true → p.pfloor < s'.prim (4, c) → s'.cons (4, c) = s.cons (4, c)) := by
  intro s'
  obtain ⟨b, u, w, -, hu, hw, h⟩ := avg_val (p := p) (ad := ad) (mag := mag) (m := m) (bf := bf) (s := s) (f2 := f2) (f3 := f3) (t := t) hc
  have e1 : col s'.prim c = _ := congrArg Prod.fst h
  have e2 : col s'.cons c = _ := congrArg Prod.snd h
  have v0 : IsVar ad 0 := ⟨le_refl _, by cases ad <;> norm_num⟩
  obtain ⟨⟨-, hd⟩, -⟩ := toPrimCell_entries (p := p) (ad := ad) (mag := mag) (b := b) (u := u) (w := col t.wcc c)
  have hw0 : w 0 = s.cons (0, c) := by
    rw [hw 0 v0, hd, floor_of_le (by rw [hu 0 v0]; exact h1), hu 0 v0]
    have : lapAt f2 f3 m s.prim 0 c = lapAt f2 f3 m s.cons 0 c := by
      have e0 := heq 0 0 0 (by decide) (by decide) (by decide)
      have e1 := heq 0 0 (-1) (by decide) (by decide) (by decide)
      have e2 := heq 0 0 1 (by decide) (by decide) (by decide)
      have e3 := heq 0 (-1) 0 (by decide) (by decide) (by decide)
      have e4 := heq 0 1 0 (by decide) (by decide) (by decide)
      have e5 := heq (-1) 0 0 (by decide) (by decide) (by decide)
      have e6 := heq 1 0 0 (by decide) (by decide) (by decide)
      simp only [add_zero, ← sub_eq_add_neg] at e0 e1 e2 e3 e4 e5 e6
      have e0' : s.prim (0, c) = s.cons (0, c) := e0
      unfold lapAt
      rw [e0', e1, e2, e3, e4, e5, e6]
    rw [this]
    ring
  unfold primConsFloors at e1 e2
  have hf : (if w 0 > p.dfloor then w 0 else p.dfloor) = s.cons (0, c) := by
    rw [floor_of_le (by rw [hw0]; exact h0), hw0]
  simp only [hf] at e1 e2
  refine ⟨?_, ?_, fun had hq => ?_⟩
  · show col s'.cons c 0 = _
    rw [e2]; cases ad <;> simp
  · show col s'.prim c 0 = _
    rw [e1]; cases ad <;> simp
  · have hq' : p.pfloor < col s'.prim c 4 := hq
    rw [e1, if_pos had] at hq'
    simp only [Function.update_self] at hq'
    have hlt : w 4 > p.pfloor := by
      by_contra hn
      rw [if_neg hn] at hq'
      exact lt_irrefl _ hq'
    show col s'.cons c 4 = _
    rw [e2, if_pos had]
    simp only [Function.update_self, if_pos hlt]
    rfl

/-- **Fourth order: uniform surroundings.** Where the second differences of all variables vanish (uniform or linear
states) the result is that of the second-order conversion: the primitive variables `w` of the same gas, and the
conserved variables given. -/
theorem avg_flat {f2 f3 : Bool} {t : Scr K} {w : Col K} (hp : p.Ok) (hc : In kl ku jl ju il iu c)
    (hlu : ∀ n, IsVar ad n → lapAt f2 f3 m s.cons n c = 0) (hlw : ∀ n, IsVar ad n → lapAt f2 f3 m s.prim n c = 0)
    (hs : Same p.gamma ad mag (col (toPrimAvg p ad mag f2 f3 m bf kl ku jl ju il iu s t).1.bcc c) w (col s.cons c))
    (hd : p.dfloor ≤ w 0) (hq : ad = true → p.pfloor ≤ w 4) {n : Int} (hn : IsVar ad n) :
    let s' := (toPrimAvg p ad mag f2 f3 m bf kl ku jl ju il iu s t).1
    s'.prim (n, c) = w n ∧ s'.cons (n, c) = s.cons (n, c) := by
  intro s'
  obtain ⟨b, u, w', hb, hu, hw, h⟩ := avg_val (p := p) (ad := ad) (mag := mag) (m := m) (bf := bf) (s := s) (f2 := f2) (f3 := f3) (t := t) hc
  rw [hb] at hs
  have hu' : ∀ n, IsVar ad n → u n = s.cons (n, c) := fun n hn => by rw [hu n hn, hlu n hn]; ring
  have v0 : IsVar ad 0 := ⟨le_refl _, by cases ad <;> norm_num⟩
  have v3 : ∀ n, 1 ≤ n → n ≤ 3 → IsVar ad n := fun n h1 h2 => ⟨by omega, by cases ad <;> simp <;> omega⟩
  have hs' : Same p.gamma ad mag b w u := ⟨by rw [hu' 0 v0]; exact hs.density,
    fun n h1 h2 => by rw [hu' n (v3 n h1 h2)]; exact hs.momentum n h1 h2,
    fun had => by
      have v4 : IsVar ad 4 := by subst had; exact ⟨by norm_num, by norm_num⟩
      rw [hu' 4 v4]; exact hs.energy had⟩
  have hw' : ∀ n, IsVar ad n → w' n = w n := fun n hn => by
    rw [hw n hn, hlw n hn, (toPrimCell_of_same (w0 := col t.wcc c) hp hs' hd hq hn).2]; ring
  have e1 : col s'.prim c = _ := congrArg Prod.fst h
  have e2 : col s'.cons c = _ := congrArg Prod.snd h
  unfold primConsFloors at e1 e2
  have hf : (if w' 0 > p.dfloor then w' 0 else p.dfloor) = w 0 := by
    rw [floor_of_le (by rw [hw' 0 v0]; exact hd), hw' 0 v0]
  have h0 : s.cons (0, c) = w 0 := hs.density
  simp only [hf] at e1 e2
  cases ad
  · simp only [Bool.false_eq_true, if_false] at e1 e2
    constructor
    · show col s'.prim c n = _
      rw [e1]
      by_cases hz : n = 0
      · subst hz; simp
      · rw [Function.update_of_ne hz]; exact hw' n hn
    · show col s'.cons c n = _
      rw [e2]
      by_cases hz : n = 0
      · subst hz; simp [h0]
      · rw [Function.update_of_ne hz]; rfl
  · have v4 : IsVar true 4 := ⟨by norm_num, by norm_num⟩
    have hf4 : (if w' 4 > p.pfloor then w' 4 else p.pfloor) = w 4 := by
      rw [floor_of_le (by rw [hw' 4 v4]; exact hq rfl), hw' 4 v4]
    simp only [if_true, hf4] at e1 e2
    constructor
    · show col s'.prim c n = _
      rw [e1]
      by_cases hz : n = 0
      · subst hz; simp
      by_cases h4 : n = 4
      · subst h4; simp
      simp only [ne_eq, hz, h4, not_false_eq_true, Function.update_of_ne]
      exact hw' n hn
    · show col s'.cons c n = _
      rw [e2]
      by_cases hz : n = 0
      · subst hz; simp [h0]
      by_cases h4 : n = 4
      · subst h4
        simp only [Function.update_self]
        split
        · rfl
        · rename_i hnn
          have hw4 : w 4 = p.pfloor := by
            have := hq rfl
            rw [hw' 4 v4] at hnn
            exact le_antisymm (not_lt.1 hnn) this
          have he := hs.energy rfl
          rw [magP_eq, hw' 1 (v3 1 (by norm_num) (by norm_num)), hw' 2 (v3 2 (by norm_num) (by norm_num)),
            hw' 3 (v3 3 (by norm_num) (by norm_num)), ← hw4]
          show _ = col s.cons c 4
          rw [he]
          ring
      simp only [ne_eq, hz, h4, not_false_eq_true, Function.update_of_ne]
      rfl

theorem scalar_avg_keep {nx2 nx3 ns : Int} {n : Int} {c : Int × Int × Int}
    (hoff : ∀ n', 0 ≤ n' → n' < ns → (n, c) ≠ at2 nx2 nx3 n' c.2.2) (hn : 0 ≤ n ∧ n < ns) (hc : In kl ku jl ju il iu c)
    (v : Int → Int × Int × Int → K) (r : A4 K) :
    (Verif.Arr.loop 0 (ns - 1) (fun n => cells kl ku jl ju il iu fun c r =>
      scalarFloor4 p nx2 nx3 n c.2.2 (Function.update r (n, c) (v n c))) r) (n, c) = v n c := by
  have hne : ∀ n' i', 0 ≤ n' → n' < ns → (n, c) ≠ at2 nx2 nx3 n' i' := by
    intro n' i' h1 h2 h
    have hi : c.2.2 = i' := congrArg (fun q : Int × Int × Int × Int => q.2.2.2) h
    exact hoff n' h1 h2 (by rw [hi]; exact h)
  refine Verif.Grid.loop_hit (fun r : A4 K => r (n, c)) _ 0 (ns - 1) _ n hn.1 (by omega) (fun st => ?_)
    (fun n' h1 h2 hnn st => ?_) r
  · have := cells_hit (fun r : A4 K => r (n, c)) (fun _ => v n c) hc (fun c r =>
      scalarFloor4 p nx2 nx3 n c.2.2 (Function.update r (n, c) (v n c))) (fun st => ?_) (fun c' hc' st => ?_) st
    · exact this
    · show scalarFloor4 p nx2 nx3 n c.2.2 _ (n, c) = _
      unfold scalarFloor4
      rw [Function.update_of_ne (hne _ _ hn.1 hn.2), Function.update_self]
    · show scalarFloor4 p nx2 nx3 n c'.2.2 _ (n, c) = _
      unfold scalarFloor4
      rw [Function.update_of_ne (hne _ _ hn.1 hn.2), Function.update_of_ne (by simpa [eq_comm] using hc')]
  · refine cells_keep (fun r : A4 K => r (n, c)) _ (fun c' _ st => ?_) st
    show scalarFloor4 p nx2 nx3 n' c'.2.2 _ (n, c) = _
    unfold scalarFloor4
    rw [Function.update_of_ne (hne _ _ h1 (by omega)), Function.update_of_ne (by simp [hnn.symm])]

/-- **Fourth order, scalars, more than one dimension: the floor is not applied.** The call floors `r(n,i)`, the row
`j = n` (for `n < nx2`) of the first scalar, not `r(n,k,j,i)`. Every other cell keeps the value before the floor. -/
theorem scalar_avg_unfloored {ns nx2 nx3 : Int} {f2 f3 : Bool} {d : A3 K} {sc r : A4 K} {t : Scr K} {n : Int}
    (hn : 0 ≤ n ∧ n < ns) (hc : In kl ku jl ju il iu c)
    (hoff : ∀ n', 0 ≤ n' → n' < ns → (n, c) ≠ at2 nx2 nx3 n' c.2.2) :
    let C := m.x1.dxf il * m.x1.dxf il / 24
    let q := sc (n, c) - C * lapAt f2 f3 m sc n c
    (scalarToPrimAvg p ns nx2 nx3 f2 f3 m d kl ku jl ju il iu sc r t).1 (n, c)
      = (if q < p.sfloor * d c then p.sfloor * d c else q) / d c + C * lapAt f2 f3 m r n c := by
  intro C q
  unfold scalarToPrimAvg
  extract_lets nu h C' lap1 scc lap2 q'
  have hv : 0 ≤ n ∧ n ≤ nu := ⟨hn.1, by show n ≤ ns - 1; omega⟩
  have e1 : lap1 (n, c) = lapAt f2 f3 m sc n c := assign_val _ _ hv hc
  have e2 : scc (n, c) = q := by
    have : scc (n, c) = sc (n, c) + -C' * lap1 (n, c) := assign_val _ _ hv hc
    rw [this, e1]
    show _ + -C * _ = sc (n, c) - C * _
    ring
  have e3 : lap2 (n, c) = lapAt f2 f3 m r n c := assign_val _ _ hv hc
  have e4 := congrArg Prod.snd (scalar_val (p := p) (d := d) (a := (scc, t.wcc)) hn hc)
  simp only [e2] at e4
  refine (scalar_avg_keep (p := p) hoff hn hc (fun n c => q'.2 (n, c) + C' * lap2 (n, c)) r).trans ?_
  show q'.2 (n, c) + C' * lap2 (n, c) = _
  rw [e3]
  exact congrArg (· + _) e4

/-- **Fourth order, scalars: one dimension.** The concentrations are at least the floor. -/
theorem scalar_avg_floor_1d {ns : Int} {f2 f3 : Bool} {d : A3 K} {sc r : A4 K} {t : Scr K} {n i : Int} (hn : 0 ≤ n ∧ n < ns)
    (hi : il ≤ i ∧ i ≤ iu) :
    p.sfloor ≤ (scalarToPrimAvg p ns 1 1 f2 f3 m d 0 0 0 0 il iu sc r t).1 (n, 0, 0, i) := by
  unfold scalarToPrimAvg
  extract_lets nu h C lap1 scc lap2 q
  have hat : ∀ n i : Int, at2 1 1 n i = (n, 0, 0, i) := fun n i => by simp [at2]
  have l1 : ∀ (B : Int → A4 K → A4 K) st, Verif.Arr.loop 0 0 B st = B 0 st := fun B st => rfl
  have key := Verif.Grid.loop_hit (fun r : A4 K => r (n, 0, 0, i))
    (let v := q.2 (n, 0, 0, i) + C * lap2 (n, 0, 0, i); if v > p.sfloor then v else p.sfloor) 0 nu
    (fun n => cells 0 0 0 0 il iu fun c r =>
      scalarFloor4 p 1 1 n c.2.2 (Function.update r (n, c) (q.2 (n, c) + C * lap2 (n, c)))) n hn.1
      (by show n ≤ ns - 1; omega) (fun st => ?_) (fun n' _ _ hne st => ?_) r
  · show _ ≤ (Verif.Arr.loop 0 nu (fun n => cells 0 0 0 0 il iu fun c r =>
      scalarFloor4 p 1 1 n c.2.2 (Function.update r (n, c) (q.2 (n, c) + C * lap2 (n, c)))) r) (n, 0, 0, i)
    rw [key]
    exact floor_le _ _
  · unfold cells
    simp only [l1]
    refine Verif.Grid.loop_hit (fun r : A4 K => r (n, 0, 0, i)) _ il iu _ i hi.1 hi.2 (fun st => ?_) (fun i' _ _ hne st => ?_) st
    · simp only [scalarFloor4, hat, Function.update_self]
    · simp only [scalarFloor4, hat]
      rw [Function.update_of_ne (by simp [hne.symm]), Function.update_of_ne (by simp [hne.symm])]
  · unfold cells
    simp only [l1]
    refine Verif.Grid.loop_keep (fun r : A4 K => r (n, 0, 0, i)) _ _ _ (fun i' _ _ st => ?_) st
    simp only [scalarFloor4, hat]
    rw [Function.update_of_ne (by simp [hne.symm]), Function.update_of_ne (by simp [hne.symm])]

end

/-! ## Concrete cases -/

/-- A 3D test mesh with non-uniform `x1`. -/
def exMesh : Mesh3 ℚ :=
  let l : Line ℚ := ⟨fun i => i, fun i => i + 1/2, fun _ => 1, fun _ => 1⟩
  ⟨(false, true, true), ⟨fun i => i, fun i => i + 1/4, fun _ => 1, fun _ => 1⟩, l, l⟩

def exPar : Par ℚ := ⟨5/3, 1/100, 1/50, 1/10⟩

example : exPar.Ok := ⟨by decide +kernel, by decide +kernel, by decide +kernel⟩

def exFace : FF ℚ := ⟨fun c => c.2.2, fun _ => 2, fun c => -c.1⟩

/-- A state with an ordinary cell (`i = 0`), one below the pressure floor (`i = 1`) and one below both (`i = 2`). -/
def exSt : St ℚ :=
  ⟨fun q => if q.1 = 0 then (if q.2.2.2 = 2 then 1/1000 else 2) else if q.1 ≤ 3 then q.1
    else (if q.2.2.2 = 0 then 20 else 1), fun _ => 0, fun _ => 0⟩

example : In 0 1 0 1 0 2 ((1, 1, 2) : Int × Int × Int) := by unfold In; decide

/-- The three cases of `cons_to_prim_conserves` all occur. -/
example :
    let s' := toPrim exPar true true exMesh exFace 0 1 0 1 0 2 exSt
    (s'.cons (4, 0, 0, 0) = 20 ∧ exPar.pfloor < s'.prim (4, 0, 0, 0) ∧ s'.cons (0, 0, 0, 0) = 2) ∧
    (s'.cons (0, 0, 0, 1) = 2 ∧ s'.prim (4, 0, 0, 1) = exPar.pfloor ∧ 1 < s'.cons (4, 0, 0, 1)) ∧
    (s'.cons (0, 0, 0, 2) = exPar.dfloor ∧ s'.prim (1, 0, 0, 2) = 100 ∧ s'.cons (1, 0, 0, 2) = 1) := by
  decide +kernel

/-- The hypotheses of `prim_round_trip` are met, with a field: the result of a conversion. -/
example :
    let s := toPrim exPar true true exMesh exFace 0 1 0 1 0 2 exSt
    exPar.dfloor ≤ s.prim (0, 1, 1, 2) ∧ exPar.pfloor ≤ s.prim (4, 1, 1, 2) ∧
    (∀ n ∈ [0, 1, 2], cellField exMesh exFace 0 1 0 1 0 2 s.bcc (n, 1, 1, 2) = s.bcc (n, 1, 1, 2)) ∧
    s.bcc (0, 1, 1, 2) = 9/4 := by
  decide +kernel

example : IsVar true 4 := by unfold IsVar; decide
example : IsVar false 3 := by unfold IsVar; decide

/-- `cell_field` on the non-uniform direction. -/
example : exMesh.x1.dxf 3 = exMesh.x1.xf 4 - exMesh.x1.xf 3 ∧ exMesh.x1.xf 3 < exMesh.x1.xv 3 ∧
    exMesh.x1.xv 3 < exMesh.x1.xf 4 ∧ faceAve false exMesh.x1 3 (0 : ℚ) 1 = 1/4 := by decide +kernel

def exScr : Scr ℚ := ⟨fun _ => 0, fun _ => 0, fun _ => 0⟩

/-- Fourth order: a state with varying density for which the hypotheses of `avg_conserves` hold. -/
def exSt4 : St ℚ :=
  ⟨fun q => if q.1 = 0 then 2 + q.2.2.2 ^ 2 / 4 else if q.1 ≤ 3 then q.1 else 20,
   fun q => if q.1 = 0 then 2 + q.2.2.2 ^ 2 / 4 else if q.1 ≤ 3 then 1 else 10, fun _ => 0⟩

example :
    exPar.dfloor ≤ exSt4.cons (0, 1, 1, 1) ∧
    exPar.dfloor ≤ exSt4.cons (0, 1, 1, 1) - exMesh.x1.dxf 0 * exMesh.x1.dxf 0 / 24 * lapAt true true exMesh exSt4.cons 0 (1, 1, 1) ∧
    lapAt true true exMesh exSt4.cons 0 (1, 1, 1) ≠ 0 ∧
    exPar.pfloor < (toPrimAvg exPar true false true true exMesh exFace 0 1 0 1 0 2 exSt4 exScr).1.prim (4, 1, 1, 1) := by
  decide +kernel

/-- `avg_flat`: a uniform state. -/
example :
    let s : St ℚ := ⟨fun q => if q.1 = 0 then 2 else if q.1 ≤ 3 then q.1 else 20, fun _ => 1, fun _ => 0⟩
    let b := (toPrimAvg exPar true true true true exMesh exFace 0 1 0 1 0 2 s exScr).1.bcc
    let w : Col ℚ := fun n => if n = 0 then 2 else if n ≤ 3 then n / 2
      else 2/3 * (20 - 14/4 - (b (0, 1, 1, 1) ^ 2 + b (1, 1, 1, 1) ^ 2 + b (2, 1, 1, 1) ^ 2) / 2)
    (∀ n ∈ [0, 1, 2, 3, 4], lapAt true true exMesh s.cons n (1, 1, 1) = 0 ∧ lapAt true true exMesh s.prim n (1, 1, 1) = 0) ∧
    s.cons (4, 1, 1, 1) = w 4 / (exPar.gamma - 1) + w 0 * (w 1 ^ 2 + w 2 ^ 2 + w 3 ^ 2) / 2
      + (b (0, 1, 1, 1) ^ 2 + b (1, 1, 1, 1) ^ 2 + b (2, 1, 1, 1) ^ 2) / 2 ∧
    (∀ n ∈ [1, 2, 3], s.cons (n, 1, 1, 1) = w 0 * w n) ∧ exPar.pfloor ≤ w 4 := by
  decide +kernel

/-- **The scalar floor in two dimensions.** One scalar on a block of four rows: the concentration left in row 2 is
negative although the floor is `1/10`; the floor went to row 0. -/
theorem scalar_avg_floor_2d_fails :
    let r' := (scalarToPrimAvg exPar 1 4 1 true false exMesh (fun _ => 1) 0 0 1 2 1 2
      (fun _ => 1/10) (fun q => if q.2.2 = (2, 1) then 1 else 1/10) exScr).1
    r' (0, 0, 2, 1) < 0 ∧ exPar.sfloor = 1/10 := by
  decide +kernel

/-- The cell meets the hypothesis of `scalar_avg_unfloored`. -/
example : ∀ n' : Int, 0 ≤ n' → n' < 1 → ((0 : Int), (0 : Int), (2 : Int), (1 : Int)) ≠ at2 4 1 n' 1 := by
  intro n' h1 h2
  have : n' = 0 := by omega
  subst this
  decide

end Verif.Eos
