import Verif.Lemmas.TimeStep
import Mathlib.Analysis.SpecialFunctions.Pow.NNReal

/-!
# Limits of a block and signal speeds (C49, C58)
-/
namespace Verif.TimeStep
open Verif.Grid Verif.Arr
set_option linter.unusedSectionVars false

section
variable {K : Type} [Field K] [LinearOrder K] [IsStrictOrderedRing K]
variable {q : In K} {sts d2 d3 : Bool} {is ie js je ks ke : Int}

/-- Direction `d` is evolved. -/
def Active (d2 d3 : Bool) (d : Int) : Prop := d = 0 ∨ (d = 1 ∧ d2 = true) ∨ (d = 2 ∧ d3 = true)

theorem hypLoop_hit (m : K) {k j i d : Int} (hk : ks ≤ k ∧ k ≤ ke) (hj : js ≤ j ∧ j ≤ je) (hi : is ≤ i ∧ i ≤ ie)
    (hd : Active d2 d3 d) (hs : q.speed d (k, j, i) ≠ 0) :
    hypLoop q d2 d3 is ie js je ks ke m ≤ q.width d (k, j, i) / q.speed d (k, j, i) := by
  have dec1 : ∀ (d k j : Int) (m : K), loop is ie (fun i m => cut m (q.width d (k, j, i)) (q.speed d (k, j, i))) m ≤ m :=
    fun d k j m => loop_dec _ _ _ (fun i _ _ m => cut_le _ _ _) m
  have hit1 : ∀ (m : K), loop is ie (fun i m => cut m (q.width d (k, j, i)) (q.speed d (k, j, i))) m
      ≤ q.width d (k, j, i) / q.speed d (k, j, i) :=
    fun m => loop_le is ie (fun i m => cut m (q.width d (k, j, i)) (q.speed d (k, j, i))) i hi.1 hi.2
      (fun i _ _ m => cut_le _ _ _) (fun m => cut_hit _ _ hs) m
  have dec2 : ∀ (k j : Int) (m : K), (let m := loop is ie (fun i m => cut m (q.width 0 (k, j, i)) (q.speed 0 (k, j, i))) m
      let m := if d2 then loop is ie (fun i m => cut m (q.width 1 (k, j, i)) (q.speed 1 (k, j, i))) m else m
      if d3 then loop is ie (fun i m => cut m (q.width 2 (k, j, i)) (q.speed 2 (k, j, i))) m else m) ≤ m := by
    intro k j m
    simp only
    have a1 := dec1 0 k j m
    split <;> split
    · exact le_trans (dec1 2 _ _ _) (le_trans (dec1 1 _ _ _) a1)
    · exact le_trans (dec1 2 _ _ _) a1
    · exact le_trans (dec1 1 _ _ _) a1
    · exact a1
  unfold hypLoop
  refine loop_le _ _ _ k hk.1 hk.2 (fun k _ _ m => loop_dec _ _ _ (fun j _ _ m => dec2 k j m) m) (fun m => ?_) m
  refine loop_le _ _ _ j hj.1 hj.2 (fun j _ _ m => dec2 k j m) (fun m => ?_) m
  simp only
  rcases hd with rfl | ⟨rfl, h⟩ | ⟨rfl, h⟩
  · have a1 := hit1 m
    split <;> split
    · exact le_trans (dec1 2 _ _ _) (le_trans (dec1 1 _ _ _) a1)
    · exact le_trans (dec1 2 _ _ _) a1
    · exact le_trans (dec1 1 _ _ _) a1
    · exact a1
  · rw [if_pos h]
    split
    · exact le_trans (dec1 2 _ _ _) (hit1 _)
    · exact hit1 _
  · rw [if_pos h]; exact hit1 _

/-- **Courant condition.** In one step no signal crosses more than the fraction `cfl` of a cell (times the implicit
radiation factor), in any active cell and direction. -/
theorem courant {k j i d : Int} (hk : ks ≤ k ∧ k ≤ ke) (hj : js ≤ j ∧ j ≤ je) (hi : is ≤ i ∧ i ≤ ie) (hd : Active d2 d3 d)
    (hw : 0 ≤ q.width d (k, j, i)) (hs : 0 ≤ q.speed d (k, j, i)) (hc : 0 ≤ q.cfl) (hr : ∀ r, q.crad = some r → 0 ≤ r) :
    (newBlockDt q sts d2 d3 is ie js je ks ke).dt * q.speed d (k, j, i) ≤ q.cfl * q.crad.getD 1 * q.width d (k, j, i) := by
  have hcr : 0 ≤ q.crad.getD 1 := by
    cases h : q.crad with
    | none => simp
    | some r => simpa using hr r h
  rcases eq_or_lt_of_le hs with h0 | h0
  · rw [← h0, mul_zero]; exact mul_nonneg (mul_nonneg hc hcr) hw
  set H := hypLoop q d2 d3 is ie js je ks ke q.realMax with hH
  have h1 : H ≤ _ := hypLoop_hit q.realMax hk hj hi hd h0.ne'
  have hm : ∀ (m : K) o, minOpt m o ≤ m := fun m o => by cases o <;> simp [minOpt]
  have h2 : (newBlockDt q sts d2 d3 is ie js je ks ke).dt ≤ minOpt H q.hall * q.cfl * q.crad.getD 1 := by
    have e : ∀ z : K, mulOpt z q.crad = z * q.crad.getD 1 := fun z => by cases q.crad <;> simp [mulOpt]
    unfold newBlockDt
    simp only [← hH, e]
    have b1 : min q.realMax (minOpt (minOpt H q.hall * q.cfl * q.crad.getD 1) q.orb) ≤ minOpt H q.hall * q.cfl * q.crad.getD 1 :=
      le_trans (min_le_right _ _) (hm _ _)
    have b2 : minOpt (min q.realMax (minOpt (minOpt H q.hall * q.cfl * q.crad.getD 1) q.orb)) q.user
        ≤ minOpt H q.hall * q.cfl * q.crad.getD 1 := le_trans (hm _ _) b1
    split
    · exact b2
    · exact le_trans (min_le_left _ _) b2
  have h3 : minOpt H q.hall * q.cfl * q.crad.getD 1 ≤ q.width d (k, j, i) / q.speed d (k, j, i) * q.cfl * q.crad.getD 1 :=
    mul_le_mul_of_nonneg_right (mul_le_mul_of_nonneg_right (le_trans (hm _ _) h1) hc) hcr
  calc _ ≤ q.width d (k, j, i) / q.speed d (k, j, i) * q.cfl * q.crad.getD 1 * q.speed d (k, j, i) :=
        mul_le_mul_of_nonneg_right (le_trans h2 h3) hs
    _ = _ := by field_simp

/-- **The other limits of a block**: user function, orbital advection, Hall term and, without super-time-stepping,
every diffusive process; with it the diffusive limit is stored but not applied. -/
theorem block_limits (hc : 0 ≤ q.cfl) (hr : ∀ r, q.crad = some r → 0 ≤ r) :
    let b := newBlockDt q sts d2 d3 is ie js je ks ke
    b.dt ≤ b.hyp ∧ (∀ u, q.user = some u → b.dt ≤ u ∧ b.usr = u) ∧ (∀ o, q.orb = some o → b.dt ≤ o) ∧
    (∀ h, q.hall = some h → b.dt ≤ q.cfl * q.crad.getD 1 * h) ∧
    (∀ x ∈ q.diff, b.par ≤ q.cfl * q.crad.getD 1 * x) ∧ (sts = false → b.dt ≤ b.par) := by
  have hcr : 0 ≤ q.crad.getD 1 := by
    cases h : q.crad with
    | none => simp
    | some r => simpa using hr r h
  intro b
  set H := hypLoop q d2 d3 is ie js je ks ke q.realMax with hH
  have e : ∀ z : K, mulOpt z q.crad = z * q.crad.getD 1 := fun z => by cases q.crad <;> simp [mulOpt]
  have hb : b = newBlockDt q sts d2 d3 is ie js je ks ke := rfl
  unfold newBlockDt at hb
  simp only [← hH, e] at hb
  have hyp : b.hyp = minOpt (minOpt H q.hall * q.cfl * q.crad.getD 1) q.orb := by rw [hb]
  have par : b.par = q.diff.foldl min q.realMax * q.cfl * q.crad.getD 1 := by rw [hb]
  have dt : b.dt = (if sts = true then (minOpt (min q.realMax (minOpt (minOpt H q.hall * q.cfl * q.crad.getD 1) q.orb)) q.user) else
      min (minOpt (min q.realMax (minOpt (minOpt H q.hall * q.cfl * q.crad.getD 1) q.orb)) q.user)
       (q.diff.foldl min q.realMax * q.cfl * q.crad.getD 1)) := by rw [hb]
  have hm : ∀ (m : K) o, minOpt m o ≤ m := fun m o => by cases o <;> simp [minOpt]
  rw [← hyp] at dt
  have d0 : b.dt ≤ minOpt (min q.realMax b.hyp) q.user := by
    rw [dt]; split
    · exact le_rfl
    · exact min_le_left _ _
  have d1 : b.dt ≤ b.hyp := by
    exact le_trans d0 (le_trans (hm _ _) (min_le_right _ _))
  refine ⟨d1, fun u hu => ⟨?_, ?_⟩, fun o ho => ?_, fun h hh => ?_, fun x hx => ?_, fun hs => ?_⟩
  · rw [hu] at d0; exact le_trans d0 (min_le_right _ _)
  · rw [hb]; simp [hu]
  · refine le_trans d1 ?_
    rw [hyp, ho]; exact min_le_right _ _
  · refine le_trans d1 ?_
    rw [hyp]
    refine le_trans (hm _ _) ?_
    rw [hh]
    calc minOpt H (some h) * q.cfl * q.crad.getD 1 ≤ h * q.cfl * q.crad.getD 1 :=
          mul_le_mul_of_nonneg_right (mul_le_mul_of_nonneg_right (min_le_right _ _) hc) hcr
      _ = _ := by ring
  · rw [par]
    have := ((le_foldl_min (q.diff.foldl min q.realMax) q.diff q.realMax).1 le_rfl).2 x hx
    calc _ ≤ x * q.cfl * q.crad.getD 1 := mul_le_mul_of_nonneg_right (mul_le_mul_of_nonneg_right this hc) hcr
      _ = _ := by ring
  · rw [dt, hs, par]
    simp only [Bool.false_eq_true, if_false]
    exact min_le_right _ _

/-- **The limit of a block is positive** if everything it is computed from is. -/
theorem block_positive (hM : 0 < q.realMax) (hc : 0 < q.cfl) (hr : ∀ r, q.crad = some r → 0 < r)
    (hw : ∀ d c, 0 < q.width d c) (hs : ∀ d c, 0 ≤ q.speed d c) (hh : ∀ h, q.hall = some h → 0 < h)
    (ho : ∀ o, q.orb = some o → 0 < o) (hu : ∀ u, q.user = some u → 0 < u) (hd : ∀ x ∈ q.diff, 0 < x) :
    let b := newBlockDt q sts d2 d3 is ie js je ks ke
    0 < b.dt ∧ 0 < b.par := by
  have h1 : 0 < hypLoop q d2 d3 is ie js je ks ke q.realMax := by
    unfold hypLoop
    refine loop_inv (fun m => 0 < m) _ _ _ (fun k _ _ m hm => loop_inv (fun m => 0 < m) _ _ _ (fun j _ _ m hm => ?_) _ hm) _ hM
    have l : ∀ d m, 0 < m → 0 < loop is ie (fun i m => cut m (q.width d (k, j, i)) (q.speed d (k, j, i))) m := fun d m hm =>
      loop_inv (fun m => 0 < m) _ _ _ (fun i _ _ m hm => cut_pos hm (hw _ _) (hs _ _)) _ hm
    simp only
    split <;> split
    · exact l _ _ (l _ _ (l _ _ hm))
    · exact l _ _ (l _ _ hm)
    · exact l _ _ (l _ _ hm)
    · exact l _ _ hm
  have mo : ∀ (m : K) o, 0 < m → (∀ x, o = some x → 0 < x) → 0 < minOpt m o := by
    intro m o hm ho
    cases o with
    | none => exact hm
    | some x => exact lt_min hm (ho x rfl)
  have hcr : 0 < q.crad.getD 1 := by
    cases h : q.crad with
    | none => simp
    | some r => simpa using hr r h
  have e : ∀ z : K, mulOpt z q.crad = z * q.crad.getD 1 := fun z => by cases q.crad <;> simp [mulOpt]
  have h2 : 0 < q.diff.foldl min q.realMax := by
    have : ∀ (l : List K) (a : K), 0 < a → (∀ x ∈ l, 0 < x) → 0 < l.foldl min a := by
      intro l
      induction l with
      | nil => intro a ha _; exact ha
      | cons b l ih => intro a ha hl; exact ih _ (lt_min ha (hl b List.mem_cons_self)) (fun x hx => hl x (List.mem_cons_of_mem _ hx))
    exact this _ _ hM hd
  intro b
  have hb : b = newBlockDt q sts d2 d3 is ie js je ks ke := rfl
  unfold newBlockDt at hb
  simp only [e] at hb
  have hpar : 0 < q.diff.foldl min q.realMax * q.cfl * q.crad.getD 1 := mul_pos (mul_pos h2 hc) hcr
  have hmin : 0 < min q.realMax (minOpt (minOpt (hypLoop q d2 d3 is ie js je ks ke q.realMax) q.hall * q.cfl * q.crad.getD 1) q.orb) :=
    lt_min hM (mo _ _ (mul_pos (mul_pos (mo _ _ h1 hh) hc) hcr) ho)
  have husr : 0 < minOpt (min q.realMax (minOpt (minOpt (hypLoop q d2 d3 is ie js je ks ke q.realMax) q.hall * q.cfl * q.crad.getD 1) q.orb)) q.user := mo _ _ hmin hu
  rw [hb]
  refine ⟨?_, hpar⟩
  show 0 < (if sts = true then _ else _)
  split
  · exact husr
  · exact lt_min husr hpar

/-- **Diffusive limit.** `nu * dt ≤ len^2 / (2 * dimensions)` in every active cell, `len` any of its widths in the
active directions. -/
theorem diffusive_limit {width : Int → Int × Int × Int → K} {nu : Int × Int × Int → K} {tiny M : K} {f2 f3 : Bool} {ng : Int}
    {k j i d : Int} (hk : ks ≤ k ∧ k ≤ ke) (hj : js ≤ j ∧ j ≤ je) (hi : is - ng ≤ i ∧ i ≤ ie + ng) (hd : Active f2 f3 d)
    (hf : f3 = true → f2 = true) (hw : ∀ d, 0 < width d (k, j, i)) (ht : 0 < tiny) (hn : 0 ≤ nu (k, j, i)) :
    nu (k, j, i) * diffDt width nu tiny M f2 f3 is ie js je ks ke ng
      ≤ width d (k, j, i) ^ 2 / (2 * (1 + (if f2 then 1 else 0) + (if f3 then 1 else 0))) := by
  set fac : K := if f3 then 1/6 else if f2 then 1/4 else 1/2 with hfac
  set len : K := (if f3 then min (if f2 then min (width 0 (k, j, i)) (width 1 (k, j, i)) else width 0 (k, j, i)) (width 2 (k, j, i))
    else (if f2 then min (width 0 (k, j, i)) (width 1 (k, j, i)) else width 0 (k, j, i))) with hlen
  have hfacv : fac = 1 / (2 * (1 + (if f2 then 1 else 0) + (if f3 then 1 else 0))) := by
    rw [hfac]
    cases f3
    · cases f2 <;> norm_num
    · rw [hf rfl]; norm_num
  have hfp : 0 < fac := by rw [hfac]; split <;> [norm_num; (split <;> norm_num)]
  have hl0 : 0 < len := by
    rw [hlen]
    split <;> split
    · exact lt_min (lt_min (hw 0) (hw 1)) (hw 2)
    · exact lt_min (hw 0) (hw 2)
    · exact lt_min (hw 0) (hw 1)
    · exact hw 0
  have hlw : len ≤ width d (k, j, i) := by
    rw [hlen]
    rcases hd with rfl | ⟨rfl, h⟩ | ⟨rfl, h⟩
    · split <;> split
      · exact le_trans (min_le_left _ _) (min_le_left _ _)
      · exact min_le_left _ _
      · exact min_le_left _ _
      · exact le_rfl
    · rw [h]
      split
      · exact le_trans (min_le_left _ _) (min_le_right _ _)
      · exact min_le_right _ _
    · rw [h]; exact min_le_right _ _
  have h1 : diffDt width nu tiny M f2 f3 is ie js je ks ke ng ≤ len ^ 2 * fac / (nu (k, j, i) + tiny) := by
    unfold diffDt
    have dec : ∀ k j, ∀ i : Int, ∀ m : K, min m ((let len := width 0 (k, j, i)
      let len := if f2 then min len (width 1 (k, j, i)) else len
      if f3 then min len (width 2 (k, j, i)) else len) ^ 2 * fac / (nu (k, j, i) + tiny)) ≤ m := fun k j i m => min_le_left _ _
    refine loop_le _ _ _ k hk.1 hk.2 (fun k _ _ m => loop_dec _ _ _ (fun j _ _ m => loop_dec _ _ _ (fun i _ _ m => dec k j i m) m) m) (fun m => ?_) M
    refine loop_le _ _ _ j hj.1 hj.2 (fun j _ _ m => loop_dec _ _ _ (fun i _ _ m => dec k j i m) m) (fun m => ?_) m
    refine loop_le _ _ _ i hi.1 hi.2 (fun i _ _ m => dec k j i m) (fun m => ?_) m
    exact min_le_right _ _
  have hsq : len ^ 2 ≤ width d (k, j, i) ^ 2 := by nlinarith
  have hfrac : nu (k, j, i) / (nu (k, j, i) + tiny) ≤ 1 := (div_le_one (by linarith)).2 (by linarith)
  calc nu (k, j, i) * diffDt width nu tiny M f2 f3 is ie js je ks ke ng
      ≤ nu (k, j, i) * (len ^ 2 * fac / (nu (k, j, i) + tiny)) := mul_le_mul_of_nonneg_left h1 hn
    _ = len ^ 2 * fac * (nu (k, j, i) / (nu (k, j, i) + tiny)) := by ring
    _ ≤ len ^ 2 * fac := by
        have : 0 ≤ len ^ 2 * fac := by positivity
        nlinarith
    _ ≤ width d (k, j, i) ^ 2 * fac := mul_le_mul_of_nonneg_right hsq hfp.le
    _ = _ := by rw [hfacv]; ring

end

/-- Gas at speed 2 in the second cell of a 2D block, cells 1 by 1/2: the limit is `0.4 * (1/2) / 2`, below the diffusive
and user limits. -/
def exIn : In ℚ :=
  ⟨fun d _ => if d = 1 then 1/2 else 1, fun _ c => if c = (0, 0, 1) then 2 else 0, 1000, 2/5, none, some 7, none, some 3, [5, 1]⟩

example : (let b := newBlockDt exIn false true false 0 3 0 3 0 0; (b.dt, b.hyp, b.par, b.usr)) = (1/10, 1/10, 2/5, 3) := by
  decide +kernel

example : (newBlockDt exIn false true false 0 3 0 3 0 0).dt * 2 ≤ 2/5 * 1 * (1/2) :=
  courant (q := exIn) (k := 0) (j := 0) (i := 1) (d := 1) (by decide) (by decide) (by decide) (Or.inr (Or.inl ⟨rfl, rfl⟩))
    (by decide +kernel) (by decide +kernel) (by decide +kernel) (by intro r h; cases h)

example : 0 < (newBlockDt exIn false true false 0 3 0 3 0 0).dt :=
  (block_positive (q := exIn) (by decide +kernel) (by decide +kernel) (by intro r h; cases h)
    (by intro d c; show (0 : ℚ) < if d = 1 then 1/2 else 1; split <;> norm_num)
    (by intro d c; show (0 : ℚ) ≤ if c = (0, 0, 1) then 2 else 0; split <;> norm_num)
    (by intro h e; cases e; norm_num) (by intro r h; cases h) (by intro h e; cases e; norm_num)
    (by intro x hx; simp only [exIn, List.mem_cons, List.not_mem_nil, or_false] at hx; rcases hx with rfl | rfl <;> norm_num)).1

example : (3 : ℚ) * diffDt exIn.width (fun _ => 3) (1/1000) 1000 true false 0 3 0 3 0 0 2 ≤ (1/2) ^ 2 / (2 * (1 + 1 + 0)) :=
  diffusive_limit (width := exIn.width) (nu := fun _ => 3) (f2 := true) (f3 := false) (k := 0) (j := 0) (i := -2) (d := 1)
    (by decide) (by decide) (by decide) (Or.inr (Or.inl ⟨rfl, rfl⟩)) (by decide)
    (by intro d; show (0 : ℚ) < if d = 1 then 1/2 else 1; split <;> norm_num) (by norm_num) (by norm_num)

/-! ## Signal speeds -/

/-- **The sound speed** is the one of the equation of state. -/
theorem soundSpeed_sq {gamma p d : ℝ} (hg : 0 ≤ gamma) (hp : 0 ≤ p) (hd : 0 < d) :
    0 ≤ soundSpeed gamma p d ∧ d * soundSpeed gamma p d ^ 2 = gamma * p := by
  unfold soundSpeed
  refine ⟨Real.sqrt_nonneg _, ?_⟩
  rw [Real.sq_sqrt (by positivity)]
  field_simp

/-- **The fast speed** solves the dispersion relation of the fast and slow waves, and is the faster of the two: at least
the sound speed and at least the Alfven speed. -/
theorem fastSpeed_spec {asq d bx b2 b3 : ℝ} (ha : 0 ≤ asq) (hd : 0 < d) :
    let c := fastSpeed asq d bx b2 b3
    0 ≤ c ∧ d ^ 2 * c ^ 4 - d * c ^ 2 * (asq + (bx ^ 2 + b2 ^ 2 + b3 ^ 2)) + asq * bx ^ 2 = 0 ∧
    asq ≤ d * c ^ 2 ∧ bx ^ 2 ≤ d * c ^ 2 := by
  intro c
  set u := bx * bx + (b2 * b2 + b3 * b3) - asq with hu
  set t := b2 * b2 + b3 * b3 with ht
  have ht0 : 0 ≤ t := by rw [ht]; nlinarith [mul_self_nonneg b2, mul_self_nonneg b3]
  set S := Real.sqrt (u * u + 4 * asq * t) with hS
  have hS2 : S ^ 2 = u * u + 4 * asq * t := Real.sq_sqrt (by have := mul_nonneg ha ht0; nlinarith [mul_self_nonneg u])
  have hS0 : 0 ≤ S := Real.sqrt_nonneg _
  have hSu : |u| ≤ S := by
    rw [hS]
    apply Real.abs_le_sqrt
    have := mul_nonneg ha ht0
    nlinarith
  have hSu1 := (abs_le.1 hSu).1
  have hSu2 := (abs_le.1 hSu).2
  have hnn : 0 ≤ 1/2 * (bx * bx + t + asq + S) / d := by
    have := mul_self_nonneg bx
    positivity
  have hc2 : c ^ 2 = 1/2 * (bx * bx + t + asq + S) / d := by
    show fastSpeed asq d bx b2 b3 ^ 2 = _
    unfold fastSpeed
    simp only [← ht, ← hu, ← hS]
    exact Real.sq_sqrt hnn
  have hdc : d * c ^ 2 = 1/2 * (bx * bx + t + asq + S) := by rw [hc2]; field_simp
  refine ⟨Real.sqrt_nonneg _, ?_, ?_, ?_⟩
  · have e : d ^ 2 * c ^ 4 = (d * c ^ 2) ^ 2 := by ring
    rw [e, hdc]
    have : b2 ^ 2 + b3 ^ 2 = t := by rw [ht]; ring
    have h2 : bx ^ 2 + b2 ^ 2 + b3 ^ 2 = bx * bx + t := by rw [ht]; ring
    rw [h2]
    have hu' : u = bx * bx + t - asq := hu
    rw [hu'] at hS2
    nlinarith [hS2]
  · rw [hdc]; linarith
  · rw [hdc]
    -- `S ≥ bx² - t - asq` since `S² = (bx² - t - asq)² + 4 t bx²`
    have h3 : bx * bx - t - asq ≤ S := by
      rw [hS]
      apply Real.le_sqrt_of_sq_le
      rw [hu]
      nlinarith [mul_nonneg ht0 (mul_self_nonneg bx)]
    nlinarith

/-- The fast speed grows with the magnitude of the normal field. -/
theorem fastSpeed_mono {asq d bx bx' b2 b3 : ℝ} (ha : 0 ≤ asq) (hd : 0 < d) (h : |bx| ≤ |bx'|) :
    fastSpeed asq d bx b2 b3 ≤ fastSpeed asq d bx' b2 b3 := by
  unfold fastSpeed
  simp only
  have hsq : bx * bx ≤ bx' * bx' := by
    have := sq_le_sq.2 h
    nlinarith
  set t := b2 * b2 + b3 * b3 with ht
  have ht0 : 0 ≤ t := by rw [ht]; nlinarith [mul_self_nonneg b2, mul_self_nonneg b3]
  have hat := mul_nonneg ha ht0
  -- `sqrt(u² + k)` has slope at most one
  set u := bx * bx + t - asq
  set u' := bx' * bx' + t - asq
  have huu : u ≤ u' := by show bx * bx + t - asq ≤ bx' * bx' + t - asq; linarith
  set S := Real.sqrt (u * u + 4 * asq * t) with hS
  set S' := Real.sqrt (u' * u' + 4 * asq * t) with hS'
  have hS0 : 0 ≤ S := Real.sqrt_nonneg _
  have hS0' : 0 ≤ S' := Real.sqrt_nonneg _
  have q1 : S ^ 2 = u * u + 4 * asq * t := Real.sq_sqrt (by nlinarith [mul_self_nonneg u])
  have q2 : S' ^ 2 = u' * u' + 4 * asq * t := Real.sq_sqrt (by nlinarith [mul_self_nonneg u'])
  have hle : u ≤ S ∧ -u ≤ S := by
    have := Real.abs_le_sqrt (show u ^ 2 ≤ u * u + 4 * asq * t by nlinarith)
    exact ⟨le_trans (le_abs_self u) this, le_trans (neg_le_abs u) this⟩
  have hle' : -u' ≤ S' := by
    have := Real.abs_le_sqrt (show u' ^ 2 ≤ u' * u' + 4 * asq * t by nlinarith)
    exact le_trans (neg_le_abs u') this
  have key : S - S' ≤ u' - u := by
    by_contra hn
    push Not at hn
    -- S > S' + (u' - u), squares
    have h1 : (S' + (u' - u)) ^ 2 < S ^ 2 := by
      apply sq_lt_sq' <;> nlinarith
    nlinarith [mul_nonneg (sub_nonneg.2 huu) (show 0 ≤ S' + u' by linarith)]
  apply Real.sqrt_le_sqrt
  rw [div_le_div_iff_of_pos_right hd]
  have : u' - u = bx' * bx' - bx * bx := by show (bx' * bx' + t - asq) - (bx * bx + t - asq) = _; ring
  nlinarith

/-- **Speed used with a field.** Where the normal field at the cell centre is not negative, the speed used is at least the
flow speed plus the fast speed of the central field, and of the field on the lower face. -/
theorem mhdSpeed_ge_partial {cspeed asq d v bcc bface b2 b3 : ℝ} (ha : 0 ≤ asq) (hd : 0 < d) (hb : 0 ≤ bcc) :
    |v| + fastSpeed asq d bcc b2 b3 ≤ mhdSpeed cspeed asq d v bcc bface b2 b3 ∧
    |v| + fastSpeed asq d bface b2 b3 ≤ mhdSpeed cspeed asq d v bcc bface b2 b3 ∧
    cspeed ≤ mhdSpeed cspeed asq d v bcc bface b2 b3 := by
  have hx : 0 ≤ bcc + |bface - bcc| := by have := abs_nonneg (bface - bcc); linarith
  unfold mhdSpeed
  refine ⟨le_trans ?_ (le_max_right _ _), le_trans ?_ (le_max_right _ _), le_max_left _ _⟩
  · have := fastSpeed_mono (asq := asq) (d := d) (b2 := b2) (b3 := b3) ha hd (show |bcc| ≤ |bcc + (|bface - bcc|)| by
      rw [abs_of_nonneg hb, abs_of_nonneg hx]; have := abs_nonneg (bface - bcc); linarith)
    linarith
  · have := fastSpeed_mono (asq := asq) (d := d) (b2 := b2) (b3 := b3) ha hd (show |bface| ≤ |bcc + (|bface - bcc|)| by
      rw [abs_of_nonneg hx, abs_le]
      constructor
      · have := neg_abs_le (bface - bcc); linarith
      · have := le_abs_self (bface - bcc); linarith)
    linarith

/-- **With a negative normal field the speed is too small.** Field -1 at the centre, -2 on the lower face, a cold gas at
rest: the speed used is zero, the fast speed is 1; reversing the field gives the right speed. -/
theorem mhdSpeed_sign :
    mhdSpeed 0 0 1 0 (-1) (-2) 0 0 = 0 ∧ fastSpeed 0 1 (-1) 0 0 = 1 ∧ mhdSpeed 0 0 1 0 1 2 0 0 = 2 := by
  have h0 : fastSpeed 0 1 0 0 0 = 0 := by unfold fastSpeed; simp
  have h1 : fastSpeed 0 1 (-1) 0 0 = 1 := by
    unfold fastSpeed
    norm_num
  have h2 : fastSpeed 0 1 2 0 0 = 2 := by
    unfold fastSpeed
    simp only
    rw [show ((2 : ℝ) * 2 + (0 * 0 + 0 * 0) - 0) * (2 * 2 + (0 * 0 + 0 * 0) - 0) + 4 * 0 * (0 * 0 + 0 * 0) = 4 ^ 2 by norm_num,
      Real.sqrt_sq (by norm_num), show (1 / 2 * (2 * 2 + (0 * 0 + 0 * 0) + 0 + 4) / 1 : ℝ) = 2 ^ 2 by norm_num,
      Real.sqrt_sq (by norm_num)]
  refine ⟨?_, h1, ?_⟩
  · unfold mhdSpeed
    norm_num
    rw [h0]
  · unfold mhdSpeed
    norm_num
    rw [h2]; norm_num

/-- **No sound wave crosses more than the fraction `cfl` of a cell** in one step: `courant` with the speed of the code. -/
theorem courant_hydro {q : In ℝ} {sts d2 d3 : Bool} {is ie js je ks ke : Int} {cspeed : ℝ} {v cs : Int → Int × Int × Int → ℝ}
    (hq : q.speed = fun d c => hydroSpeed cspeed (v d c) (cs d c)) {k j i d : Int} (hk : ks ≤ k ∧ k ≤ ke)
    (hj : js ≤ j ∧ j ≤ je) (hi : is ≤ i ∧ i ≤ ie) (hd : Active d2 d3 d) (hw : 0 ≤ q.width d (k, j, i))
    (hcs : 0 ≤ cs d (k, j, i)) (hc : 0 ≤ q.cfl) (hr : q.crad = none) (h0 : 0 ≤ (newBlockDt q sts d2 d3 is ie js je ks ke).dt) :
    (newBlockDt q sts d2 d3 is ie js je ks ke).dt * |v d (k, j, i) + cs d (k, j, i)| ≤ q.cfl * q.width d (k, j, i) ∧
    (newBlockDt q sts d2 d3 is ie js je ks ke).dt * |v d (k, j, i) - cs d (k, j, i)| ≤ q.cfl * q.width d (k, j, i) := by
  have hs : |v d (k, j, i)| + cs d (k, j, i) ≤ q.speed d (k, j, i) := by rw [hq]; exact le_max_right _ _
  have h := courant (q := q) (sts := sts) hk hj hi hd hw (le_trans (by positivity) hs) hc (by rw [hr]; simp)
  rw [hr] at h
  simp only [Option.getD_none, mul_one] at h
  have a1 := abs_add_le (v d (k, j, i)) (cs d (k, j, i))
  have a2 := abs_sub (v d (k, j, i)) (cs d (k, j, i))
  rw [abs_of_nonneg hcs] at a1 a2
  exact ⟨le_trans (mul_le_mul_of_nonneg_left (le_trans a1 hs) h0) h, le_trans (mul_le_mul_of_nonneg_left (le_trans a2 hs) h0) h⟩

/-! ## Number of super-time-step stages (C58) -/

/-- **Enough stages, and no more than needed.** The number of stages is odd and satisfies the stability bound of the
method (RKL2 advances half a step, RKL1 a whole one); two stages fewer would not. -/
theorem sts_stages {rkl2 : Bool} {dt dtp : ℝ} (hd : 0 < dt) (hp : 0 < dtp) :
    let s := stsStages rkl2 dt dtp
    s % 2 = 1 ∧ 1 ≤ s ∧
    (rkl2 = true → dt / 2 < dtp * ((s : ℝ) ^ 2 + s - 2) / 4 ∧ 3 ≤ s ∧ (3 < s → dtp * (((s - 2 : Int) : ℝ) ^ 2 + (s - 2 : Int) - 2) / 4 ≤ dt / 2)) ∧
    (rkl2 = false → dt < dtp * ((s : ℝ) ^ 2 + s) / 2 ∧ (1 < s → dtp * (((s - 2 : Int) : ℝ) ^ 2 + (s - 2 : Int)) / 2 ≤ dt)) := by
  intro s
  have hr : 0 < dt / dtp := div_pos hd hp
  cases rkl2
  · set x := 1/2 * (-1 + Real.sqrt (1 + 8 * dt / dtp)) with hx
    have e8 : 8 * dt / dtp = 8 * (dt / dtp) := by ring
    set S := Real.sqrt (1 + 8 * dt / dtp) with hS
    have hS2 : S ^ 2 = 1 + 8 * (dt / dtp) := by rw [hS, e8]; exact Real.sq_sqrt (by linarith)
    have hS1 : 1 < S := by
      rw [hS]; apply Real.lt_sqrt_of_sq_lt; rw [e8]; linarith
    have hx0 : 0 < x := by rw [hx]; linarith
    have hxx : x ^ 2 + x = 2 * (dt / dtp) := by rw [hx]; nlinarith
    set n := ⌊x⌋ + 1 with hn
    have hs : s = if n % 2 = 0 then n + 1 else n := rfl
    have hf0 : 0 ≤ ⌊x⌋ := Int.floor_nonneg.2 hx0.le
    have hlt : x < n := by rw [hn]; push_cast; exact Int.lt_floor_add_one x
    have hge : ((n - 1 : Int) : ℝ) ≤ x := by rw [hn]; simp only [add_sub_cancel_right]; exact Int.floor_le x
    have hsn : n ≤ s ∧ s ≤ n + 1 := by rw [hs]; split <;> omega
    have hodd : s % 2 = 1 := by rw [hs]; split <;> omega
    have hsr : x < (s : ℝ) := lt_of_lt_of_le hlt (by exact_mod_cast hsn.1)
    refine ⟨hodd, by omega, fun h => by simp at h, fun _ => ⟨?_, fun h1 => ?_⟩⟩
    · have : dt / dtp < ((s : ℝ) ^ 2 + s) / 2 := by nlinarith
      rw [div_lt_iff₀ hp] at this
      linarith
    · have hle : ((s - 2 : Int) : ℝ) ≤ x := le_trans (by exact_mod_cast (by omega : s - 2 ≤ n - 1)) hge
      have h0 : (0 : ℝ) ≤ ((s - 2 : Int) : ℝ) := by exact_mod_cast (by omega : 0 ≤ s - 2)
      have : ((((s - 2 : Int) : ℝ)) ^ 2 + ((s - 2 : Int) : ℝ)) / 2 ≤ dt / dtp := by nlinarith
      rw [le_div_iff₀ hp] at this
      linarith
  · set x := 1/2 * (-1 + Real.sqrt (9 + 16 * (1/2 * dt) / dtp)) with hx
    have e8 : 16 * (1/2 * dt) / dtp = 8 * (dt / dtp) := by ring
    set S := Real.sqrt (9 + 16 * (1/2 * dt) / dtp) with hS
    have hS2 : S ^ 2 = 9 + 8 * (dt / dtp) := by rw [hS, e8]; exact Real.sq_sqrt (by linarith)
    have hS1 : 3 < S := by
      rw [hS]; apply Real.lt_sqrt_of_sq_lt; rw [e8]; linarith
    have hx0 : 1 < x := by rw [hx]; linarith
    have hxx : x ^ 2 + x - 2 = 2 * (dt / dtp) := by rw [hx]; nlinarith
    set n := ⌊x⌋ + 1 with hn
    have hs : s = if n % 2 = 0 then n + 1 else n := rfl
    have hf0 : 1 ≤ ⌊x⌋ := Int.le_floor.2 (by exact_mod_cast hx0.le)
    have hlt : x < n := by rw [hn]; push_cast; exact Int.lt_floor_add_one x
    have hge : ((n - 1 : Int) : ℝ) ≤ x := by rw [hn]; simp only [add_sub_cancel_right]; exact Int.floor_le x
    have hsn : n ≤ s ∧ s ≤ n + 1 := by rw [hs]; split <;> omega
    have hodd : s % 2 = 1 := by rw [hs]; split <;> omega
    have hsr : x < (s : ℝ) := lt_of_lt_of_le hlt (by exact_mod_cast hsn.1)
    refine ⟨hodd, by omega, fun _ => ⟨?_, by omega, fun h1 => ?_⟩, fun h => by simp at h⟩
    · have : dt / dtp < ((s : ℝ) ^ 2 + s - 2) / 2 := by nlinarith
      rw [div_lt_iff₀ hp] at this
      linarith
    · have hle : ((s - 2 : Int) : ℝ) ≤ x := le_trans (by exact_mod_cast (by omega : s - 2 ≤ n - 1)) hge
      have h0 : (0 : ℝ) ≤ ((s - 2 : Int) : ℝ) := by exact_mod_cast (by omega : 0 ≤ s - 2)
      have : ((((s - 2 : Int) : ℝ)) ^ 2 + ((s - 2 : Int) : ℝ) - 2) / 2 ≤ dt / dtp := by nlinarith
      rw [le_div_iff₀ hp] at this
      linarith

/-- RKL1 with a step ten times the diffusive one takes five stages, since 3 are too few and 5 enough. -/
example : stsStages false 10 1 = 5 := by
  have h := sts_stages (rkl2 := false) (dt := 10) (dtp := 1) (by norm_num) (by norm_num)
  obtain ⟨h1, h2, -, h4⟩ := h
  obtain ⟨h5, h6⟩ := h4 rfl
  generalize stsStages false 10 1 = s at *
  have u : s < 6 := by
    by_contra hn
    have h7 := h6 (by omega)
    have : (4 : ℝ) ≤ ((s - 2 : Int) : ℝ) := by exact_mod_cast (by omega : (4 : Int) ≤ s - 2)
    by_cases h8 : s = 6
    · omega
    · have : (5 : ℝ) ≤ ((s - 2 : Int) : ℝ) := by exact_mod_cast (by omega : (5 : Int) ≤ s - 2)
      nlinarith
  have l : 3 < s := by
    by_contra hn
    have a : (s : ℝ) ≤ 3 := by exact_mod_cast (by omega : s ≤ 3)
    have b : (1 : ℝ) ≤ s := by exact_mod_cast h2
    nlinarith
  omega

end Verif.TimeStep
