import Verif.Lemmas.RefineField
import Verif.Props.Refine

/-!
# C42: restriction and prolongation of the magnetic field

Restriction keeps the flux through every face. Prolongation gives every coarse face the flux of the coarse field, spread over its fine faces, and
gives every fine cell the same share of the net flux of its coarse cell (in one dimension the second fine cell gets all of it). So a coarse field
without divergence gives a fine field without divergence.
-/
namespace Verif.Grid
open Finset
variable {K : Type} [Field K] [LinearOrder K] [IsStrictOrderedRing K]
variable (d : Dims) (flux : Bool) (tiny : K) (G Gc : Geom K) (len : EF K) (C F : Crd K) (b : Box) (k j i : Int)

/-- `RestrictFieldX1` keeps the flux through every face. -/
theorem restrict_flux1 (ho : d.Ok) (ha : AreasAdd d G Gc) (fine coarse : A3 K) (hb : b.Has d k j i)
    (hs : (¬ 1 < d.nx3 → b.sk = 0) ∧ (¬ 1 < d.nx2 → b.sj = 0)) (hv : Gc.a1 (k, j, i) ≠ 0) :
    Gc.a1 (k, j, i) * restrictX1 d G fine b.si b.ei b.sj b.ej b.sk b.ek coarse (k, j, i) = flux1 d G fine k j i := by
  rw [restrictX1_eq d ho G fine coarse b k j i hb hs (by rw [← ha.a1]; exact hv), ← ha.a1, mul_div_cancel₀ _ hv]; rfl

/-- `RestrictFieldX2` keeps the flux through every face that does not lie on a pole, whatever was in the scratch rows. -/
theorem restrict_flux2 (ho : d.Ok) (ha : AreasAdd d G Gc) (pole : Int → Bool) (fine : A3 K) (st : RX2 K) (hb : b.Has d k j i)
    (hp : pole (d.fj j) = false) (hv : Gc.a2 (k, j, i) ≠ 0) :
    Gc.a2 (k, j, i) * (restrictX2 d G F pole fine b.si b.ei b.sj b.ej b.sk b.ek st).coarse (k, j, i) = flux2 d G fine k j i := by
  rw [restrictX2_eq d ho G F pole fine st b k j i hb hp, ← ha.a2, mul_div_cancel₀ _ hv]; rfl

/-- `RestrictFieldX3` keeps the flux through every face. -/
theorem restrict_flux3 (ho : d.Ok) (ha : AreasAdd d G Gc) (fine coarse : A3 K) (hb : b.Has d k j i) (hv : Gc.a3 (k, j, i) ≠ 0) :
    Gc.a3 (k, j, i) * restrictX3 d G fine b.si b.ei b.sj b.ej b.sk b.ek coarse (k, j, i) = flux3 d G fine k j i := by
  rw [restrictX3_eq d ho G fine coarse b k j i hb, ← ha.a3, mul_div_cancel₀ _ hv]; rfl

/-- Restricting a prolongated field gives the coarse field back, x1 faces. -/
theorem restrict_prolong1 (ho : d.Ok) (ha : AreasAdd d G Gc) (coarse fine coarse' : A3 K) (hb : b.Has d k j i)
    (hs : (¬ 1 < d.nx3 → b.sk = 0) ∧ (¬ 1 < d.nx2 → b.sj = 0)) (hv : Gc.a1 (k, j, i) ≠ 0) (hf : Fit1 d flux G Gc C F k j i) :
    restrictX1 d G (prolongX1 d flux G Gc C F coarse b.si b.ei b.sj b.ej b.sk b.ek fine) b.si b.ei b.sj b.ej b.sk b.ek coarse' (k, j, i)
      = coarse (k, j, i) := by
  apply mul_left_cancel₀ hv
  rw [restrict_flux1 d G Gc b k j i ho ha _ _ hb hs hv, prolongX1_flux d ho flux G Gc C F coarse fine b k j i hb hf, ← ha.a1]

/-- Restricting a prolongated field gives the coarse field back, x2 faces off the poles. -/
theorem restrict_prolong2 (ho : d.Ok) (ha : AreasAdd d G Gc) (pole : Int → Bool) (coarse fine : A3 K) (st : RX2 K) (hb : b.Has d k j i)
    (hp : pole (d.fj j) = false) (hv : Gc.a2 (k, j, i) ≠ 0) (hf : Fit2 d flux tiny G Gc C F k j i) :
    (restrictX2 d G F pole (prolongX2 d flux tiny G Gc C F coarse b.si b.ei b.sj b.ej b.sk b.ek fine) b.si b.ei b.sj b.ej b.sk b.ek
      st).coarse (k, j, i) = coarse (k, j, i) := by
  apply mul_left_cancel₀ hv
  rw [restrict_flux2 d G Gc F b k j i ho ha pole _ _ hb hp hv, prolongX2_flux d ho flux tiny G Gc C F coarse fine b k j i hb hf, ← ha.a2]

/-- Restricting a prolongated field gives the coarse field back, x3 faces. -/
theorem restrict_prolong3 (ho : d.Ok) (ha : AreasAdd d G Gc) (coarse fine coarse' : A3 K) (hb : b.Has d k j i)
    (hv : Gc.a3 (k, j, i) ≠ 0) (hf : Fit3 d flux G Gc C F k j i) :
    restrictX3 d G (prolongX3 d flux G Gc C F coarse b.si b.ei b.sj b.ej b.sk b.ek fine) b.si b.ei b.sj b.ej b.sk b.ek coarse' (k, j, i)
      = coarse (k, j, i) := by
  apply mul_left_cancel₀ hv
  rw [restrict_flux3 d G Gc b k j i ho ha _ _ hb hv, prolongX3_flux d ho flux G Gc C F coarse fine b k j i hb hf, ← ha.a3]

/-- The fine faces on the surface of a coarse cell carry the net flux of the coarse field, before the faces inside are touched. -/
theorem surface (ho : d.Ok) (ha : AreasAdd d G Gc) (s : Skip) (coarse fine : FF K) (hb : b.Has d k j i)
    (hf : FitCell d flux tiny G Gc len C F k j i) (hg : Given d G Gc s b coarse fine k j i) :
    let f2 : Int := if d.nx2 > 1 then 1 else 0
    let f3 : Int := if d.nx3 > 1 then 1 else 0
    outFine d G
      { x1f := prolongX1 d flux G Gc C F coarse.x1f (if s.i1 then b.si + 1 else b.si) (if s.o1 then b.ei else b.ei + 1) b.sj b.ej b.sk b.ek fine.x1f
        x2f := prolongX2 d flux tiny G Gc C F coarse.x2f b.si b.ei (if s.i2 then b.sj + 1 else b.sj) (if s.o2 then b.ej + f2 - 1 else b.ej + f2)
          b.sk b.ek fine.x2f
        x3f := prolongX3 d flux G Gc C F coarse.x3f b.si b.ei b.sj b.ej (if s.i3 then b.sk + 1 else b.sk) (if s.o3 then b.ek + f3 - 1 else b.ek + f3)
          fine.x3f } k j i = divB d Gc coarse k j i := by
  intro f2 f3
  have hbi := hb.i
  have e1 : ∀ i', (i' = i ∨ i' = i + 1) → flux1 d G (prolongX1 d flux G Gc C F coarse.x1f (if s.i1 then b.si + 1 else b.si)
      (if s.o1 then b.ei else b.ei + 1) b.sj b.ej b.sk b.ek fine.x1f) k j i' = Gc.a1 (k, j, i') * coarse.x1f (k, j, i') := by
    intro i' hi'
    by_cases hw : (if s.i1 then b.si + 1 else b.si) ≤ i' ∧ i' ≤ (if s.o1 then b.ei else b.ei + 1)
    · rw [ha.a1]
      have hfit : Fit1 d flux G Gc C F k j i' := by rcases hi' with rfl | rfl; exacts [hf.m1, hf.p1]
      exact prolongX1_flux d ho flux G Gc C F coarse.x1f fine.x1f ⟨_, _, b.sj, b.ej, b.sk, b.ek⟩ k j i' ⟨hw, hb.j, hb.k⟩ hfit
    · have hk : flux1 d G (prolongX1 d flux G Gc C F coarse.x1f (if s.i1 then b.si + 1 else b.si)
          (if s.o1 then b.ei else b.ei + 1) b.sj b.ej b.sk b.ek fine.x1f) k j i' = flux1 d G fine.x1f k j i' := by
        apply sum_congr rfl
        rintro ⟨q1, q2, q3⟩ hq
        unfold faces1 at hq
        simp only [mem_product, mem_singleton] at hq
        rw [prolongX1_keep]
        intro i'' h1 h2 he
        simp only at he
        have e1 := d.fi_lin i'; have e2 := d.fi_lin i''
        apply hw
        rw [show i' = i'' by omega]
        exact ⟨h1, h2⟩
      rw [hk]
      rcases hi' with rfl | rfl
      · have : s.i1 = true := by
          by_contra hh; apply hw; rw [if_neg hh]; split <;> omega
        rw [this] at hw
        apply hg.i1 this
        simp only [if_true] at hw
        split at hw <;> omega
      · have : s.o1 = true := by
          by_contra hh; apply hw; rw [if_neg hh]; split <;> omega
        rw [this] at hw
        apply hg.o1 this
        simp only [if_true] at hw
        split at hw <;> omega
  have e2 : 1 < d.nx2 → ∀ i', (i' = j ∨ i' = j + 1) → flux2 d G (prolongX2 d flux tiny G Gc C F coarse.x2f b.si b.ei
      (if s.i2 then b.sj + 1 else b.sj) (if s.o2 then b.ej + f2 - 1 else b.ej + f2) b.sk b.ek fine.x2f) k i' i
        = Gc.a2 (k, i', i) * coarse.x2f (k, i', i) := by
    intro n2 i' hi'
    have hbj := hb.j
    rw [if_pos n2] at hbj
    have hf2 : f2 = 1 := if_pos n2
    rw [hf2]
    by_cases hw : (if s.i2 then b.sj + 1 else b.sj) ≤ i' ∧ i' ≤ (if s.o2 then b.ej + 1 - 1 else b.ej + 1)
    · rw [ha.a2]
      have hfit : Fit2 d flux tiny G Gc C F k i' i := by rcases hi' with rfl | rfl; exacts [hf.m2 n2, hf.p2 n2]
      exact prolongX2_flux d ho flux tiny G Gc C F coarse.x2f fine.x2f ⟨b.si, b.ei, _, _, b.sk, b.ek⟩ k i' i
        ⟨hb.i, by rw [if_pos n2]; exact hw, hb.k⟩ hfit
    · have hk : flux2 d G (prolongX2 d flux tiny G Gc C F coarse.x2f b.si b.ei (if s.i2 then b.sj + 1 else b.sj)
          (if s.o2 then b.ej + 1 - 1 else b.ej + 1) b.sk b.ek fine.x2f) k i' i = flux2 d G fine.x2f k i' i := by
        apply sum_congr rfl
        rintro ⟨q1, q2, q3⟩ hq
        unfold faces2 at hq
        simp only [mem_product, mem_singleton] at hq
        rw [prolongX2_keep d n2]
        intro i'' h1 h2 he
        simp only at he
        have e1 := d.fj_lin i'; have e2 := d.fj_lin i''
        apply hw
        rw [show i' = i'' by omega]
        exact ⟨h1, h2⟩
      rw [hk]
      rcases hi' with rfl | rfl
      · have : s.i2 = true := by
          by_contra hh; apply hw; rw [if_neg hh]; split <;> omega
        rw [this] at hw
        apply hg.i2 this n2
        simp only [if_true] at hw
        split at hw <;> omega
      · have : s.o2 = true := by
          by_contra hh; apply hw; rw [if_neg hh]; split <;> omega
        rw [this] at hw
        apply hg.o2 this n2
        simp only [if_true] at hw
        split at hw <;> omega
  have e3 : 1 < d.nx3 → ∀ i', (i' = k ∨ i' = k + 1) → flux3 d G (prolongX3 d flux G Gc C F coarse.x3f b.si b.ei b.sj b.ej
      (if s.i3 then b.sk + 1 else b.sk) (if s.o3 then b.ek + f3 - 1 else b.ek + f3) fine.x3f) i' j i
        = Gc.a3 (i', j, i) * coarse.x3f (i', j, i) := by
    intro n3 i' hi'
    have hbk := hb.k
    rw [if_pos n3] at hbk
    have hf3 : f3 = 1 := if_pos n3
    rw [hf3]
    by_cases hw : (if s.i3 then b.sk + 1 else b.sk) ≤ i' ∧ i' ≤ (if s.o3 then b.ek + 1 - 1 else b.ek + 1)
    · rw [ha.a3]
      have hfit : Fit3 d flux G Gc C F i' j i := by rcases hi' with rfl | rfl; exacts [hf.m3 n3, hf.p3 n3]
      exact prolongX3_flux d ho flux G Gc C F coarse.x3f fine.x3f ⟨b.si, b.ei, b.sj, b.ej, _, _⟩ i' j i
        ⟨hb.i, hb.j, by rw [if_pos n3]; exact hw⟩ hfit
    · have hk : flux3 d G (prolongX3 d flux G Gc C F coarse.x3f b.si b.ei b.sj b.ej (if s.i3 then b.sk + 1 else b.sk)
          (if s.o3 then b.ek + 1 - 1 else b.ek + 1) fine.x3f) i' j i = flux3 d G fine.x3f i' j i := by
        apply sum_congr rfl
        rintro ⟨q1, q2, q3⟩ hq
        unfold faces3 at hq
        simp only [mem_product, mem_singleton] at hq
        rw [prolongX3_keep d n3]
        intro i'' h1 h2 he
        simp only at he
        have e1 := d.fk_lin i'; have e2 := d.fk_lin i''
        apply hw
        rw [show i' = i'' by omega]
        exact ⟨h1, h2⟩
      rw [hk]
      rcases hi' with rfl | rfl
      · have : s.i3 = true := by
          by_contra hh; apply hw; rw [if_neg hh]; split <;> omega
        rw [this] at hw
        apply hg.i3 this n3
        simp only [if_true] at hw
        split at hw <;> omega
      · have : s.o3 = true := by
          by_contra hh; apply hw; rw [if_neg hh]; split <;> omega
        rw [this] at hw
        apply hg.o3 this n3
        simp only [if_true] at hw
        split at hw <;> omega
  unfold outFine divB out1 out2 out3
  rw [e1 i (Or.inl rfl), e1 (i+1) (Or.inr rfl)]
  congr 1
  · congr 1
    split
    · next n2 => rw [e2 n2 j (Or.inl rfl), e2 n2 (j+1) (Or.inr rfl)]
    · rfl
  · split
    · next n3 => rw [e3 n3 k (Or.inl rfl), e3 n3 (k+1) (Or.inr rfl)]
    · rfl

/-- Two and three dimensions: after prolongation every fine cell of a coarse cell has the same net flux, a quarter or an eighth of the net flux of the
coarse cell. -/
theorem prolong_share (ho : d.Ok) (h2 : 1 < d.nx2) (ha : AreasAdd d G Gc) (s : Skip) (coarse fine : FF K) (hb : b.Has d k j i)
    (hf : FitCell d flux tiny G Gc len C F k j i) (hg : Given d G Gc s b coarse fine k j i) (c : Int × Int × Int) (hc : c ∈ fines d k j i) :
    (if 1 < d.nx3 then 8 else 4) *
      divB d G (prolongField d flux tiny G Gc len C F s coarse b.si b.ei b.sj b.ej b.sk b.ek fine) c.1 c.2.1 c.2.2 = divB d Gc coarse k j i := by
  rw [← surface d flux tiny G Gc len C F b k j i ho ha s coarse fine hb hf hg]
  exact prolongInternal_share d ho h2 G len F b k j i hb hf.inside _ c hc

/-- One dimension: the first of the two fine cells gets no net flux, the second that of the coarse cell. -/
theorem prolong_share1 (ho : d.Ok) (h2 : ¬ 1 < d.nx2) (ha : AreasAdd d G Gc) (s : Skip) (coarse fine : FF K) (hb : b.Has d k j i)
    (hf : FitCell d flux tiny G Gc len C F k j i) (hg : Given d G Gc s b coarse fine k j i) :
    divB d G (prolongField d flux tiny G Gc len C F s coarse b.si b.ei b.sj b.ej b.sk b.ek fine) 0 0 (d.fi i) = 0 ∧
    divB d G (prolongField d flux tiny G Gc len C F s coarse b.si b.ei b.sj b.ej b.sk b.ek fine) 0 0 (d.fi i + 1) = divB d Gc coarse k j i := by
  have h3 : ¬ 1 < d.nx3 := fun h => h2 (ho.ord h)
  rw [← surface d flux tiny G Gc len C F b k j i ho ha s coarse fine hb hf hg]
  exact prolongInternal_share1 d h2 h3 G len F b k j i hb hf.inside _

/-- A coarse cell without net flux gives fine cells without net flux, in any dimension. -/
theorem prolong_divergence_free (ho : d.Ok) (ha : AreasAdd d G Gc) (s : Skip) (coarse fine : FF K) (hb : b.Has d k j i)
    (hf : FitCell d flux tiny G Gc len C F k j i) (hg : Given d G Gc s b coarse fine k j i) (hz : divB d Gc coarse k j i = 0)
    (c : Int × Int × Int) (hc : c ∈ fines d k j i) :
    divB d G (prolongField d flux tiny G Gc len C F s coarse b.si b.ei b.sj b.ej b.sk b.ek fine) c.1 c.2.1 c.2.2 = 0 := by
  by_cases h2 : 1 < d.nx2
  · have h := prolong_share d flux tiny G Gc len C F b k j i ho h2 ha s coarse fine hb hf hg c hc
    rw [hz] at h
    rcases mul_eq_zero.1 h with h | h
    · split at h <;> norm_num at h
    · exact h
  · have h3 : ¬ 1 < d.nx3 := fun h => h2 (ho.ord h)
    have h := prolong_share1 d flux tiny G Gc len C F b k j i ho h2 ha s coarse fine hb hf hg
    obtain ⟨hck, hcj, hci⟩ := (mem_fines d k j i c).1 hc
    obtain ⟨ck, cj, ci⟩ := c
    simp only at hck hcj hci ⊢
    have e1 := hb.j; have e2 := hb.k
    rw [if_neg h2] at e1; rw [if_neg h3] at e2
    subst e1 e2
    rw [d.fk0 h3] at hck; rw [d.fj0 h2] at hcj
    have hk0 : ck = 0 := by rcases hck with h | h; exacts [h, absurd h.1 h3]
    have hj0 : cj = 0 := by rcases hcj with h | h; exacts [h, absurd h.1 h2]
    subst hk0 hj0
    rcases hci with rfl | rfl
    · exact h.1
    · rw [h.2, hz]

/-- A uniform Cartesian mesh meets the conditions on faces, whatever `fluxinterp_` is. -/
theorem uniform_fit (ho : d.Ok) (h1 h2 h3 o1 o2 o3 a1 a2 a3 : K) (hp : 0 < a1 ∧ 0 < a2 ∧ 0 < a3) (ht : 0 ≤ tiny) (ha : AreasAdd d G Gc)
    (hu : UniformF d G C F h1 h2 h3 o1 o2 o3 a1 a2 a3) :
    Fit1 d flux G Gc C F k j i ∧ Fit2 d flux tiny G Gc C F k j i ∧ Fit3 d flux G Gc C F k j i := by
  have lin : ∀ (C F : Int → K) (o h : K) (f : Int → Int)
      (hF : ∀ i : Int, F i = o + h * (i + 1/2)) (hC : ∀ i : Int, C i = o + h * (f i + 1)) (i : Int),
      F (f i) - C i = -(h/2) ∧ F (f i + 1) - C i = h/2 := by
    intro C F o h f hF hC i
    exact ⟨by rw [hF, hC]; ring, by rw [hF, hC]; push_cast; ring⟩
  obtain ⟨x12m, x12p⟩ := lin C.x1s2 F.x1s2 o1 h1 d.fi hu.f12 hu.c12 i
  obtain ⟨x13m, x13p⟩ := lin C.x1s3 F.x1s3 o1 h1 d.fi hu.f13 hu.c13 i
  obtain ⟨x21m, x21p⟩ := lin C.x2s1 F.x2s1 o2 h2 d.fj hu.f21 hu.c21 j
  obtain ⟨x23m, x23p⟩ := lin C.x2s3 F.x2s3 o2 h2 d.fj hu.f23 hu.c23 j
  obtain ⟨x31m, x31p⟩ := lin C.x3s1 F.x3s1 o3 h3 d.fk hu.f31 hu.c31 k
  obtain ⟨x32m, x32p⟩ := lin C.x3s2 F.x3s2 o3 h3 d.fk hu.f32 hu.c32 k
  have n3 : (faces1 d k j i).Nonempty ∧ (faces2 d k j i).Nonempty ∧ (faces3 d k j i).Nonempty := by
    refine ⟨⟨(d.fk k, d.fj j, d.fi i), ?_⟩, ⟨(d.fk k, d.fj j, d.fi i), ?_⟩, ⟨(d.fk k, d.fj j, d.fi i), ?_⟩⟩
    all_goals
      simp only [faces1, faces2, faces3, Dims.kk, Dims.jj, Dims.ii, mem_product, mem_singleton, mem_Icc, and_true, true_and]
      refine ⟨?_, ?_⟩ <;> first | omega | (refine ⟨le_refl _, ?_⟩; split <;> omega)
  have p1 : 0 < Gc.a1 (k, j, i) := by
    rw [ha.a1]; exact sum_pos (fun f _ => by rw [hu.a1]; exact hp.1) n3.1
  have p2 : 0 < Gc.a2 (k, j, i) := by
    rw [ha.a2]; exact sum_pos (fun f _ => by rw [hu.a2]; exact hp.2.1) n3.2.1
  have p3 : 0 < Gc.a3 (k, j, i) := by
    rw [ha.a3]; exact sum_pos (fun f _ => by rw [hu.a3]; exact hp.2.2) n3.2.2
  refine ⟨⟨?_, ?_, fun _ _ => p1.ne'⟩, ⟨?_, ?_, fun _ _ => (add_pos_of_pos_of_nonneg p2 ht).ne'⟩, ⟨?_, ?_, fun _ _ => p3.ne'⟩⟩
  · intro _ n2
    unfold faces1 Dims.jj
    rw [if_pos n2]
    simp only [sum_product, sum_two, sum_singleton, hu.a1, x21m, x21p]
    apply sum_eq_zero; intro _ _; ring
  · intro _ n3
    unfold faces1 Dims.kk
    rw [if_pos n3]
    simp only [sum_product, sum_two, sum_singleton, hu.a1, x31m, x31p, ← mul_sum]
    simp only [sum_const]
    rw [← smul_add]
    simp
  · intro _
    unfold faces2 Dims.ii
    simp only [sum_product, sum_two, sum_singleton, hu.a2, x12m, x12p]
    apply sum_eq_zero; intro _ _; ring
  · intro _ n3
    unfold faces2 Dims.kk Dims.ii
    rw [if_pos n3]
    simp only [sum_product, sum_two, sum_singleton, hu.a2, x32m, x32p]
    ring
  · intro _
    unfold faces3 Dims.ii
    simp only [sum_product, sum_two, sum_singleton, hu.a3, x13m, x13p]
    apply sum_eq_zero; intro _ _; ring
  · intro _ n2
    unfold faces3 Dims.jj Dims.ii
    rw [if_pos n2]
    simp only [sum_product, sum_two, sum_singleton, hu.a3, x23m, x23p]
    ring

/-! A uniform three-dimensional mesh, a coarse field with net flux in every cell, and a left x1 boundary whose faces come from elsewhere. -/
section sample
def smpGc : Geom Rat := ⟨fun _ => 4, fun _ => 4, fun _ => 4, fun _ => 8⟩
def smpLen : EF Rat := ⟨fun _ => 1, fun _ => 1, fun _ => 1⟩
def smpB : FF Rat := ⟨fun q => q.2.2 + q.1, fun q => 3 * q.2.1, fun q => q.1 ^ 2⟩
def smpFine : FF Rat := ⟨fun _ => 4, fun _ => 0, fun _ => 0⟩
def smpS : Skip := ⟨true, false, false, false, false, false⟩

theorem smp_ok : smpD.Ok := ⟨by decide, by decide, by decide, by decide⟩
theorem smp_areas : AreasAdd smpD smpG smpGc := by
  constructor <;> intro k j i
  · rw [faces1_3 _ _ _ _ _ (by decide) (by decide)]; norm_num [smpG, smpGc]
  · rw [faces2_3 _ _ _ _ _ (by decide)]; norm_num [smpG, smpGc]
  · rw [faces3_3 _ _ _ _ _ (by decide)]; norm_num [smpG, smpGc]
theorem smp_uniform : UniformF smpD smpG smpC smpF 1 1 1 0 0 0 1 1 1 := by
  constructor <;> intro i <;> simp [smpF, smpC, smpG]
theorem smp_fit (flux : Bool) (k j i : Int) : FitCell smpD flux (1/10^20) smpG smpGc smpLen smpC smpF k j i := by
  have h := fun k j i => uniform_fit smpD flux (1/10^20) smpG smpGc smpC smpF k j i smp_ok 1 1 1 0 0 0 1 1 1 (by norm_num) (by norm_num) smp_areas smp_uniform
  refine ⟨(h _ _ _).1, (h _ _ _).1, fun _ => (h _ _ _).2.1, fun _ => (h _ _ _).2.1, fun _ => (h _ _ _).2.2, fun _ => (h _ _ _).2.2, ?_⟩
  constructor
  · intros; norm_num [smpG]
  · intros; norm_num [smpG]
  · intros; norm_num [smpG]
  · intro _; norm_num [smpLen, smpF]

example : (Box.mk 2 3 2 3 2 3).Has smpD 2 2 2 ∧ Given smpD smpG smpGc smpS (Box.mk 2 3 2 3 2 3) smpB smpFine 2 2 2 ∧
    divB smpD smpGc smpB 2 2 2 = 36 := by
  refine ⟨⟨by decide, by decide, by decide⟩, ?_, ?_⟩
  · constructor <;> intro h <;> try (exact absurd h (by decide))
    intro _
    unfold flux1
    rw [faces1_3 _ _ _ _ _ (by decide) (by decide)]
    norm_num [smpG, smpGc, smpB, smpFine]
  · norm_num [divB, out1, out2, out3, smpB, smpGc, smpD]

example (flux : Bool) : 8 * divB smpD smpG (prolongField smpD flux (1/10^20) smpG smpGc smpLen smpC smpF ⟨false, false, false, false, false, false⟩ smpB
    2 3 2 3 2 3 smpFine) 3 2 3 = 36 := by
  have h := prolong_share smpD flux (1/10^20) smpG smpGc smpLen smpC smpF (Box.mk 2 3 2 3 2 3) 2 2 2 smp_ok (by decide) smp_areas
    ⟨false, false, false, false, false, false⟩ smpB smpFine ⟨by decide, by decide, by decide⟩ (smp_fit flux 2 2 2)
    (by constructor <;> intro h <;> exact absurd h (by decide)) (3, 2, 3) (by decide)
  rw [if_pos (by decide)] at h
  rw [h]
  norm_num [divB, out1, out2, out3, smpB, smpGc, smpD]
end sample

/-- At a pole `RestrictFieldX2` does not assign every entry of the scratch row it reads: its result depends on what an earlier call left there.
Two dimensions, 4x4 cells, the pole at the lower x2 boundary, unit spacing, fine values 1 and 3: the coarse value is 2 or 1. -/
theorem restrict_pole_reads_stale : ∃ (d : Dims) (G : Geom Rat) (F : Crd Rat) (pole : Int → Bool) (fine : A3 Rat) (b : Box) (st st' : RX2 Rat),
    d.Ok ∧ b.Has d 0 2 2 ∧ (∀ i, 0 < F.dx1f i) ∧ st.coarse = st'.coarse ∧
    (restrictX2 d G F pole fine b.si b.ei b.sj b.ej b.sk b.ek st).coarse (0, 2, 2) = 2 ∧
    (restrictX2 d G F pole fine b.si b.ei b.sj b.ej b.sk b.ek st').coarse (0, 2, 2) = 1 := by
  have r22 : Verif.Arr.rng 2 2 = [2] := by decide
  refine ⟨⟨2, 4, 4, 1⟩, smpG, smpF, fun j => j == 2, fun q => if q.2.2 = 2 then 1 else 3, Box.mk 2 2 2 2 0 0, ⟨fun _ => 0, fun _ => 1, fun _ => 0⟩,
    ⟨fun _ => 0, fun _ => 0, fun _ => 0⟩, ⟨by decide, by decide, by decide, by decide⟩, ⟨by decide, by decide, by decide⟩, ?_, rfl, ?_, ?_⟩
  · intro i; norm_num [smpF]
  · simp [restrictX2, fillX2, Verif.Arr.loop, r22, Dims.fi, Dims.fj, Dims.cis, Dims.cjs, Dims.is, Dims.js, smpF, Function.update_apply]
    norm_num
  · simp [restrictX2, fillX2, Verif.Arr.loop, r22, Dims.fi, Dims.fj, Dims.cis, Dims.cjs, Dims.is, Dims.js, smpF, Function.update_apply]

end Verif.Grid
