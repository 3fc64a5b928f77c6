import Verif.Model.MgFlux
import Verif.Lemmas.MgPhys
import Mathlib.Tactic.LinearCombination

/-!
# Ghost cells between levels of the multigrid solver: supporting lemmas
-/
namespace Verif.Mg
open Verif.Arr (loop rng mem_rng nodup_rng)
open Verif.Grid (A3 rng2 loop_eq)

theorem fold_append {α : Type} (l : List α) (f : α → List ℝ) (buf : List ℝ) :
    l.foldl (fun buf x => buf ++ f x) buf = buf ++ l.flatMap f := by
  induction l generalizing buf with
  | nil => simp
  | cons a t ih => rw [List.foldl_cons, ih]; simp

/-- Cells of the tangential plane in the order of the loops. -/
def plane (s t : ℤ) (n m : ℤ) : List (ℤ × ℤ) :=
  (rng s (s + n - 1)).flatMap fun o => (rng t (t + m - 1)).map fun x => (o, x)

theorem mem_plane {s t n m : ℤ} {q : ℤ × ℤ} : q ∈ plane s t n m ↔ (s ≤ q.1 ∧ q.1 < s + n) ∧ (t ≤ q.2 ∧ q.2 < t + m) := by
  obtain ⟨o, x⟩ := q
  simp only [plane, List.mem_flatMap, List.mem_map, mem_rng, Prod.mk.injEq]
  constructor
  · rintro ⟨o', h1, x', h2, rfl, rfl⟩; omega
  · rintro ⟨h1, h2⟩; exact ⟨o, by omega, x, by omega, rfl, rfl⟩

theorem nodup_plane (s t n m : ℤ) : (plane s t n m).Nodup := by
  unfold plane
  rw [List.nodup_flatMap]
  refine ⟨fun o _ => (nodup_rng _ _).map fun a b h => (Prod.mk.inj h).2, ?_⟩
  refine (nodup_rng s (s + n - 1)).imp ?_
  intro a b hab q h1 h2
  simp only [List.mem_map] at h1 h2
  obtain ⟨x, _, rfl⟩ := h1
  obtain ⟨y, _, hy⟩ := h2
  exact hab (Prod.mk.inj hy).1.symm

theorem rng2_eq (s : ℤ) (n : ℤ) (hn : 0 ≤ n) : rng2 1 (1 + 2 * n - 1) = (rng s (s + n - 1)).map fun x => 1 + 2 * (x - s) := by
  unfold rng2 rng
  rw [List.map_map]
  have e : ((1 + 2 * n - 1 - 1 + 2) / 2).toNat = (s + n - 1 + 1 - s).toNat := by omega
  rw [e]
  apply List.map_congr_left
  intro a _
  simp only [Function.comp_apply]; ring

/-- The mean of four fine cells at the interface. -/
noncomputable def avg4 (e : ℤ → ℤ → ℤ → ℤ × ℤ × ℤ) (u : A3 ℝ) (o t x : ℤ) : ℝ :=
  0.25 * ((u (e o t x) + u (e o (t+1) x)) + (u (e (o+1) t x) + u (e (o+1) (t+1) x)))

/-- The loops of `loadToCoarser`, directions named by `e`. -/
noncomputable def sendGen (e : ℤ → ℤ → ℤ → ℤ × ℤ × ℤ) (nc fx : ℤ) (u : A3 ℝ) : List ℝ :=
  (rng2 1 (1 + nc - 1)).foldl (fun buf o => (rng2 1 (1 + nc - 1)).foldl (fun buf t => buf ++ [avg4 e u o t fx]) buf) []

theorem sendGen_eq (e : ℤ → ℤ → ℤ → ℤ × ℤ × ℤ) (n fx : ℤ) (hn : 0 ≤ n) (u : A3 ℝ) (s t : ℤ) :
    sendGen e (2 * n) fx u = (plane s t n n).map fun q => avg4 e u (1 + 2 * (q.1 - s)) (1 + 2 * (q.2 - t)) fx := by
  unfold sendGen
  have h1 : ∀ o buf, (rng2 1 (1 + 2 * n - 1)).foldl (fun buf t => buf ++ [avg4 e u o t fx]) buf
      = buf ++ (rng2 1 (1 + 2 * n - 1)).flatMap (fun t => [avg4 e u o t fx]) := fun o buf => fold_append _ _ _
  simp only [h1]
  rw [fold_append, List.nil_append]
  unfold plane
  rw [List.map_flatMap, rng2_eq s n hn, List.flatMap_map]
  apply List.flatMap_congr
  intro o _
  rw [← rng2_eq s n hn, rng2_eq t n hn, List.flatMap_map, List.map_map]
  simp only [Function.comp_def]
  exact List.flatMap_pure_eq_map _ _

/-- Reading a message while writing cells. -/
theorem recv_fold {P : Type} [DecidableEq P] {α : Type} (l : List α) (pt : α → P) (f : α → ℝ) (F : α → ℝ → (P → ℝ) → ℝ) (pre : List ℝ) (a : P → ℝ) :
    (l.foldl (fun (st : (P → ℝ) × ℕ) x => (Function.update st.1 (pt x) (F x ((pre ++ l.map f).getD st.2 0) st.1), st.2 + 1))
      (a, pre.length)).1 = l.foldl (fun st x => Function.update st (pt x) (F x (f x) st)) a := by
  induction l generalizing pre a with
  | nil => rfl
  | cons x t ih =>
    rw [List.foldl_cons, List.foldl_cons]
    have hx : (pre ++ (x :: t).map f).getD pre.length 0 = f x := by simp
    simp only [hx]
    have := ih (pre ++ [f x]) (Function.update a (pt x) (F x (f x) a))
    simp only [List.length_append, List.length_cons, List.length_nil, List.append_assoc, List.singleton_append] at this
    rw [← this]; rfl

theorem recv_fold0 {P : Type} [DecidableEq P] {α : Type} (l : List α) (pt : α → P) (f : α → ℝ) (F : α → ℝ → (P → ℝ) → ℝ) (a : P → ℝ) :
    (l.foldl (fun (st : (P → ℝ) × ℕ) x => (Function.update st.1 (pt x) (F x ((l.map f).getD st.2 0) st.1), st.2 + 1))
      (a, 0)).1 = l.foldl (fun st x => Function.update st (pt x) (F x (f x) st)) a := recv_fold l pt f F [] a

/-- The loops of `setFromFiner`, directions named by `e`. -/
noncomputable def recvGen (e : ℤ → ℤ → ℤ → ℤ × ℤ × ℤ) (s t n xg xin : ℤ) (buf : List ℝ) (dst : A3 ℝ) : A3 ℝ :=
  (loop s (s + n - 1) (fun o => loop t (t + n - 1) fun x (st : A3 ℝ × ℕ) =>
    (Function.update st.1 (e o x xg) (1/3 * (4 * buf.getD st.2 0 - st.1 (e o x xin))), st.2 + 1)) (dst, 0)).1

/-- `e` names the cells. -/
def Names (e : ℤ → ℤ → ℤ → ℤ × ℤ × ℤ) : Prop := ∀ o t x o' t' x', e o t x = e o' t' x' → o = o' ∧ t = t' ∧ x = x'

theorem plane_loops {σ : Type} (s t n m : ℤ) (f : ℤ → ℤ → σ → σ) (a : σ) :
    loop s (s + n - 1) (fun o => loop t (t + m - 1) fun x => f o x) a = (plane s t n m).foldl (fun st q => f q.1 q.2 st) a := by
  unfold plane
  rw [loop_eq, ← foldl_flatMap']
  congr 1; funext st o
  rw [loop_eq, List.foldl_map]

theorem recvGen_at (e : ℤ → ℤ → ℤ → ℤ × ℤ × ℤ) (he : Names e) (s t n xg xin : ℤ) (hx : xin ≠ xg) (f : ℤ × ℤ → ℝ) (dst : A3 ℝ)
    (o x : ℤ) (ho : s ≤ o ∧ o < s + n) (hx' : t ≤ x ∧ x < t + n) :
    recvGen e s t n xg xin ((plane s t n n).map f) dst (e o x xg) = 1/3 * (4 * f (o, x) - dst (e o x xin)) := by
  unfold recvGen
  rw [plane_loops s t n n (fun o x (st : A3 ℝ × ℕ) =>
    (Function.update st.1 (e o x xg) (1/3 * (4 * ((plane s t n n).map f).getD st.2 0 - st.1 (e o x xin))), st.2 + 1)),
    recv_fold0 (plane s t n n) (fun q => e q.1 q.2 xg) f (fun q v st => 1/3 * (4 * v - st (e q.1 q.2 xin))) dst]
  have hnd : ((plane s t n n).map fun q => e q.1 q.2 xg).Nodup :=
    (nodup_plane s t n n).map fun q r h => by
      have := he _ _ _ _ _ _ h
      exact Prod.ext this.1 this.2.1
  refine Verif.Grid.fold_in (plane s t n n) (fun q => e q.1 q.2 xg) (fun q st => 1/3 * (4 * f q - st (e q.1 q.2 xin))) dst hnd
    ?_ (o, x) (mem_plane.mpr ⟨ho, hx'⟩)
  intro q _ st _ hout
  rw [hout (e q.1 q.2 xin)]
  rw [List.mem_map]
  rintro ⟨r, _, hr⟩
  exact hx (he _ _ _ _ _ _ hr).2.2.symm

/-- The loops of the prolongation, directions named by `e`. -/
noncomputable def proGen (e : ℤ → ℤ → ℤ → ℤ × ℤ × ℤ) (n x fx fg : ℤ) (cbuf dst : A3 ℝ) : A3 ℝ :=
  loop 1 (1 + n - 1) (fun o => loop 1 (1 + n - 1) fun t dst =>
    let fo := (o - 1) * 2 + 1
    let ft := (t - 1) * 2 + 1
    let cc := cbuf (e o t x)
    let gt := 0.125 * (cbuf (e o (t+1) x) - cbuf (e o (t-1) x))
    let go := 0.125 * (cbuf (e (o+1) t x) - cbuf (e (o-1) t x))
    let dst := Function.update dst (e fo ft fg) (1/3 * (2 * (cc - gt - go) + dst (e fo ft fx)))
    let dst := Function.update dst (e fo (ft+1) fg) (1/3 * (2 * (cc + gt - go) + dst (e fo (ft+1) fx)))
    let dst := Function.update dst (e (fo+1) ft fg) (1/3 * (2 * (cc - gt + go) + dst (e (fo+1) ft fx)))
    let dst := Function.update dst (e (fo+1) (ft+1) fg) (1/3 * (2 * (cc + gt + go) + dst (e (fo+1) (ft+1) fx)))
    dst) dst

/-- The value of fine ghost cell `(p, q)` of coarse cell `(o, t)`. -/
noncomputable def proVal (e : ℤ → ℤ → ℤ → ℤ × ℤ × ℤ) (x fx : ℤ) (cbuf dst : A3 ℝ) (o t p q : ℤ) : ℝ :=
  1/3 * (2 * (cbuf (e o t x) + (2 * q - 1) * (0.125 * (cbuf (e o (t+1) x) - cbuf (e o (t-1) x)))
    + (2 * p - 1) * (0.125 * (cbuf (e (o+1) t x) - cbuf (e (o-1) t x)))) + dst (e (2 * o - 1 + p) (2 * t - 1 + q) fx))

theorem proGen_at (e : ℤ → ℤ → ℤ → ℤ × ℤ × ℤ) (he : Names e) (n x fx fg : ℤ) (hx : fx ≠ fg) (cbuf dst : A3 ℝ)
    (o t p q : ℤ) (ho : 1 ≤ o ∧ o ≤ n) (ht : 1 ≤ t ∧ t ≤ n) (hp : p = 0 ∨ p = 1) (hq : q = 0 ∨ q = 1) :
    proGen e n x fx fg cbuf dst (e (2 * o - 1 + p) (2 * t - 1 + q) fg) = proVal e x fx cbuf dst o t p q := by
  let sub : ℤ × ℤ → List (ℤ × ℤ × ℤ × ℤ) := fun r => [(r.1, r.2, 0, 0), (r.1, r.2, 0, 1), (r.1, r.2, 1, 0), (r.1, r.2, 1, 1)]
  let l := (plane 1 1 n n).flatMap sub
  let pt : ℤ × ℤ × ℤ × ℤ → ℤ × ℤ × ℤ := fun r => e (2 * r.1 - 1 + r.2.2.1) (2 * r.2.1 - 1 + r.2.2.2) fg
  have eq : proGen e n x fx fg cbuf dst
      = l.foldl (fun st r => Function.update st (pt r) (proVal e x fx cbuf st r.1 r.2.1 r.2.2.1 r.2.2.2)) dst := by
    unfold proGen
    rw [plane_loops 1 1 n n]
    simp only [l]
    rw [← foldl_flatMap']
    congr 1; funext st r
    obtain ⟨o, t⟩ := r
    simp only [sub, List.foldl_cons, List.foldl_nil, pt, proVal]
    have a1 : (o - 1) * 2 + 1 = 2 * o - 1 := by ring
    have a2 : (t - 1) * 2 + 1 = 2 * t - 1 := by ring
    rw [a1, a2]
    simp only [add_zero, Int.cast_zero, Int.cast_one, mul_zero, mul_one, zero_sub, neg_mul, one_mul]
    norm_num [sub_eq_add_neg]
  rw [eq]
  have hmem : ∀ r : ℤ × ℤ × ℤ × ℤ, r ∈ l ↔ ((1 ≤ r.1 ∧ r.1 < 1 + n) ∧ (1 ≤ r.2.1 ∧ r.2.1 < 1 + n)) ∧
      (r.2.2.1 = 0 ∨ r.2.2.1 = 1) ∧ (r.2.2.2 = 0 ∨ r.2.2.2 = 1) := by
    rintro ⟨o, t, p, q⟩
    simp only [l, List.mem_flatMap, sub, List.mem_cons, List.not_mem_nil, or_false, Prod.mk.injEq]
    constructor
    · rintro ⟨⟨o', t'⟩, hm, hh⟩
      rw [mem_plane] at hm
      simp only at hm hh
      omega
    · rintro ⟨hm, hp, hq⟩
      refine ⟨(o, t), mem_plane.mpr hm, ?_⟩
      simp only [true_and]
      rcases hp with rfl | rfl <;> rcases hq with rfl | rfl <;> simp
  have hndl : l.Nodup := by
    simp only [l]
    rw [List.nodup_flatMap]
    refine ⟨fun r _ => by simp [sub], ?_⟩
    refine (nodup_plane 1 1 n n).imp ?_
    intro a b hab r h1 h2
    simp only [sub, List.mem_cons, List.not_mem_nil, or_false] at h1 h2
    apply hab
    apply Prod.ext
    · rcases h1 with rfl | rfl | rfl | rfl <;> rcases h2 with h | h | h | h <;> exact (Prod.mk.inj h).1
    · rcases h1 with rfl | rfl | rfl | rfl <;> rcases h2 with h | h | h | h <;> exact (Prod.mk.inj (Prod.mk.inj h).2).1
  have hnd : (l.map pt).Nodup := by
    refine List.Nodup.map_on ?_ hndl
    rintro ⟨o, t, p, q⟩ h1 ⟨o', t', p', q'⟩ h2 h
    have h1 := (hmem _).mp h1
    have h2 := (hmem _).mp h2
    obtain ⟨b1, b2, _⟩ := he _ _ _ _ _ _ h
    simp only at h1 h2 b1 b2
    simp only [Prod.mk.injEq]; omega
  have hm : ((o, t, p, q) : ℤ × ℤ × ℤ × ℤ) ∈ l := (hmem _).mpr ⟨⟨by simp only; omega, by simp only; omega⟩, hp, hq⟩
  refine Verif.Grid.fold_in l pt (fun r st => proVal e x fx cbuf st r.1 r.2.1 r.2.2.1 r.2.2.2) dst hnd ?_ (o, t, p, q) hm
  intro r _ st _ hout
  unfold proVal
  rw [hout]
  rw [List.mem_map]
  rintro ⟨r', _, hr⟩
  exact hx (he _ _ _ _ _ _ hr).2.2.symm

/-- A box shifted. -/
def Box.shift (b : Box) (dk dj di : ℤ) : Box := ⟨b.kl + dk, b.ku + dk, b.jl + dj, b.ju + dj, b.il + di, b.iu + di⟩

theorem boxPts_shift (b : Box) (dk dj di : ℤ) :
    boxPts (b.shift dk dj di) = (boxPts b).map fun q => (q.1 + dk, q.2.1 + dj, q.2.2 + di) := by
  unfold boxPts Box.shift
  simp only [Verif.Arr.rng_shift, List.flatMap_map, List.map_flatMap, List.map_map, Function.comp_def]

theorem packBox_eq (b : Box) (u : A3 ℝ) : packBox b u = (boxPts b).map u := by
  unfold packBox
  rw [loops_eq b (fun k j i buf => buf ++ [u (k, j, i)]), fold_append, List.nil_append]
  exact List.flatMap_pure_eq_map _ _

theorem unpackBox_at (b : Box) (dk dj di : ℤ) (u a : A3 ℝ) (k j i : ℤ) (h : b.In k j i) :
    unpackBox b (packBox (b.shift dk dj di) u) a (k, j, i) = u (k + dk, j + dj, i + di) := by
  have e : packBox (b.shift dk dj di) u = (boxPts b).map fun q => u (q.1 + dk, q.2.1 + dj, q.2.2 + di) := by
    rw [packBox_eq, boxPts_shift, List.map_map]; rfl
  unfold unpackBox
  rw [e, loops_eq b (fun k j i (st : A3 ℝ × ℕ) => (Function.update st.1 (k, j, i)
    (((boxPts b).map fun q => u (q.1 + dk, q.2.1 + dj, q.2.2 + di)).getD st.2 0), st.2 + 1)),
    recv_fold0 (boxPts b) (fun q => (q.1, q.2.1, q.2.2)) (fun q => u (q.1 + dk, q.2.1 + dj, q.2.2 + di)) (fun _ v _ => v) a]
  have hm : (k, j, i) ∈ boxPts b := (mem_boxPts b k j i).mpr h
  exact Verif.Grid.fold_in (boxPts b) (fun q => (q.1, q.2.1, q.2.2)) (fun q _ => u (q.1 + dk, q.2.1 + dj, q.2.2 + di)) a
    (by simpa using nodup_boxPts b) (fun _ _ _ _ _ => rfl) (k, j, i) hm

/-- What is lost on one side of the interface arrives at the other. -/
theorem flux_balance (e : ℤ → ℤ → ℤ → ℤ × ℤ × ℤ) (uf cbuf : A3 ℝ) (x fx o t : ℤ) (U : ℝ) (hU : cbuf (e o t x) = U) :
    2 * (1/3 * (4 * avg4 e uf (2 * o - 1) (2 * t - 1) fx - U) - U) =
      (uf (e (2 * o - 1 + 0) (2 * t - 1 + 0) fx) - proVal e x fx cbuf uf o t 0 0)
      + (uf (e (2 * o - 1 + 0) (2 * t - 1 + 1) fx) - proVal e x fx cbuf uf o t 0 1)
      + (uf (e (2 * o - 1 + 1) (2 * t - 1 + 0) fx) - proVal e x fx cbuf uf o t 1 0)
      + (uf (e (2 * o - 1 + 1) (2 * t - 1 + 1) fx) - proVal e x fx cbuf uf o t 1 1) := by
  unfold proVal avg4
  rw [hU]
  simp only [add_zero, Int.cast_zero, Int.cast_one]
  ring

end Verif.Mg
