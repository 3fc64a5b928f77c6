import Verif.Model.Array
import Mathlib.Tactic.Linarith
import Mathlib.Tactic.Ring

/-! Helper lemmas for arrays and pack/unpack loops. -/
namespace Verif.Arr

theorem mem_rng {s e i : Int} : i ∈ rng s e ↔ s ≤ i ∧ i ≤ e := by
  unfold rng
  simp only [List.mem_map, List.mem_range]
  constructor
  · rintro ⟨t, ht, rfl⟩; omega
  · rintro ⟨h1, h2⟩; exact ⟨(i - s).toNat, by omega, by omega⟩

theorem length_rng (s e : Int) : (rng s e).length = (e + 1 - s).toNat := by simp [rng]

theorem nodup_rng (s e : Int) : (rng s e).Nodup := by
  unfold rng
  apply List.Nodup.map _ List.nodup_range
  intro a b h; simpa using h

theorem rng_shift (s e d : Int) : rng (s + d) (e + d) = (rng s e).map (· + d) := by
  unfold rng
  rw [List.map_map]
  have : (e + d + 1 - (s + d)).toNat = (e + 1 - s).toNat := by omega
  rw [this]
  apply List.map_congr_left
  intro t _; simp; omega

/-- Index product. -/
def prodL {α β : Type} (l : List α) (r : List β) : List (α × β) := l.flatMap fun a => r.map fun b => (a, b)

theorem mem_prodL {α β : Type} {l : List α} {r : List β} {a b} : (a, b) ∈ prodL l r ↔ a ∈ l ∧ b ∈ r := by
  simp [prodL]

theorem length_prodL {α β : Type} (l : List α) (r : List β) :
    (prodL l r).length = l.length * r.length := by
  unfold prodL
  induction l with
  | nil => simp
  | cons a l ih => simp [ih, Nat.succ_mul]; omega

theorem nodup_prodL {α β : Type} {l : List α} {r : List β} (hl : l.Nodup) (hr : r.Nodup) :
    (prodL l r).Nodup := by
  unfold prodL
  rw [List.nodup_flatMap]
  refine ⟨fun a _ => hr.map (fun x y h => by simpa using h), ?_⟩
  refine hl.imp ?_
  intro a b hab
  simp only [Function.onFun, List.disjoint_left, List.mem_map]
  rintro _ ⟨x, _, rfl⟩ ⟨y, _, h⟩
  simp at h; exact hab h.1.symm

theorem prodL_map {α β γ δ : Type} (l : List α) (r : List β) (f : α → γ) (g : β → δ) :
    prodL (l.map f) (r.map g) = (prodL l r).map (fun x => (f x.1, g x.2)) := by
  unfold prodL
  induction l with
  | nil => simp
  | cons a l ih => rw [List.map_cons, List.flatMap_cons, ih]; simp [Function.comp_def]

theorem foldl_prodL {α β σ : Type} (l : List α) (r : List β) (f : σ → α × β → σ) (st : σ) :
    (prodL l r).foldl f st = l.foldl (fun st a => r.foldl (fun st b => f st (a, b)) st) st := by
  unfold prodL
  induction l generalizing st with
  | nil => simp
  | cons a l ih => simp [List.foldl_append, List.foldl_map, ih]

theorem store_same {α : Type} (m : Mem α) (p : Int) (v : α) : store m p v p = v := by simp [store]
theorem store_ne {α : Type} (m : Mem α) {p q : Int} (v : α) (h : q ≠ p) : store m p v q = m q := by
  simp [store, h]

/-- Effect of a run of `buf[offset++] = ...` statements. -/
theorem putFold {α ι : Type} (buf : Int) (adr : ι → Int) (l : List ι) :
    ∀ (m : Mem α) (off : Int),
      (∀ x ∈ l, adr x < buf + off ∨ buf + off + l.length ≤ adr x) →
      let r := l.foldl (fun st x => putBuf buf (adr x) st) (m, off)
      r.2 = off + l.length ∧
      (∀ (t : Nat) (h : t < l.length), r.1 (buf + off + t) = m (adr l[t])) ∧
      (∀ q, q < buf + off ∨ buf + off + l.length ≤ q → r.1 q = m q) := by
  induction l with
  | nil => intro m off _; simp
  | cons x l ih =>
    intro m off h
    rw [List.foldl_cons, show putBuf buf (adr x) (m, off) = (store m (buf + off) (m (adr x)), off + 1) from rfl]
    have hl : ((x :: l).length : Int) = l.length + 1 := by simp
    obtain ⟨h1, h2, h3⟩ := ih (store m (buf + off) (m (adr x))) (off + 1) (by
      intro y hy
      have := h y (List.mem_cons_of_mem _ hy)
      rw [hl] at this; omega)
    refine ⟨by rw [h1, hl]; ring, ?_, ?_⟩
    · intro t ht
      cases t with
      | zero =>
        rw [h3 _ (by left; simp)]
        simp [store]
      | succ t =>
        have ht' : t < l.length := by simpa using ht
        have := h2 t ht'
        have e : buf + off + ((t + 1 : Nat) : Int) = buf + (off + 1) + t := by push_cast; ring
        rw [e, this]
        simp only [List.getElem_cons_succ]
        apply store_ne
        have := h l[t] (List.mem_cons_of_mem _ (List.getElem_mem ht'))
        rw [hl] at this; omega
    · intro q hq
      rw [hl] at hq
      rw [h3 q (by omega)]
      exact store_ne _ _ (by omega)

/-- Effect of a run of `... = buf[offset++]` statements into pairwise different addresses outside
the buffer. -/
theorem getFold {α ι : Type} (buf : Int) (adr : ι → Int) (l : List ι) :
    ∀ (m : Mem α) (off : Int), (l.map adr).Nodup →
      (∀ x ∈ l, adr x < buf + off ∨ buf + off + l.length ≤ adr x) →
      let r := l.foldl (fun st x => getBuf buf (adr x) st) (m, off)
      r.2 = off + l.length ∧
      (∀ (t : Nat) (h : t < l.length), r.1 (adr l[t]) = m (buf + off + t)) ∧
      (∀ q, (∀ x ∈ l, q ≠ adr x) → r.1 q = m q) := by
  induction l with
  | nil => intro m off _ _; simp
  | cons x l ih =>
    intro m off hn h
    rw [List.foldl_cons, show getBuf buf (adr x) (m, off) = (store m (adr x) (m (buf + off)), off + 1) from rfl]
    have hl : ((x :: l).length : Int) = l.length + 1 := by simp
    simp only [List.map_cons, List.nodup_cons] at hn
    obtain ⟨h1, h2, h3⟩ := ih (store m (adr x) (m (buf + off))) (off + 1) hn.2 (by
      intro y hy
      have := h y (List.mem_cons_of_mem _ hy)
      rw [hl] at this; omega)
    refine ⟨by rw [h1, hl]; ring, ?_, ?_⟩
    · intro t ht
      cases t with
      | zero =>
        simp only [List.getElem_cons_zero]
        rw [h3 _ (fun y hy e => hn.1 (by rw [e]; exact List.mem_map_of_mem hy))]
        simp [store]
      | succ t =>
        have ht' : t < l.length := by simpa using ht
        have := h2 t ht'
        simp only [List.getElem_cons_succ]
        rw [this]
        have e : buf + off + ((t + 1 : Nat) : Int) = buf + (off + 1) + t := by push_cast; ring
        rw [e]
        apply store_ne
        have := h x (List.mem_cons_self)
        rw [hl] at this; omega
    · intro q hq
      rw [h3 q (fun y hy => hq y (List.mem_cons_of_mem _ hy))]
      exact store_ne _ _ (hq x List.mem_cons_self)

/-- Pack over `l`, transport the buffer, unpack over the shifted list. -/
theorem pack_unpack {α ι : Type} (buf buf' off off' : Int) (l : List ι) (g : ι → ι)
    (src dst : ι → Int) (m m' : Mem α)
    (hs : ∀ x ∈ l, src x < buf + off ∨ buf + off + l.length ≤ src x)
    (hd : ∀ x ∈ l, dst (g x) < buf' + off' ∨ buf' + off' + l.length ≤ dst (g x))
    (hn : (l.map fun x => dst (g x)).Nodup)
    (ht : ∀ t : Int, 0 ≤ t → t < l.length →
      m' (buf' + off' + t) = (l.foldl (fun st x => putBuf buf (src x) st) (m, off)).1 (buf + off + t)) :
    let r := (l.map g).foldl (fun st x => getBuf buf' (dst x) st) (m', off')
    (∀ x ∈ l, r.1 (dst (g x)) = m (src x)) ∧ (∀ q, (∀ x ∈ l, q ≠ dst (g x)) → r.1 q = m' q) ∧
      r.2 = off' + l.length := by
  intro r
  have hr : r = l.foldl (fun st x => getBuf buf' (dst (g x)) st) (m', off') := by
    simp only [r, List.foldl_map]
  rw [hr]
  obtain ⟨p1, p2, p3⟩ := putFold buf src l m off hs
  obtain ⟨q1, q2, q3⟩ := getFold buf' (fun x => dst (g x)) l m' off' hn hd
  refine ⟨?_, q3, q1⟩
  intro x hx
  obtain ⟨t, htl, rfl⟩ := List.getElem_of_mem hx
  rw [q2 t htl, ht t (by omega) (by omega), p2 t htl]

/-- One Horner level is injective. -/
theorem horner_inj {n i i' q q' : Int} (h0 : 0 ≤ i) (h1 : i < n) (h0' : 0 ≤ i') (h1' : i' < n)
    (h : i + n * q = i' + n * q') : i = i' ∧ q = q' := by
  have hn : 0 < n := by omega
  have hq : q = q' := by
    have a : (i + n * q) / n = q := by
      rw [Int.add_mul_ediv_left _ _ (by omega), Int.ediv_eq_zero_of_lt h0 h1]; omega
    have b : (i' + n * q') / n = q' := by
      rw [Int.add_mul_ediv_left _ _ (by omega), Int.ediv_eq_zero_of_lt h0' h1']; omega
    rw [← a, h, b]
  subst hq
  exact ⟨by linarith, rfl⟩

theorem horner_range {n i q Q : Int} (h0 : 0 ≤ i) (h1 : i < n) (hq0 : 0 ≤ q) (hq : q < Q) :
    0 ≤ i + n * q ∧ i + n * q < n * Q := by
  have hn : 0 < n := by omega
  have : n * (q + 1) ≤ n * Q := Int.mul_le_mul_of_nonneg_left (by omega) (by omega)
  have := Int.mul_nonneg (by omega : 0 ≤ n) hq0
  constructor
  · omega
  · nlinarith

theorem horner_split {n Q p : Int} (hp : 0 ≤ p) (hp' : p < n * Q) (hn : 0 ≤ n) :
    ∃ i q, 0 ≤ i ∧ i < n ∧ 0 ≤ q ∧ q < Q ∧ p = i + n * q := by
  have hn' : 0 < n := by
    rcases Int.lt_or_eq_of_le hn with h | h
    · exact h
    · subst h; simp at hp'; omega
  refine ⟨p % n, p / n, Int.emod_nonneg _ (by omega), Int.emod_lt_of_pos _ hn',
    Int.ediv_nonneg hp hn, ?_, (Int.emod_add_mul_ediv p n).symm⟩
  exact Int.ediv_lt_of_lt_mul hn' (by rw [mul_comm]; exact hp')

theorem one_le_mul' {a b : Int} (ha : 1 ≤ a) (hb : 1 ≤ b) : 1 ≤ a * b := by nlinarith

/-! Boxes as lists of tuples. -/

def box3 (sk ek sj ej si ei : Int) : List (Int × Int × Int) :=
  prodL (rng sk ek) (prodL (rng sj ej) (rng si ei))

def Arr.at3' (a : Arr) (x : Int × Int × Int) : Int := a.at3 (x.1) (x.2.1) (x.2.2)

def sh3 (dk dj di : Int) (x : Int × Int × Int) : Int × Int × Int :=
  (x.1 + dk, x.2.1 + dj, x.2.2 + di)

theorem mem_box3 {sk ek sj ej si ei k j i : Int} : (k, j, i) ∈ box3 sk ek sj ej si ei ↔
    (sk ≤ k ∧ k ≤ ek) ∧ (sj ≤ j ∧ j ≤ ej) ∧ (si ≤ i ∧ i ≤ ei) := by
  simp only [box3, mem_prodL, mem_rng]

theorem length_box3 (sk ek sj ej si ei : Int) : (box3 sk ek sj ej si ei).length = (ek + 1 - sk).toNat * (ej + 1 - sj).toNat * (ei + 1 - si).toNat := by
  simp only [box3, length_prodL, length_rng]; try ring

theorem box3_shift (sk ek sj ej si ei dk dj di : Int) :
    box3 (sk + dk) (ek + dk) (sj + dj) (ej + dj) (si + di) (ei + di) = (box3 sk ek sj ej si ei).map (sh3 dk dj di) := by
  simp only [box3, rng_shift, prodL_map]; rfl

theorem pack3_eq {α : Type} (src : Arr) (buf : Int) (si ei sj ej sk ek : Int) (st : Mem α × Int) :
    pack3 src buf si ei sj ej sk ek st =
      (box3 sk ek sj ej si ei).foldl (fun st x => putBuf buf (src.at3' x) st) st := by
  simp only [box3, foldl_prodL]; rfl

theorem unpack3_eq {α : Type} (dst : Arr) (buf : Int) (si ei sj ej sk ek : Int) (st : Mem α × Int) :
    unpack3 buf dst si ei sj ej sk ek st =
      (box3 sk ek sj ej si ei).foldl (fun st x => getBuf buf (dst.at3' x) st) st := by
  simp only [box3, foldl_prodL]; rfl

theorem at3_range (a : Arr) {k : Int} (k0 : 0 ≤ k) (k1 : k < a.nx3) {j : Int} (j0 : 0 ≤ j) (j1 : j < a.nx2) {i : Int} (i0 : 0 ≤ i) (i1 : i < a.nx1)
    (g4 : 1 ≤ a.nx4) (g5 : 1 ≤ a.nx5) (g6 : 1 ≤ a.nx6) :
    a.base ≤ a.at3 k j i ∧ a.at3 k j i < a.base + a.size := by
  obtain ⟨a1, b1⟩ := horner_range j0 j1 k0 k1
  obtain ⟨a2, b2⟩ := horner_range i0 i1 a1 b1
  have hr : 1 ≤ a.nx4 * a.nx5 * a.nx6 := by
    have p5 := one_le_mul' g4 g5
    have p6 := one_le_mul' p5 g6
    exact p6
  have hP : 0 ≤ a.nx1 * (a.nx2 * a.nx3) := by omega
  have hm := Int.mul_le_mul_of_nonneg_left hr hP
  have hs : a.size = (a.nx1 * (a.nx2 * a.nx3)) * (a.nx4 * a.nx5 * a.nx6) := by simp only [Arr.size]; ring
  rw [hs]
  simp only [Arr.at3]; omega

theorem sep3 (a : Arr) (lo N : Int) {sk ek sj ej si ei : Int} (hk : 0 ≤ sk ∧ ek < a.nx3) (hj : 0 ≤ sj ∧ ej < a.nx2) (hi : 0 ≤ si ∧ ei < a.nx1)
    (g4 : 1 ≤ a.nx4) (g5 : 1 ≤ a.nx5) (g6 : 1 ≤ a.nx6) (hdis : a.base + a.size ≤ lo ∨ lo + N ≤ a.base) :
    ∀ x ∈ box3 sk ek sj ej si ei, a.at3' x < lo ∨ lo + N ≤ a.at3' x := by
  rintro ⟨k, j, i⟩ hx
  obtain ⟨⟨k0, k1⟩, ⟨j0, j1⟩, ⟨i0, i1⟩⟩ := mem_box3.1 hx
  have := at3_range a (le_trans hk.1 k0) (lt_of_le_of_lt k1 hk.2) (le_trans hj.1 j0) (lt_of_le_of_lt j1 hj.2) (le_trans hi.1 i0) (lt_of_le_of_lt i1 hi.2) g4 g5 g6
  simp only [Arr.at3']; omega

theorem sep3_shift (a : Arr) (lo N : Int) {sk ek sj ej si ei dk dj di : Int} (hk : 0 ≤ sk + dk ∧ ek + dk < a.nx3) (hj : 0 ≤ sj + dj ∧ ej + dj < a.nx2) (hi : 0 ≤ si + di ∧ ei + di < a.nx1)
    (g4 : 1 ≤ a.nx4) (g5 : 1 ≤ a.nx5) (g6 : 1 ≤ a.nx6) (hdis : a.base + a.size ≤ lo ∨ lo + N ≤ a.base) :
    ∀ x ∈ box3 sk ek sj ej si ei, a.at3' (sh3 dk dj di x) < lo ∨ lo + N ≤ a.at3' (sh3 dk dj di x) := by
  intro x hx
  apply sep3 a lo N hk hj hi g4 g5 g6 hdis
  rw [box3_shift]; exact List.mem_map_of_mem hx

theorem nodup3 (a : Arr) {sk ek sj ej si ei dk dj di : Int} (hk : 0 ≤ sk + dk ∧ ek + dk < a.nx3) (hj : 0 ≤ sj + dj ∧ ej + dj < a.nx2) (hi : 0 ≤ si + di ∧ ei + di < a.nx1) :
    ((box3 sk ek sj ej si ei).map fun x => a.at3' (sh3 dk dj di x)).Nodup := by
  have hn : (box3 sk ek sj ej si ei).Nodup := by
    unfold box3; exact (nodup_prodL (nodup_rng _ _) (nodup_prodL (nodup_rng _ _) (nodup_rng _ _)))
  refine List.Nodup.map_on ?_ hn
  rintro ⟨k, j, i⟩ hx ⟨k', j', i'⟩ hy h
  obtain ⟨⟨k0, k1⟩, ⟨j0, j1⟩, ⟨i0, i1⟩⟩ := mem_box3.1 hx
  obtain ⟨⟨k2, k3⟩, ⟨j2, j3⟩, ⟨i2, i3⟩⟩ := mem_box3.1 hy
  simp only [Arr.at3', Arr.at3, sh3] at h
  have h0 := Int.add_left_cancel h
  obtain ⟨ri, h1⟩ := horner_inj (by omega) (by omega) (by omega) (by omega) h0
  obtain ⟨rj, h2⟩ := horner_inj (by omega) (by omega) (by omega) (by omega) h1
  simp only [Prod.mk.injEq]; omega

def box4 (sn en sk ek sj ej si ei : Int) : List (Int × Int × Int × Int) :=
  prodL (rng sn en) (prodL (rng sk ek) (prodL (rng sj ej) (rng si ei)))

def Arr.at4' (a : Arr) (x : Int × Int × Int × Int) : Int := a.at4 (x.1) (x.2.1) (x.2.2.1) (x.2.2.2)

def sh4 (dn dk dj di : Int) (x : Int × Int × Int × Int) : Int × Int × Int × Int :=
  (x.1 + dn, x.2.1 + dk, x.2.2.1 + dj, x.2.2.2 + di)

theorem mem_box4 {sn en sk ek sj ej si ei n k j i : Int} : (n, k, j, i) ∈ box4 sn en sk ek sj ej si ei ↔
    (sn ≤ n ∧ n ≤ en) ∧ (sk ≤ k ∧ k ≤ ek) ∧ (sj ≤ j ∧ j ≤ ej) ∧ (si ≤ i ∧ i ≤ ei) := by
  simp only [box4, mem_prodL, mem_rng]

theorem length_box4 (sn en sk ek sj ej si ei : Int) : (box4 sn en sk ek sj ej si ei).length = (en + 1 - sn).toNat * (ek + 1 - sk).toNat * (ej + 1 - sj).toNat * (ei + 1 - si).toNat := by
  simp only [box4, length_prodL, length_rng]; try ring

theorem box4_shift (sn en sk ek sj ej si ei dn dk dj di : Int) :
    box4 (sn + dn) (en + dn) (sk + dk) (ek + dk) (sj + dj) (ej + dj) (si + di) (ei + di) = (box4 sn en sk ek sj ej si ei).map (sh4 dn dk dj di) := by
  simp only [box4, rng_shift, prodL_map]; rfl

theorem pack4_eq {α : Type} (src : Arr) (buf : Int) (sn en si ei sj ej sk ek : Int) (st : Mem α × Int) :
    pack4 src buf sn en si ei sj ej sk ek st =
      (box4 sn en sk ek sj ej si ei).foldl (fun st x => putBuf buf (src.at4' x) st) st := by
  simp only [box4, foldl_prodL]; rfl

theorem unpack4_eq {α : Type} (dst : Arr) (buf : Int) (sn en si ei sj ej sk ek : Int) (st : Mem α × Int) :
    unpack4 buf dst sn en si ei sj ej sk ek st =
      (box4 sn en sk ek sj ej si ei).foldl (fun st x => getBuf buf (dst.at4' x) st) st := by
  simp only [box4, foldl_prodL]; rfl

theorem at4_range (a : Arr) {n : Int} (n0 : 0 ≤ n) (n1 : n < a.nx4) {k : Int} (k0 : 0 ≤ k) (k1 : k < a.nx3) {j : Int} (j0 : 0 ≤ j) (j1 : j < a.nx2) {i : Int} (i0 : 0 ≤ i) (i1 : i < a.nx1)
    (g5 : 1 ≤ a.nx5) (g6 : 1 ≤ a.nx6) :
    a.base ≤ a.at4 n k j i ∧ a.at4 n k j i < a.base + a.size := by
  obtain ⟨a1, b1⟩ := horner_range k0 k1 n0 n1
  obtain ⟨a2, b2⟩ := horner_range j0 j1 a1 b1
  obtain ⟨a3, b3⟩ := horner_range i0 i1 a2 b2
  have hr : 1 ≤ a.nx5 * a.nx6 := by
    have p6 := one_le_mul' g5 g6
    exact p6
  have hP : 0 ≤ a.nx1 * (a.nx2 * (a.nx3 * a.nx4)) := by omega
  have hm := Int.mul_le_mul_of_nonneg_left hr hP
  have hs : a.size = (a.nx1 * (a.nx2 * (a.nx3 * a.nx4))) * (a.nx5 * a.nx6) := by simp only [Arr.size]; ring
  rw [hs]
  simp only [Arr.at4]; omega

theorem sep4 (a : Arr) (lo N : Int) {sn en sk ek sj ej si ei : Int} (hn : 0 ≤ sn ∧ en < a.nx4) (hk : 0 ≤ sk ∧ ek < a.nx3) (hj : 0 ≤ sj ∧ ej < a.nx2) (hi : 0 ≤ si ∧ ei < a.nx1)
    (g5 : 1 ≤ a.nx5) (g6 : 1 ≤ a.nx6) (hdis : a.base + a.size ≤ lo ∨ lo + N ≤ a.base) :
    ∀ x ∈ box4 sn en sk ek sj ej si ei, a.at4' x < lo ∨ lo + N ≤ a.at4' x := by
  rintro ⟨n, k, j, i⟩ hx
  obtain ⟨⟨n0, n1⟩, ⟨k0, k1⟩, ⟨j0, j1⟩, ⟨i0, i1⟩⟩ := mem_box4.1 hx
  have := at4_range a (le_trans hn.1 n0) (lt_of_le_of_lt n1 hn.2) (le_trans hk.1 k0) (lt_of_le_of_lt k1 hk.2) (le_trans hj.1 j0) (lt_of_le_of_lt j1 hj.2) (le_trans hi.1 i0) (lt_of_le_of_lt i1 hi.2) g5 g6
  simp only [Arr.at4']; omega

theorem sep4_shift (a : Arr) (lo N : Int) {sn en sk ek sj ej si ei dn dk dj di : Int} (hn : 0 ≤ sn + dn ∧ en + dn < a.nx4) (hk : 0 ≤ sk + dk ∧ ek + dk < a.nx3) (hj : 0 ≤ sj + dj ∧ ej + dj < a.nx2) (hi : 0 ≤ si + di ∧ ei + di < a.nx1)
    (g5 : 1 ≤ a.nx5) (g6 : 1 ≤ a.nx6) (hdis : a.base + a.size ≤ lo ∨ lo + N ≤ a.base) :
    ∀ x ∈ box4 sn en sk ek sj ej si ei, a.at4' (sh4 dn dk dj di x) < lo ∨ lo + N ≤ a.at4' (sh4 dn dk dj di x) := by
  intro x hx
  apply sep4 a lo N hn hk hj hi g5 g6 hdis
  rw [box4_shift]; exact List.mem_map_of_mem hx

theorem nodup4 (a : Arr) {sn en sk ek sj ej si ei dn dk dj di : Int} (hn : 0 ≤ sn + dn ∧ en + dn < a.nx4) (hk : 0 ≤ sk + dk ∧ ek + dk < a.nx3) (hj : 0 ≤ sj + dj ∧ ej + dj < a.nx2) (hi : 0 ≤ si + di ∧ ei + di < a.nx1) :
    ((box4 sn en sk ek sj ej si ei).map fun x => a.at4' (sh4 dn dk dj di x)).Nodup := by
  have hn : (box4 sn en sk ek sj ej si ei).Nodup := by
    unfold box4; exact (nodup_prodL (nodup_rng _ _) (nodup_prodL (nodup_rng _ _) (nodup_prodL (nodup_rng _ _) (nodup_rng _ _))))
  refine List.Nodup.map_on ?_ hn
  rintro ⟨n, k, j, i⟩ hx ⟨n', k', j', i'⟩ hy h
  obtain ⟨⟨n0, n1⟩, ⟨k0, k1⟩, ⟨j0, j1⟩, ⟨i0, i1⟩⟩ := mem_box4.1 hx
  obtain ⟨⟨n2, n3⟩, ⟨k2, k3⟩, ⟨j2, j3⟩, ⟨i2, i3⟩⟩ := mem_box4.1 hy
  simp only [Arr.at4', Arr.at4, sh4] at h
  have h0 := Int.add_left_cancel h
  obtain ⟨ri, h1⟩ := horner_inj (by omega) (by omega) (by omega) (by omega) h0
  obtain ⟨rj, h2⟩ := horner_inj (by omega) (by omega) (by omega) (by omega) h1
  obtain ⟨rk, h3⟩ := horner_inj (by omega) (by omega) (by omega) (by omega) h2
  simp only [Prod.mk.injEq]; omega

def box5 (sn en sk ek sj ej si ei sm em : Int) : List (Int × Int × Int × Int × Int) :=
  prodL (rng sn en) (prodL (rng sk ek) (prodL (rng sj ej) (prodL (rng si ei) (rng sm em))))

def Arr.at5' (a : Arr) (x : Int × Int × Int × Int × Int) : Int := a.at5 (x.1) (x.2.1) (x.2.2.1) (x.2.2.2.1) (x.2.2.2.2)

def sh5 (dn dk dj di dm : Int) (x : Int × Int × Int × Int × Int) : Int × Int × Int × Int × Int :=
  (x.1 + dn, x.2.1 + dk, x.2.2.1 + dj, x.2.2.2.1 + di, x.2.2.2.2 + dm)

theorem mem_box5 {sn en sk ek sj ej si ei sm em n k j i m : Int} : (n, k, j, i, m) ∈ box5 sn en sk ek sj ej si ei sm em ↔
    (sn ≤ n ∧ n ≤ en) ∧ (sk ≤ k ∧ k ≤ ek) ∧ (sj ≤ j ∧ j ≤ ej) ∧ (si ≤ i ∧ i ≤ ei) ∧ (sm ≤ m ∧ m ≤ em) := by
  simp only [box5, mem_prodL, mem_rng]

theorem length_box5 (sn en sk ek sj ej si ei sm em : Int) : (box5 sn en sk ek sj ej si ei sm em).length = (en + 1 - sn).toNat * (ek + 1 - sk).toNat * (ej + 1 - sj).toNat * (ei + 1 - si).toNat * (em + 1 - sm).toNat := by
  simp only [box5, length_prodL, length_rng]; try ring

theorem box5_shift (sn en sk ek sj ej si ei sm em dn dk dj di dm : Int) :
    box5 (sn + dn) (en + dn) (sk + dk) (ek + dk) (sj + dj) (ej + dj) (si + di) (ei + di) (sm + dm) (em + dm) = (box5 sn en sk ek sj ej si ei sm em).map (sh5 dn dk dj di dm) := by
  simp only [box5, rng_shift, prodL_map]; rfl

theorem pack5_eq {α : Type} (src : Arr) (buf : Int) (sn en sm em si ei sj ej sk ek : Int) (st : Mem α × Int) :
    pack5 src buf sn en sm em si ei sj ej sk ek st =
      (box5 sn en sk ek sj ej si ei sm em).foldl (fun st x => putBuf buf (src.at5' x) st) st := by
  simp only [box5, foldl_prodL]; rfl

theorem unpack5_eq {α : Type} (dst : Arr) (buf : Int) (sn en sm em si ei sj ej sk ek : Int) (st : Mem α × Int) :
    unpack5 buf dst sn en sm em si ei sj ej sk ek st =
      (box5 sn en sk ek sj ej si ei sm em).foldl (fun st x => getBuf buf (dst.at5' x) st) st := by
  simp only [box5, foldl_prodL]; rfl

theorem at5_range (a : Arr) {n : Int} (n0 : 0 ≤ n) (n1 : n < a.nx5) {k : Int} (k0 : 0 ≤ k) (k1 : k < a.nx4) {j : Int} (j0 : 0 ≤ j) (j1 : j < a.nx3) {i : Int} (i0 : 0 ≤ i) (i1 : i < a.nx2) {m : Int} (m0 : 0 ≤ m) (m1 : m < a.nx1)
    (g6 : 1 ≤ a.nx6) :
    a.base ≤ a.at5 n k j i m ∧ a.at5 n k j i m < a.base + a.size := by
  obtain ⟨a1, b1⟩ := horner_range k0 k1 n0 n1
  obtain ⟨a2, b2⟩ := horner_range j0 j1 a1 b1
  obtain ⟨a3, b3⟩ := horner_range i0 i1 a2 b2
  obtain ⟨a4, b4⟩ := horner_range m0 m1 a3 b3
  have hr : 1 ≤ a.nx6 := by
    exact g6
  have hP : 0 ≤ a.nx1 * (a.nx2 * (a.nx3 * (a.nx4 * a.nx5))) := by omega
  have hm := Int.mul_le_mul_of_nonneg_left hr hP
  have hs : a.size = (a.nx1 * (a.nx2 * (a.nx3 * (a.nx4 * a.nx5)))) * (a.nx6) := by simp only [Arr.size]; ring
  rw [hs]
  simp only [Arr.at5]; omega

theorem sep5 (a : Arr) (lo N : Int) {sn en sk ek sj ej si ei sm em : Int} (hn : 0 ≤ sn ∧ en < a.nx5) (hk : 0 ≤ sk ∧ ek < a.nx4) (hj : 0 ≤ sj ∧ ej < a.nx3) (hi : 0 ≤ si ∧ ei < a.nx2) (hm : 0 ≤ sm ∧ em < a.nx1)
    (g6 : 1 ≤ a.nx6) (hdis : a.base + a.size ≤ lo ∨ lo + N ≤ a.base) :
    ∀ x ∈ box5 sn en sk ek sj ej si ei sm em, a.at5' x < lo ∨ lo + N ≤ a.at5' x := by
  rintro ⟨n, k, j, i, m⟩ hx
  obtain ⟨⟨n0, n1⟩, ⟨k0, k1⟩, ⟨j0, j1⟩, ⟨i0, i1⟩, ⟨m0, m1⟩⟩ := mem_box5.1 hx
  have := at5_range a (le_trans hn.1 n0) (lt_of_le_of_lt n1 hn.2) (le_trans hk.1 k0) (lt_of_le_of_lt k1 hk.2) (le_trans hj.1 j0) (lt_of_le_of_lt j1 hj.2) (le_trans hi.1 i0) (lt_of_le_of_lt i1 hi.2) (le_trans hm.1 m0) (lt_of_le_of_lt m1 hm.2) g6
  simp only [Arr.at5']; omega

theorem sep5_shift (a : Arr) (lo N : Int) {sn en sk ek sj ej si ei sm em dn dk dj di dm : Int} (hn : 0 ≤ sn + dn ∧ en + dn < a.nx5) (hk : 0 ≤ sk + dk ∧ ek + dk < a.nx4) (hj : 0 ≤ sj + dj ∧ ej + dj < a.nx3) (hi : 0 ≤ si + di ∧ ei + di < a.nx2) (hm : 0 ≤ sm + dm ∧ em + dm < a.nx1)
    (g6 : 1 ≤ a.nx6) (hdis : a.base + a.size ≤ lo ∨ lo + N ≤ a.base) :
    ∀ x ∈ box5 sn en sk ek sj ej si ei sm em, a.at5' (sh5 dn dk dj di dm x) < lo ∨ lo + N ≤ a.at5' (sh5 dn dk dj di dm x) := by
  intro x hx
  apply sep5 a lo N hn hk hj hi hm g6 hdis
  rw [box5_shift]; exact List.mem_map_of_mem hx

theorem nodup5 (a : Arr) {sn en sk ek sj ej si ei sm em dn dk dj di dm : Int} (hn : 0 ≤ sn + dn ∧ en + dn < a.nx5) (hk : 0 ≤ sk + dk ∧ ek + dk < a.nx4) (hj : 0 ≤ sj + dj ∧ ej + dj < a.nx3) (hi : 0 ≤ si + di ∧ ei + di < a.nx2) (hm : 0 ≤ sm + dm ∧ em + dm < a.nx1) :
    ((box5 sn en sk ek sj ej si ei sm em).map fun x => a.at5' (sh5 dn dk dj di dm x)).Nodup := by
  have hn : (box5 sn en sk ek sj ej si ei sm em).Nodup := by
    unfold box5; exact (nodup_prodL (nodup_rng _ _) (nodup_prodL (nodup_rng _ _) (nodup_prodL (nodup_rng _ _) (nodup_prodL (nodup_rng _ _) (nodup_rng _ _)))))
  refine List.Nodup.map_on ?_ hn
  rintro ⟨n, k, j, i, m⟩ hx ⟨n', k', j', i', m'⟩ hy h
  obtain ⟨⟨n0, n1⟩, ⟨k0, k1⟩, ⟨j0, j1⟩, ⟨i0, i1⟩, ⟨m0, m1⟩⟩ := mem_box5.1 hx
  obtain ⟨⟨n2, n3⟩, ⟨k2, k3⟩, ⟨j2, j3⟩, ⟨i2, i3⟩, ⟨m2, m3⟩⟩ := mem_box5.1 hy
  simp only [Arr.at5', Arr.at5, sh5] at h
  have h0 := Int.add_left_cancel h
  obtain ⟨rm, h1⟩ := horner_inj (by omega) (by omega) (by omega) (by omega) h0
  obtain ⟨ri, h2⟩ := horner_inj (by omega) (by omega) (by omega) (by omega) h1
  obtain ⟨rj, h3⟩ := horner_inj (by omega) (by omega) (by omega) (by omega) h2
  obtain ⟨rk, h4⟩ := horner_inj (by omega) (by omega) (by omega) (by omega) h3
  simp only [Prod.mk.injEq]; omega

end Verif.Arr
