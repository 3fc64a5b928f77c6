import Verif.Spec.Restart

/-! # Lemmas on restart files -/
namespace Verif.Restart
open Verif.Params (Str)

theorem sizes_eq_aux (l : List Str) : ∀ n, l.foldl (fun n x => n + x.length) n = n + l.flatten.length := by
  induction l with
  | nil => simp
  | cons x xs ih => intro n; rw [List.foldl_cons, ih]; simp [Nat.add_assoc]

theorem sizes_eq (l : List Str) : sizes l = l.flatten.length := by
  unfold sizes; rw [sizes_eq_aux]; simp

theorem sizes_congr {l m : List Str} (h : l.map (·.length) = m.map (·.length)) : sizes l = sizes m := by
  rw [sizes_eq, sizes_eq, List.length_flatten, List.length_flatten]
  exact congrArg List.sum h

theorem blockSize_congr (c : Cfg) {a b : BlockData} (h : SameShape a b) : blockSize c a = blockSize c b := by
  unfold blockSize
  rw [h.u, h.w, h.w1, h.b1, h.b2, h.b3, h.ir, h.ucr, h.ecr, h.s, h.h, h.chir, sizes_congr h.iuser,
    sizes_congr h.ruser]

/-- Bytes if enabled. -/
def opt (p : Bool) (x : Str) : Str := if p then x else []

/-- The stored bytes of a block. -/
def packed (c : Cfg) (b : BlockData) : Str :=
  b.u ++ (opt c.gr b.w ++ (opt c.gr b.w1 ++ (opt c.mhd b.b1 ++ (opt c.mhd b.b2 ++ (opt c.mhd b.b3
  ++ (opt c.rad b.ir ++ (opt c.cr b.ucr ++ (opt c.crdiff b.ecr ++ (opt c.scal b.s ++ (opt (c.scal && c.chem) b.h
  ++ (opt c.chemrad b.chir ++ (b.iuser.flatten ++ b.ruser.flatten))))))))))))

theorem flatten_writeFields (c : Cfg) (b : BlockData) : (writeFields c b).flatten = packed c b := by
  unfold writeFields packed
  simp only [List.flatten_append, List.append_assoc]
  have h1 : ∀ (p : Bool) (x : Str), (if p then [x] else []).flatten = opt p x := by
    intro p x; cases p <;> simp [opt]
  have h2 : ∀ (p : Bool) (x y : Str), (if p then [x, y] else []).flatten = opt p x ++ opt p y := by
    intro p x y; cases p <;> simp [opt]
  have h3 : ∀ (p : Bool) (x y z : Str), (if p then [x, y, z] else []).flatten = opt p x ++ (opt p y ++ opt p z) := by
    intro p x y z; cases p <;> simp [opt]
  have h4 : ∀ (p q : Bool) (x y : Str), (if p then x :: (if q then [y] else []) else []).flatten
      = opt p x ++ opt (p && q) y := by
    intro p q x y; cases p <;> cases q <;> simp [opt]
  rw [h1, h1, h1, h1, h2, h3, h4]
  simp [List.append_assoc]

theorem opt_length (p : Bool) (x : Str) : (opt p x).length = if p then x.length else 0 := by
  cases p <;> rfl

theorem packed_length (c : Cfg) (b : BlockData) : (packed c b).length = blockSize c b := by
  unfold packed blockSize
  simp only [List.length_append, opt_length, sizes_eq]
  cases c.gr <;> cases c.mhd <;> cases c.scal <;> cases c.chem <;> simp <;> omega

theorem pack_fold (fs : List Str) : ∀ (buf : Str) (os : Nat), os + sizes fs ≤ buf.length →
    fs.foldlM (fun (p : Str × Nat) x => (memcpy p.1 p.2 x).map (·, p.2 + x.length)) (buf, os)
      = some (buf.take os ++ fs.flatten ++ buf.drop (os + sizes fs), os + sizes fs) := by
  induction fs with
  | nil => intro buf os h; simp [sizes]
  | cons x xs ih =>
    intro buf os h
    have e : sizes (x :: xs) = x.length + sizes xs := by simp [sizes_eq]
    rw [e] at h ⊢
    rw [List.foldlM_cons]
    have hm : memcpy buf os x = some (buf.take os ++ x ++ buf.drop (os + x.length)) := by
      unfold memcpy; rw [if_pos (by omega)]
    rw [hm]
    simp only [Option.map_some, Option.bind_eq_bind, Option.bind_some]
    have hlen : (buf.take os ++ x ++ buf.drop (os + x.length)).length = buf.length := by
      simp only [List.length_append, List.length_take, List.length_drop]; omega
    rw [ih _ _ (by rw [hlen]; omega)]
    have h1 : (buf.take os ++ x).length = os + x.length := by
      simp only [List.length_append, List.length_take]; omega
    rw [List.take_left' h1]
    have : os + x.length + sizes xs = (buf.take os ++ x).length + sizes xs := by rw [h1]
    congr 2
    · rw [this, List.drop_append, List.drop_drop]
      simp only [List.flatten_cons, List.append_assoc]
      congr 3
      rw [List.drop_eq_nil_of_le (by omega)]
      simp only [List.nil_append]
      congr 1
      omega
    · omega

theorem packBlock_eq (c : Cfg) (b : BlockData) (buf : Str) (h : buf.length = blockSize c b) :
    packBlock c b buf = some (packed c b) := by
  have hs : sizes (writeFields c b) = blockSize c b := by
    rw [sizes_eq, flatten_writeFields, packed_length]
  unfold packBlock
  rw [pack_fold _ _ _ (by rw [hs, h]; omega), hs, flatten_writeFields]
  simp [h]

/-! ## Reading a block -/

/-- The rest of the buffer from `os` on. -/
def At (buf : Str) (os : Nat) (rest : Str) : Prop := os ≤ buf.length ∧ buf.drop os = rest

theorem fetch_at {buf : Str} {os : Nat} {x rest : Str} (h : At buf os (x ++ rest)) {n : Nat} (hn : n = x.length) :
    fetch buf os n = some (x, os + n) ∧ At buf (os + n) rest := by
  obtain ⟨h1, h2⟩ := h
  have hl := congrArg List.length h2
  rw [List.length_drop, List.length_append] at hl
  subst hn
  refine ⟨?_, by omega, ?_⟩
  · unfold fetch
    rw [if_pos (by omega), h2, List.take_left]
  · rw [← List.drop_drop, h2, List.drop_left]

theorem fetchIf_at {p : Bool} {buf : Str} {os : Nat} {x rest old : Str} (h : At buf os (opt p x ++ rest))
    (hn : old.length = x.length) :
    fetchIf p buf old os = some (if p then x else old, os + (opt p x).length) ∧
      At buf (os + (opt p x).length) rest := by
  cases p with
  | false => exact ⟨by simp [fetchIf, opt], by simpa [opt] using h⟩
  | true =>
    have := fetch_at (x := x) (rest := rest) (by simpa [opt] using h) hn
    simp only [opt, fetchIf, if_true]
    rw [← hn]
    exact this

theorem fetchAll_at {buf : Str} : ∀ {xs olds : List Str} {os : Nat} {rest : Str},
    At buf os (xs.flatten ++ rest) → olds.map (·.length) = xs.map (·.length) →
    fetchAll buf olds os = some (xs, os + sizes xs) ∧ At buf (os + sizes xs) rest
  | [], [], os, rest, h, _ => ⟨by simp [fetchAll, sizes], by simpa [sizes] using h⟩
  | [], _ :: _, _, _, _, hl => by simp at hl
  | _ :: _, [], _, _, _, hl => by simp at hl
  | x :: xs, o :: olds, os, rest, h, hl => by
    rw [List.map_cons, List.map_cons, List.cons.injEq] at hl
    rw [List.flatten_cons, List.append_assoc] at h
    obtain ⟨h1, h2⟩ := fetch_at h hl.1
    obtain ⟨h3, h4⟩ := fetchAll_at h2 hl.2
    have e : os + o.length + sizes xs = os + sizes (x :: xs) := by
      rw [hl.1]; simp [sizes_eq]; omega
    rw [e] at h3 h4
    exact ⟨by simp [fetchAll, h1, h3], h4⟩

theorem ex_of {α : Type} {e : Option (α × Nat)} {x : α} {os : Nat} {buf rest : Str}
    (h : e = some (x, os) ∧ At buf os rest) : ∃ o, e = some (x, o) ∧ At buf o rest := ⟨os, h⟩

theorem bind_step {α β : Type} {e : Option α} {x : α} {f : α → Option β} {r : Option β} (h : e = some x)
    (h' : f x = r) : (e >>= f) = r := by rw [h]; exact h'

theorem readBlock_packed (c : Cfg) {a b : BlockData} (hs : SameShape a b) :
    ∃ b', readBlock c false id a (packed c b) = some (b', blockSize c a) ∧ SameData c b' b := by
  have h0 : At (packed c b) 0 (packed c b) := ⟨Nat.zero_le _, rfl⟩
  have hlen := packed_length c b
  rw [blockSize_congr c hs, ← hlen]
  generalize hbuf : packed c b = buf at h0 ⊢
  have h0' : At buf 0 (packed c b) := by rw [hbuf]; exact h0
  unfold packed at h0'
  obtain ⟨o1, e1, h1⟩ := ex_of (fetch_at h0' hs.u)
  obtain ⟨o2, e2, h2⟩ := ex_of (fetchIf_at h1 hs.w)
  obtain ⟨o3, e3, h3⟩ := ex_of (fetchIf_at h2 hs.w1)
  obtain ⟨o4, e4, h4⟩ := ex_of (fetchIf_at h3 hs.b1)
  obtain ⟨o5, e5, h5⟩ := ex_of (fetchIf_at h4 hs.b2)
  obtain ⟨o6, e6, h6⟩ := ex_of (fetchIf_at h5 hs.b3)
  obtain ⟨o7, e7, h7⟩ := ex_of (fetchIf_at h6 hs.ir)
  obtain ⟨o8, e8, h8⟩ := ex_of (fetchIf_at h7 hs.ucr)
  obtain ⟨o9, e9, h9⟩ := ex_of (fetchIf_at h8 hs.ecr)
  obtain ⟨o10, e10, h10⟩ := ex_of (fetchIf_at h9 hs.s)
  obtain ⟨o11, e11, h11⟩ := ex_of (fetchIf_at h10 hs.h)
  obtain ⟨o12, e12, h12⟩ := ex_of (fetchIf_at h11 hs.chir)
  obtain ⟨o13, e13, h13⟩ := ex_of (fetchAll_at h12 hs.iuser)
  obtain ⟨o14, e14, h14⟩ := ex_of (fetchAll_at (rest := []) (by simpa using h13) hs.ruser)
  have hend := congrArg List.length h14.2
  have hle := h14.1
  rw [List.length_drop, List.length_nil] at hend
  have hfin := Nat.le_antisymm hle (by omega)
  refine ⟨⟨b.u, if c.gr then b.w else a.w, if c.gr then b.w1 else a.w1, if c.mhd then b.b1 else a.b1,
    if c.mhd then b.b2 else a.b2, if c.mhd then b.b3 else a.b3, if c.rad then b.ir else a.ir, a.irGray,
    if c.cr then b.ucr else a.ucr, if c.crdiff then b.ecr else a.ecr, if c.scal then b.s else a.s,
    if c.scal && c.chem then b.h else a.h, if c.chemrad then b.chir else a.chir, b.iuser, b.ruser⟩, ?_, ?_⟩
  · have eg : ∀ os, fetchIf (c.rad && false) buf a.irGray os = some (a.irGray, os) := by
      intro os; simp [fetchIf]
    have e7' := e7
    rw [show c.rad = (c.rad && !false) by simp] at e7'
    unfold readBlock
    refine bind_step (e1) ?_
    refine bind_step (e2) ?_
    refine bind_step (e3) ?_
    refine bind_step (e4) ?_
    refine bind_step (e5) ?_
    refine bind_step (e6) ?_
    refine bind_step (eg _) ?_
    refine bind_step (e7') ?_
    refine bind_step (e8) ?_
    refine bind_step (e9) ?_
    refine bind_step (e10) ?_
    refine bind_step (e11) ?_
    refine bind_step (e12) ?_
    refine bind_step (e13) ?_
    refine bind_step (e14) ?_
    rw [hfin]
    simp
  · constructor <;> (try simp only) <;> (try intro h) <;> (try intro h') <;> (try rw [if_pos (by simp [*])])

/-! ## Writing -/

/-- Covers the position. -/
def Write.Covers (w : Write) (i : Nat) : Prop := w.off ≤ i ∧ i < w.off + w.bytes.length

/-- The write puts the bytes of `T`. -/
def Write.Fits (T : Str) (w : Write) : Prop := ∀ i, w.Covers i → w.bytes[i - w.off]? = T[i]?

theorem applyAll_fits {T : Str} : ∀ {ws : List Write} {f : File} {i : Nat}, (∀ w ∈ ws, w.Fits T) →
    (f i = T[i]? ∨ ∃ w ∈ ws, w.Covers i) → applyAll f ws i = T[i]?
  | [], f, i, _, h => by
    rcases h with h | ⟨w, hw, _⟩
    · exact h
    · simp at hw
  | w :: ws, f, i, hf, h => by
    unfold applyAll
    rw [List.foldl_cons]
    refine applyAll_fits (fun v hv => hf v (by simp [hv])) ?_
    by_cases hc : w.Covers i
    · left
      unfold Write.apply
      rw [if_pos (show w.off ≤ i ∧ i < w.off + w.bytes.length from hc)]
      exact hf w (by simp) i hc
    · rcases h with h | ⟨v, hv, hvc⟩
      · left; unfold Write.apply; rw [if_neg (show ¬ (w.off ≤ i ∧ i < w.off + w.bytes.length) from hc)]; exact h
      · right
        rcases List.mem_cons.1 hv with rfl | hv
        · exact absurd hvc hc
        · exact ⟨v, hv, hvc⟩

theorem fits_of_drop {T : Str} {off : Nat} {x rest : Str} (h : T.drop off = x ++ rest) : Write.Fits T ⟨off, x⟩ := by
  intro i hi
  obtain ⟨h1, h2⟩ := hi
  simp only at h1 h2 ⊢
  have : (T.drop off)[i - off]? = T[i]? := by
    rw [List.getElem?_drop]; congr 1; omega
  rw [← this, h, List.getElem?_append_left (by omega)]

variable {R D Reg Loc : Type}

theorem idlist_length (N : Native R D Reg Loc) (bs : List (Blk Loc D)) :
    (idlist N bs).length = writeListSize N * bs.length := by
  induction bs with
  | nil => simp [idlist]
  | cons b bs ih =>
    unfold idlist at ih ⊢
    rw [List.flatMap_cons, List.length_append, ih]
    simp only [List.length_append, N.loc.len, N.dbl.len, writeListSize, List.length_cons, Nat.mul_succ]
    omega

theorem idlist_append (N : Native R D Reg Loc) (as bs : List (Blk Loc D)) :
    idlist N (as ++ bs) = idlist N as ++ idlist N bs := by simp [idlist]

/-- The data of all blocks. -/
def dataBytes (c : Cfg) (bs : List (Blk Loc D)) : Str := bs.flatMap (fun b => packed c b.data)

theorem dataBytes_length {c : Cfg} {S : Nat} {bs : List (Blk Loc D)} (h : ∀ b ∈ bs, blockSize c b.data = S) :
    (dataBytes c bs).length = S * bs.length := by
  induction bs with
  | nil => simp [dataBytes]
  | cons b bs ih =>
    unfold dataBytes at ih ⊢
    rw [List.flatMap_cons, List.length_append, ih (fun x hx => h x (by simp [hx])), packed_length, h b (by simp),
      List.length_cons, Nat.mul_succ]
    omega

theorem dataWrites_ok {c : Cfg} {base S : Nat} : ∀ {bs : List (Blk Loc D)} {n : Nat} {buf : Str} {T : Str} {rest : Str},
    (∀ b ∈ bs, blockSize c b.data = S) → buf.length = S → T.drop (base + S * n) = dataBytes c bs ++ rest →
    ∃ ws, dataWrites c base S n buf bs = some ws ∧ (∀ w ∈ ws, w.Fits T) ∧ (ws.Pairwise Write.Disjoint) ∧
      (∀ w ∈ ws, base + S * n ≤ w.off ∧ w.off + w.bytes.length ≤ base + S * (n + bs.length)) ∧
      (∀ i, base + S * n ≤ i → i < base + S * (n + bs.length) → ∃ w ∈ ws, w.Covers i)
  | [], n, buf, T, rest, _, _, _ => by
    refine ⟨[], rfl, by simp, by simp, by simp, ?_⟩
    intro i h1 h2; simp at h2; omega
  | b :: bs, n, buf, T, rest, hS, hb, hT => by
    have hbS := hS b (by simp)
    have hp := packBlock_eq c b.data buf (by rw [hb, hbS])
    have hl : (packed c b.data).length = S := by rw [packed_length, hbS]
    have e : base + S * (n + 1) = base + S * n + S := by rw [Nat.mul_succ]; omega
    unfold dataBytes at hT
    rw [List.flatMap_cons, List.append_assoc] at hT
    obtain ⟨ws, h1, h2, h3, h4, h5⟩ := dataWrites_ok (c := c) (base := base) (S := S) (bs := bs) (n := n + 1)
      (buf := packed c b.data) (T := T) (rest := rest) (fun x hx => hS x (by simp [hx])) hl (by
        rw [e, ← List.drop_drop, hT]
        exact List.drop_left' hl)
    have e2 : n + 1 + bs.length = n + (b :: bs).length := by simp; omega
    rw [e2] at h4 h5
    have e3 : base + S * (n + 1) ≤ base + S * (n + (b :: bs).length) :=
      Nat.add_le_add_left (Nat.mul_le_mul_left _ (by simp)) _
    refine ⟨⟨base + S * n, packed c b.data⟩ :: ws, by simp [dataWrites, hp, h1], ?_, ?_, ?_, ?_⟩
    · intro w hw
      rcases List.mem_cons.1 hw with rfl | hw
      · exact fits_of_drop hT
      · exact h2 w hw
    · refine List.pairwise_cons.2 ⟨fun w hw => ?_, h3⟩
      left
      have := (h4 w hw).1
      simp only [hl]
      omega
    · intro w hw
      rcases List.mem_cons.1 hw with rfl | hw
      · simp only [hl]; omega
      · have := h4 w hw; omega
    · intro i hi1 hi2
      by_cases hlt : i < base + S * (n + 1)
      · exact ⟨_, List.mem_cons_self, hi1, by simp only [hl]; omega⟩
      · obtain ⟨w, hw, hc⟩ := h5 i (by omega) hi2
        exact ⟨w, by simp [hw], hc⟩

/-- Regions: the later ID lists or the later data. -/
def Region (lo base S ls n m : Nat) (w : Write) : Prop :=
  (lo + ls * n ≤ w.off ∧ w.off + w.bytes.length ≤ lo + ls * m) ∨
  (base + S * n ≤ w.off ∧ w.off + w.bytes.length ≤ base + S * m)

theorem rankWrites_ok {N : Native R D Reg Loc} {c : Cfg} {sbuf : Str} {hd : Head R Reg} {ud : List Str} {S : Nat}
    {first : Bool} {myns : Nat} {junk : Str} {bs : List (Blk Loc D)} {T rest1 rest2 : Str}
    (hS : ∀ b ∈ bs, blockSize c b.data = S) (hj : junk.length = S)
    (h0 : first = true → ∃ rest, T = sbuf ++ headBytes N hd ud ++ rest)
    (hid : T.drop (writeHeadOffset N sbuf ud + writeListSize N * myns) = idlist N bs ++ rest1)
    (hda : T.drop (writeHeadOffset N sbuf ud + writeListSize N * hd.nbtotal.toNat + S * myns)
      = dataBytes c bs ++ rest2)
    (hm : myns + bs.length ≤ hd.nbtotal.toNat) :
    ∃ ws, rankWrites N c sbuf hd ud first myns junk bs
        = some ((if first then [⟨0, sbuf ++ headBytes N hd ud⟩] else []) ++ ws) ∧
      (∀ w ∈ ws, w.Fits T) ∧ (first = true → Write.Fits T ⟨0, sbuf ++ headBytes N hd ud⟩) ∧
      (ws.Pairwise Write.Disjoint) ∧
      (∀ w ∈ ws, Region (writeHeadOffset N sbuf ud)
        (writeHeadOffset N sbuf ud + writeListSize N * hd.nbtotal.toNat) S (writeListSize N) myns
        (myns + bs.length) w) ∧
      (∀ i, writeHeadOffset N sbuf ud + writeListSize N * myns ≤ i →
        i < writeHeadOffset N sbuf ud + writeListSize N * (myns + bs.length) → ∃ w ∈ ws, w.Covers i) ∧
      (∀ i, writeHeadOffset N sbuf ud + writeListSize N * hd.nbtotal.toNat + S * myns ≤ i →
        i < writeHeadOffset N sbuf ud + writeListSize N * hd.nbtotal.toNat + S * (myns + bs.length) →
          ∃ w ∈ ws, w.Covers i) := by
  obtain ⟨dw, h1, h2, h3, h4, h5⟩ := dataWrites_ok (n := myns) (buf := junk) hS hj hda
  have hdw : dataWrites c (writeHeadOffset N sbuf ud + writeListSize N * hd.nbtotal.toNat)
      (firstSize c bs) myns junk bs = some dw := by
    cases bs with
    | nil => simpa [dataWrites] using h1
    | cons b bs => rw [show firstSize c (b :: bs) = S from hS b (by simp)]; exact h1
  have hll := idlist_length N bs
  have em : writeListSize N * (myns + bs.length) = writeListSize N * myns + writeListSize N * bs.length :=
    Nat.mul_add _ _ _
  have hle : writeListSize N * (myns + bs.length) ≤ writeListSize N * hd.nbtotal.toNat :=
    Nat.mul_le_mul_left _ hm
  refine ⟨⟨writeHeadOffset N sbuf ud + writeListSize N * myns, idlist N bs⟩ :: dw, ?_, ?_, ?_, ?_, ?_, ?_, ?_⟩
  · unfold rankWrites
    simp only
    rw [hdw]
    simp
  · intro w hw
    rcases List.mem_cons.1 hw with rfl | hw
    · exact fits_of_drop hid
    · exact h2 w hw
  · intro hf
    obtain ⟨rest, hr⟩ := h0 hf
    exact fits_of_drop (rest := rest) (by simpa using hr)
  · refine List.pairwise_cons.2 ⟨fun w hw => ?_, h3⟩
    left
    have := (h4 w hw).1
    simp only [hll]
    omega
  · intro w hw
    rcases List.mem_cons.1 hw with rfl | hw
    · left; simp only [hll]; omega
    · right; exact h4 w hw
  · intro i hi1 hi2
    exact ⟨_, List.mem_cons_self, hi1, by simp only [hll]; omega⟩
  · intro i hi1 hi2
    obtain ⟨w, hw, hc⟩ := h5 i hi1 hi2
    exact ⟨w, by simp [hw], hc⟩

theorem region_disjoint {lo base S ls n m k : Nat} {v w : Write} (hb : lo + ls * k ≤ base)
    (hnm : n ≤ m) (hmk : m ≤ k) (hv : Region lo base S ls n m v) (hw : Region lo base S ls m k w) : v.Disjoint w := by
  have h1 : ls * m ≤ ls * k := Nat.mul_le_mul_left _ hmk
  have h2 : S * n ≤ S * m := Nat.mul_le_mul_left _ hnm
  unfold Write.Disjoint
  rcases hv with hv | hv <;> rcases hw with hw | hw <;> omega

theorem region_mono {lo base S ls n m k n' : Nat} {w : Write} (hn : n' ≤ n) (hmk : m ≤ k)
    (hw : Region lo base S ls n m w) : Region lo base S ls n' k w := by
  have h1 : ls * m ≤ ls * k := Nat.mul_le_mul_left _ hmk
  have h2 : S * m ≤ S * k := Nat.mul_le_mul_left _ hmk
  have h3 : ls * n' ≤ ls * n := Nat.mul_le_mul_left _ hn
  have h4 : S * n' ≤ S * n := Nat.mul_le_mul_left _ hn
  rcases hw with hw | hw
  · left; omega
  · right; omega

theorem allWrites_ok {N : Native R D Reg Loc} {c : Cfg} {sbuf : Str} {hd : Head R Reg} {ud : List Str} {S : Nat}
    {T : Str} : ∀ {rs : List (Str × List (Blk Loc D))} {first : Bool} {myns : Nat} {rest1 : Str},
    (∀ r ∈ rs, r.1.length = S ∧ ∀ b ∈ r.2, blockSize c b.data = S) →
    (first = true → rs ≠ [] → ∃ rest, T = sbuf ++ headBytes N hd ud ++ rest) →
    (first = true → (sbuf ++ headBytes N hd ud).length ≤ writeHeadOffset N sbuf ud) →
    T.drop (writeHeadOffset N sbuf ud + writeListSize N * myns) = idlist N (rs.flatMap (·.2)) ++ rest1 →
    T.drop (writeHeadOffset N sbuf ud + writeListSize N * hd.nbtotal.toNat + S * myns)
      = dataBytes c (rs.flatMap (·.2)) →
    myns + (rs.flatMap (·.2)).length = hd.nbtotal.toNat →
    ∃ ws, allWrites N c sbuf hd ud first myns rs
        = some ((if first ∧ rs ≠ [] then [⟨0, sbuf ++ headBytes N hd ud⟩] else []) ++ ws) ∧
      (∀ w ∈ ws, w.Fits T) ∧ (first = true → rs ≠ [] → Write.Fits T ⟨0, sbuf ++ headBytes N hd ud⟩) ∧
      (ws.Pairwise Write.Disjoint) ∧
      (∀ w ∈ ws, Region (writeHeadOffset N sbuf ud)
        (writeHeadOffset N sbuf ud + writeListSize N * hd.nbtotal.toNat) S (writeListSize N) myns
        hd.nbtotal.toNat w) ∧
      (∀ i, writeHeadOffset N sbuf ud + writeListSize N * myns ≤ i →
        i < writeHeadOffset N sbuf ud + writeListSize N * hd.nbtotal.toNat → ∃ w ∈ ws, w.Covers i) ∧
      (∀ i, writeHeadOffset N sbuf ud + writeListSize N * hd.nbtotal.toNat + S * myns ≤ i →
        i < writeHeadOffset N sbuf ud + writeListSize N * hd.nbtotal.toNat + S * hd.nbtotal.toNat →
          ∃ w ∈ ws, w.Covers i)
  | [], first, myns, rest1, _, _, _, _, _, hm => by
    simp only [List.flatMap_nil, List.length_nil, Nat.add_zero] at hm
    refine ⟨[], by simp [allWrites], by simp, by simp, by simp, by simp, ?_, ?_⟩ <;>
      (intro i h1 h2; rw [hm] at h1; omega)
  | (junk, bs) :: rs, first, myns, rest1, hS, h0, hh, hid, hda, hm => by
    have hr : junk.length = S ∧ ∀ b ∈ bs, blockSize c b.data = S := hS (junk, bs) (by simp)
    simp only [List.flatMap_cons] at hid hda hm
    rw [List.length_append] at hm
    rw [idlist_append, List.append_assoc] at hid
    have hdapp : dataBytes c (bs ++ rs.flatMap (·.2)) = dataBytes c bs ++ dataBytes c (rs.flatMap (·.2)) := by
      simp [dataBytes]
    rw [hdapp] at hda
    obtain ⟨ws1, a1, a2, a3, a4, a5, a6, a7⟩ := rankWrites_ok (first := first) hr.2 hr.1
      (fun hf => h0 hf (by simp)) hid hda (by omega)
    have hll := idlist_length N bs
    have hdl := dataBytes_length hr.2
    have el : writeListSize N * (myns + bs.length) = writeListSize N * myns + (idlist N bs).length := by
      rw [hll, Nat.mul_add]
    have ed : S * (myns + bs.length) = S * myns + (dataBytes c bs).length := by rw [hdl, Nat.mul_add]
    obtain ⟨ws2, b1, b2, b3, b4, b5, b6, b7⟩ := allWrites_ok (T := T) (c := c) (S := S) (rs := rs)
      (first := false) (myns := myns + bs.length)
      (rest1 := rest1) (hd := hd) (N := N) (sbuf := sbuf) (ud := ud)
      (fun r hr => hS r (by simp [hr])) (by simp) (by simp)
      (by rw [el, ← Nat.add_assoc, ← List.drop_drop, hid, List.drop_left])
      (by rw [ed, ← Nat.add_assoc, ← List.drop_drop, hda, List.drop_left])
      (by omega)
    refine ⟨ws1 ++ ws2, ?_, ?_, fun hf _ => a3 hf, ?_, ?_, ?_, ?_⟩
    · simp only [allWrites, a1, b1]
      cases first <;> simp
    · intro w hw
      rcases List.mem_append.1 hw with h | h
      · exact a2 w h
      · exact b2 w h
    · rw [List.pairwise_append]
      exact ⟨a4, b4, fun v hv w hw => region_disjoint (Nat.le_refl _) (Nat.le_add_right _ _) (by omega) (a5 v hv) (b5 w hw)⟩
    · intro w hw
      rcases List.mem_append.1 hw with h | h
      · exact region_mono (Nat.le_refl _) (by omega) (a5 w h)
      · exact region_mono (by omega) (Nat.le_refl _) (b5 w h)
    · intro i h1 h2
      by_cases hlt : i < writeHeadOffset N sbuf ud + writeListSize N * (myns + bs.length)
      · obtain ⟨w, hw, hc⟩ := a6 i h1 hlt
        exact ⟨w, by simp [hw], hc⟩
      · obtain ⟨w, hw, hc⟩ := b6 i (by omega) h2
        exact ⟨w, by simp [hw], hc⟩
    · intro i h1 h2
      by_cases hlt : i < writeHeadOffset N sbuf ud + writeListSize N * hd.nbtotal.toNat + S * (myns + bs.length)
      · obtain ⟨w, hw, hc⟩ := a7 i h1 hlt
        exact ⟨w, by simp [hw], hc⟩
      · obtain ⟨w, hw, hc⟩ := b7 i (by omega) h2
        exact ⟨w, by simp [hw], hc⟩

/-! ## Reading the mesh -/

theorem headBytes_length (N : Native R D Reg Loc) (sbuf : Str) (hd : Head R Reg) (ud : List Str) :
    (sbuf ++ headBytes N hd ud).length = writeHeadOffset N sbuf ud := by
  unfold headBytes writeHeadOffset
  simp only [List.length_append, N.int.len, N.reg.len, N.real.len, N.off.len, sizes_eq]
  omega

theorem take_drop_mid {A x B h : Str} (e : h = A ++ x ++ B) {os n : Nat} (ho : os = A.length) (hn : n = x.length) :
    (h.drop os).take n = x := by
  subst ho hn
  rw [e, List.append_assoc, List.drop_left, List.take_left]

theorem readAt_mid {A x B file : Str} (e : file = A ++ x ++ B) {os n : Nat} (ho : os = A.length) (hn : n = x.length) :
    readAt file os n = some x := by
  unfold readAt
  rw [if_pos (by rw [e, ho, hn]; simp only [List.length_append]; omega), take_drop_mid e ho hn]

theorem readHead_eq (N : Native R D Reg Loc) (sbuf : Str) (hd : Head R Reg) (hok : HeadOk N hd) (ud : List Str)
    (rest : Str) :
    readHead N (sbuf ++ headBytes N hd ud ++ rest) sbuf.length = some hd := by
  have li := N.int.len
  have lr := N.real.len
  have lg := N.reg.len
  have lo := N.off.len
  unfold readHead
  simp only
  rw [readAt_mid (A := sbuf) (x := N.int.enc hd.nbtotal ++ N.int.enc hd.rootLevel ++ N.reg.enc hd.meshSize
    ++ N.real.enc hd.time ++ N.real.enc hd.dt ++ N.int.enc hd.ncycle ++ N.off.enc hd.datasize)
    (B := ud.flatten ++ rest) (by simp [headBytes]) rfl
    (by simp only [List.length_append, li, lr, lg, lo]; omega)]
  rw [Option.map_some, Option.some.injEq]
  rw [take_drop_mid (A := N.int.enc hd.nbtotal) (x := N.int.enc hd.rootLevel) (B := N.reg.enc hd.meshSize
      ++ N.real.enc hd.time ++ N.real.enc hd.dt ++ N.int.enc hd.ncycle ++ N.off.enc hd.datasize) (by simp)
      (by simp [li]) (by simp [li])]
  rw [take_drop_mid (A := N.int.enc hd.nbtotal ++ N.int.enc hd.rootLevel) (x := N.reg.enc hd.meshSize) (B :=
      N.real.enc hd.time ++ N.real.enc hd.dt ++ N.int.enc hd.ncycle ++ N.off.enc hd.datasize) (by simp)
      (by simp [li]) (by simp [lg])]
  rw [take_drop_mid (A := N.int.enc hd.nbtotal ++ N.int.enc hd.rootLevel ++ N.reg.enc hd.meshSize)
      (x := N.real.enc hd.time) (B := N.real.enc hd.dt ++ N.int.enc hd.ncycle ++ N.off.enc hd.datasize) (by simp)
      (by simp [li, lg]; omega) (by simp [lr])]
  rw [take_drop_mid (A := N.int.enc hd.nbtotal ++ N.int.enc hd.rootLevel ++ N.reg.enc hd.meshSize
      ++ N.real.enc hd.time)
      (x := N.real.enc hd.dt) (B := N.int.enc hd.ncycle ++ N.off.enc hd.datasize) (by simp)
      (by simp [li, lg, lr]; omega) (by simp [lr])]
  rw [take_drop_mid (A := N.int.enc hd.nbtotal ++ N.int.enc hd.rootLevel ++ N.reg.enc hd.meshSize
      ++ N.real.enc hd.time ++ N.real.enc hd.dt)
      (x := N.int.enc hd.ncycle) (B := N.off.enc hd.datasize) (by simp)
      (by simp [li, lg, lr]; omega) (by simp [li])]
  rw [take_drop_mid (A := N.int.enc hd.nbtotal ++ N.int.enc hd.rootLevel ++ N.reg.enc hd.meshSize
      ++ N.real.enc hd.time ++ N.real.enc hd.dt ++ N.int.enc hd.ncycle)
      (x := N.off.enc hd.datasize) (B := []) (by simp)
      (by simp [li, lg, lr]; omega) (by simp [lo])]
  have ht : List.take N.int.size (N.int.enc hd.nbtotal ++ N.int.enc hd.rootLevel ++ N.reg.enc hd.meshSize
      ++ N.real.enc hd.time ++ N.real.enc hd.dt ++ N.int.enc hd.ncycle ++ N.off.enc hd.datasize)
      = N.int.enc hd.nbtotal := by
    simp only [List.append_assoc]
    exact List.take_left' (li _)
  rw [ht]
  rw [N.int.dec_enc _ hok.nbtotal, N.int.dec_enc _ hok.rootLevel, N.int.dec_enc _ hok.ncycle,
    N.reg.dec_enc _ hok.meshSize, N.real.dec_enc _ hok.time, N.real.dec_enc _ hok.dt, N.off.dec_enc _ hok.datasize]

theorem readIds_eq (N : Native R D Reg Loc) : ∀ (bs : List (Blk Loc D)) (buf : Str) (os : Nat) (rest : Str),
    (∀ b ∈ bs, BlkOk N b) → At buf os (idlist N bs ++ rest) →
    readIds N buf bs.length os = some (bs.map (fun b => (b.loc, b.cost)))
  | [], _, _, _, _, _ => rfl
  | b :: bs, buf, os, rest, hok, h => by
    unfold idlist at h
    rw [List.flatMap_cons, List.append_assoc, List.append_assoc] at h
    obtain ⟨h1, h2⟩ := fetch_at h (N.loc.len b.loc).symm
    obtain ⟨h3, h4⟩ := fetch_at h2 (N.dbl.len b.cost).symm
    have := readIds_eq N bs buf _ rest (fun x hx => hok x (by simp [hx])) h4
    simp [readIds, h1, h3, this, N.loc.dec_enc _ (hok b (by simp)).loc, N.dbl.dec_enc _ (hok b (by simp)).cost]

/-- The whole file. -/
def whole (N : Native R D Reg Loc) (c : Cfg) (sbuf : Str) (hd : Head R Reg) (ud : List Str)
    (bs : List (Blk Loc D)) : Str :=
  sbuf ++ headBytes N hd ud ++ (idlist N bs ++ dataBytes c bs)

theorem readMesh_whole {N : Native R D Reg Loc} (hsz : N.real.size = N.dbl.size) (c : Cfg) (sbuf : Str)
    (hd : Head R Reg) (hok : HeadOk N hd) (ud ua : List Str) (hua : ua.map (·.length) = ud.map (·.length)) (bs : List (Blk Loc D))
    (hbok : ∀ b ∈ bs, BlkOk N b) (hnb : hd.nbtotal.toNat = bs.length) :
    readMesh N (whole N c sbuf hd ud bs) sbuf.length ua
      = some (hd, ud, bs.map (fun b => (b.loc, b.cost)), (sbuf ++ headBytes N hd ud ++ idlist N bs).length) := by
  have li := N.int.len
  have lr := N.real.len
  have lg := N.reg.len
  have lo := N.off.len
  have hs := sizes_congr hua
  have hud := sizes_eq ud
  have hh := headBytes_length N sbuf hd ud
  have hil := idlist_length N bs
  unfold writeHeadOffset at hh
  have hls : readListSize N = writeListSize N := by unfold readListSize writeListSize; rw [hsz]
  unfold readMesh
  rw [show readHead N (whole N c sbuf hd ud bs) sbuf.length = some hd from readHead_eq N sbuf hd hok ud _]
  simp only [Option.bind_eq_bind, Option.bind_some]
  rw [readAt_mid (A := sbuf ++ (N.int.enc hd.nbtotal ++ N.int.enc hd.rootLevel ++ N.reg.enc hd.meshSize
    ++ N.real.enc hd.time ++ N.real.enc hd.dt ++ N.int.enc hd.ncycle ++ N.off.enc hd.datasize)) (x := ud.flatten)
    (B := idlist N bs ++ dataBytes c bs) (by simp [whole, headBytes])
    (by simp only [List.length_append, li, lr, lg, lo]; omega) (by rw [hs, hud])]
  simp only [Option.bind_some]
  rw [(fetchAll_at (xs := ud) (olds := ua) (buf := ud.flatten) (os := 0) (rest := [])
    ⟨Nat.zero_le _, by simp⟩ hua).1]
  simp only [Option.bind_some]
  rw [readAt_mid (A := sbuf ++ headBytes N hd ud) (x := idlist N bs) (B := dataBytes c bs)
    (by simp [whole]) (by rw [hh, hs]; omega) (by rw [hls, hnb, hil])]
  simp only [Option.bind_some]
  rw [hnb, readIds_eq N bs (idlist N bs) 0 [] hbok ⟨Nat.zero_le _, by simp⟩]
  simp only [Option.bind_some, Option.some.injEq, Prod.mk.injEq, true_and]
  rw [List.length_append, hh, hil, hls, hs]
  omega

theorem readBlockAt_whole {N : Native R D Reg Loc} {c : Cfg} {sbuf : Str}
    {hd : Head R Reg} {ud : List Str} {bs : List (Blk Loc D)} {S : Nat}
    (hS : ∀ b ∈ bs, blockSize c b.data = S) {i : Nat} (hi : i < bs.length) {a : BlockData}
    (ha : SameShape a bs[i].data) :
    ∃ b', readBlockAt c (whole N c sbuf hd ud bs) (sbuf ++ headBytes N hd ud ++ idlist N bs).length S i a
        = some (b', S) ∧ SameData c b' bs[i].data := by
  have hsplit : dataBytes c bs = dataBytes c (bs.take i) ++ packed c bs[i].data ++ dataBytes c (bs.drop (i + 1)) := by
    have h := congrArg (dataBytes c) (List.take_append_drop i bs)
    rw [List.drop_eq_getElem_cons hi] at h
    rw [← h]
    simp only [dataBytes, List.flatMap_append, List.flatMap_cons, List.append_assoc]
  have hl1 : (dataBytes c (bs.take i)).length = i * S := by
    rw [dataBytes_length (S := S) (fun b hb => hS b (List.mem_of_mem_take hb)), List.length_take,
      Nat.min_eq_left (by omega), Nat.mul_comm]
  have hSi := hS _ (List.getElem_mem hi)
  obtain ⟨b', h1, h2⟩ := readBlock_packed c ha
  refine ⟨b', ?_, h2⟩
  unfold readBlockAt
  rw [readAt_mid (A := sbuf ++ headBytes N hd ud ++ idlist N bs ++ dataBytes c (bs.take i))
    (x := packed c bs[i].data) (B := dataBytes c (bs.drop (i + 1)))
    (by rw [whole, hsplit]; simp) (by simp only [List.length_append, hl1]) (by rw [packed_length, hSi])]
  simp only
  rw [h1, blockSize_congr c ha, hSi]

end Verif.Restart
