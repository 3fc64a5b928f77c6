import Verif.Lemmas.Restart
import Verif.Props.Params

/-! # Restart files: C30, C31 -/
namespace Verif.Restart
open Verif.Params (Str Store Reach parameterDump loadFromFile find parEnd content)

variable {R D Reg Loc : Type}

/-- C30, writing: for every distribution of the blocks over processes the writes of all processes exist (no
buffer overrun), no two of them overlap, and whatever the order in which they reach the file the result is
one and the same byte sequence. -/
theorem restart_writes {N : Native R D Reg Loc} {c : Cfg} {sbuf : Str} {hd : Head R Reg} {ud : List Str}
    {ranks : List (Str × List (Blk Loc D))} (hr : ranks ≠ [])
    (hS : ∀ r ∈ ranks, r.1.length = hd.datasize ∧ ∀ b ∈ r.2, blockSize c b.data = hd.datasize)
    (hnb : hd.nbtotal = ((ranks.flatMap (·.2)).length : Nat)) :
    ∃ ws, allWrites N c sbuf hd ud true 0 ranks = some ws ∧ ws.Pairwise Write.Disjoint ∧
      ∀ ws', ws'.Perm ws → ∀ i, applyAll (fun _ => none) ws' i
        = (whole N c sbuf hd ud (ranks.flatMap (·.2)))[i]? := by
  have hnb' : hd.nbtotal.toNat = (ranks.flatMap (·.2)).length := by omega
  have hlen := headBytes_length N sbuf hd ud
  have hid : (whole N c sbuf hd ud (ranks.flatMap (·.2))).drop (writeHeadOffset N sbuf ud + writeListSize N * 0)
      = idlist N (ranks.flatMap (·.2)) ++ dataBytes c (ranks.flatMap (·.2)) := by
    rw [Nat.mul_zero, Nat.add_zero, ← hlen, whole, List.drop_left]
  have hda : (whole N c sbuf hd ud (ranks.flatMap (·.2))).drop
      (writeHeadOffset N sbuf ud + writeListSize N * hd.nbtotal.toNat + hd.datasize * 0)
      = dataBytes c (ranks.flatMap (·.2)) := by
    rw [Nat.mul_zero, Nat.add_zero, ← hlen, whole, hnb', ← idlist_length, ← List.drop_drop, List.drop_left,
      List.drop_left]
  obtain ⟨ws, h1, h2, h3, h4, h5, h6, h7⟩ := allWrites_ok (first := true) hS
    (fun _ _ => ⟨_, rfl⟩) (fun _ => Nat.le_of_eq hlen) hid hda (by omega)
  have hwl : (whole N c sbuf hd ud (ranks.flatMap (·.2))).length
      = writeHeadOffset N sbuf ud + writeListSize N * hd.nbtotal.toNat + hd.datasize * hd.nbtotal.toNat := by
    rw [whole, List.length_append, hlen, List.length_append, idlist_length,
      dataBytes_length (S := hd.datasize), hnb']
    · omega
    · intro b hb
      obtain ⟨r, hr, hb⟩ := List.mem_flatMap.1 hb
      exact (hS r hr).2 b hb
  rw [if_pos (by simp [hr])] at h1
  refine ⟨_, h1, ?_, ?_⟩
  · refine List.pairwise_cons.2 ⟨fun w hw => ?_, h4⟩
    left
    simp only [hlen, Nat.zero_add]
    rcases h5 w hw with h | h <;> omega
  · intro ws' hp i
    refine applyAll_fits ?_ ?_
    · intro w hw
      rcases List.mem_cons.1 (hp.mem_iff.1 hw) with rfl | hw
      · exact h3 rfl hr
      · exact h2 w hw
    · by_cases hi : i < (whole N c sbuf hd ud (ranks.flatMap (·.2))).length
      · right
        rw [hwl] at hi
        have : ∃ w ∈ (⟨0, sbuf ++ headBytes N hd ud⟩ :: ws : List Write), w.Covers i := by
          by_cases ha : i < writeHeadOffset N sbuf ud
          · exact ⟨_, List.mem_cons_self, Nat.zero_le _, by simp only [hlen]; omega⟩
          · by_cases hb : i < writeHeadOffset N sbuf ud + writeListSize N * hd.nbtotal.toNat
            · obtain ⟨w, hw, hc⟩ := h6 i (by omega) hb
              exact ⟨w, by simp [hw], hc⟩
            · obtain ⟨w, hw, hc⟩ := h7 i (by omega) hi
              exact ⟨w, by simp [hw], hc⟩
        obtain ⟨w, hw, hc⟩ := this
        exact ⟨w, hp.mem_iff.2 (by simpa using hw), hc⟩
      · left
        rw [List.getElem?_eq_none (by omega)]

/-- C30: a restart file written by any set of processes, with the writes reaching the file in any order, is read back
exactly: the parameters, then at the position behind them the mesh header, the user mesh data, locations
and costs of all blocks in order, and every block by whichever process owns it now; each block constructor
consumes exactly the stored bytes and the final consistency check (mesh.cpp:972-988) holds. Required:
`Real` has the size of `double` (see `single_precision_list`), all blocks have the same size, values fit
their types, and `<par_end>` does not occur inside the parameters (C28). -/
theorem restart_roundtrip {N : Native R D Reg Loc} (hsz : N.real.size = N.dbl.size) {c : Cfg} {s : Store}
    (h : Reach s) {d : Str} (hdump : parameterDump s = some d)
    (hmark : find parEnd d = some (d.length - 10)) {B : Nat} (hB : 0 < B) (hlim : d.length ≤ 11 * B)
    {hd : Head R Reg} (hok : HeadOk N hd) {ud : List Str}
    {ranks : List (Str × List (Blk Loc D))} (hr : ranks ≠ [])
    (hS : ∀ r ∈ ranks, r.1.length = hd.datasize ∧ ∀ b ∈ r.2, blockSize c b.data = hd.datasize ∧ BlkOk N b)
    (hnb : hd.nbtotal = ((ranks.flatMap (·.2)).length : Nat)) :
    ∃ ws file, allWrites N c d hd ud true 0 ranks = some ws ∧ ws.Pairwise Write.Disjoint ∧
      (∀ ws', ws'.Perm ws → ∀ i, applyAll (fun _ => none) ws' i = file[i]?) ∧
      (∃ s', loadFromFile B [] file = some (s', d.length) ∧ content s' = content s) ∧
      ∀ ua : List Str, ua.map (·.length) = ud.map (·.length) →
        ∃ off, readMesh N file d.length ua
            = some (hd, ud, (ranks.flatMap (·.2)).map (fun b => (b.loc, b.cost)), off) ∧
          ∀ (i : Nat) (b : Blk Loc D) (a : BlockData), (ranks.flatMap (·.2))[i]? = some b →
            SameShape a b.data →
            blockSize c a = hd.datasize ∧
            ∃ b', readBlockAt c file off hd.datasize i a = some (b', hd.datasize) ∧
              SameData c b' b.data := by
  have hbs : ∀ b ∈ ranks.flatMap (·.2), blockSize c b.data = hd.datasize ∧ BlkOk N b := by
    intro b hb
    obtain ⟨r, hr, hb⟩ := List.mem_flatMap.1 hb
    exact (hS r hr).2 b hb
  obtain ⟨ws, h1, h2, h3⟩ := restart_writes (N := N) (c := c) (sbuf := d) (ud := ud) hr
    (fun r hr => ⟨(hS r hr).1, fun b hb => ((hS r hr).2 b hb).1⟩) hnb
  refine ⟨ws, whole N c d hd ud (ranks.flatMap (·.2)), h1, h2, h3, ?_, ?_⟩
  · obtain ⟨s', h4, h5⟩ := Verif.Params.restart_header h hdump hmark hB hlim
      (headBytes N hd ud ++ (idlist N (ranks.flatMap (·.2)) ++ dataBytes c (ranks.flatMap (·.2))))
    refine ⟨s', ?_, h5⟩
    rw [whole, List.append_assoc]
    exact h4
  · intro ua hua
    refine ⟨_, readMesh_whole hsz c d hd hok ud ua hua _ (fun b hb => (hbs b hb).2) (by omega), ?_⟩
    intro i b a hib ha
    obtain ⟨hi, rfl⟩ := List.getElem?_eq_some_iff.1 hib
    refine ⟨?_, readBlockAt_whole (fun b hb => (hbs b hb).1) hi ha⟩
    rw [blockSize_congr c ha]
    exact (hbs _ (List.getElem_mem hi)).1

/-- C30: the number of collective calls in the block loop is the same on every process (`nbmin`), as MPI
demands. -/
theorem collective_calls (nblist : List Nat) (n : Nat) (hn : n ∈ nblist) :
    ((List.range n).filter (collective (nbmin nblist))).length = nbmin nblist := by
  have hle : nbmin nblist ≤ n := by
    cases nblist with
    | nil => simp at hn
    | cons m ms =>
      unfold nbmin
      have key : ∀ (l : List Nat) (m : Nat), l.foldl (fun m k => if m > k then k else m) m ≤ m ∧
          ∀ x ∈ l, l.foldl (fun m k => if m > k then k else m) m ≤ x := by
        intro l
        induction l with
        | nil => intro m; simp
        | cons k ks ih =>
          intro m
          rw [List.foldl_cons]
          obtain ⟨h1, h2⟩ := ih (if m > k then k else m)
          have h3 : (if m > k then k else m) ≤ m ∧ (if m > k then k else m) ≤ k := by split <;> omega
          refine ⟨by omega, fun x hx => ?_⟩
          rcases List.mem_cons.1 hx with rfl | hx
          · omega
          · exact h2 x hx
      rcases List.mem_cons.1 hn with rfl | hn
      · exact (key ms n).1
      · exact (key ms m).2 n hn
  generalize nbmin nblist = k at *
  obtain ⟨j, rfl⟩ := Nat.exists_eq_add_of_le hle
  rw [List.range_add, List.filter_append, List.length_append]
  have e1 : (List.range k).filter (collective k) = List.range k := by
    rw [List.filter_eq_self]
    intro x hx
    simp [collective, List.mem_range.1 hx]
  have e2 : ((List.range j).map (k + ·)).filter (collective k) = [] := by
    rw [List.filter_eq_nil_iff]
    intro x hx
    obtain ⟨y, _, rfl⟩ := List.mem_map.1 hx
    simp [collective]
  rw [e1, e2]
  simp

theorem readIds_short (N : Native R D Reg Loc) : ∀ (n : Nat) (buf : Str) (os : Nat),
    buf.length < os + n * (N.loc.size + N.dbl.size) → 0 < n → readIds N buf n os = none
  | 0, _, _, _, h => by omega
  | n + 1, buf, os, h, _ => by
    unfold readIds
    have e : (n + 1) * (N.loc.size + N.dbl.size) = n * (N.loc.size + N.dbl.size) + (N.loc.size + N.dbl.size) :=
      Nat.succ_mul _ _
    by_cases h1 : os + N.loc.size ≤ buf.length
    · by_cases h2 : os + N.loc.size + N.dbl.size ≤ buf.length
      · have hn : 0 < n := by
          rcases Nat.eq_zero_or_pos n with rfl | hn
          · omega
          · exact hn
        have := readIds_short N n buf (os + N.loc.size + N.dbl.size) (by omega) hn
        simp [fetch, h1, h2, this]
      · simp [fetch, h1, h2]
    · simp [fetch, h1]

/-- C30, finding: the reader allocates and reads `sizeof(LogicalLocation)+sizeof(Real)` bytes per block
(mesh.cpp:838) but consumes `sizeof(double)` for the cost. When `Real` is smaller than `double`
(`SINGLE_PRECISION_ENABLED`, athena.hpp:33) every restart, of any file, runs over the end of the buffer. -/
theorem single_precision_list {N : Native R D Reg Loc} (hsz : N.real.size < N.dbl.size) (file : Str) (pos : Nat)
    (ua : List Str) {hd : Head R Reg} (hh : readHead N file pos = some hd) (hnb : 0 < hd.nbtotal) :
    readMesh N file pos ua = none := by
  unfold readMesh
  simp only [hh, Option.bind_eq_bind, Option.bind_some]
  cases readAt file (pos + (N.int.size * 3 + N.real.size * 2 + N.reg.size + N.off.size)) (sizes ua) with
  | none => rfl
  | some udbuf =>
    simp only [Option.bind_some]
    cases fetchAll udbuf ua 0 with
    | none => rfl
    | some p =>
      simp only [Option.bind_some]
      cases hi : readAt file (pos + (N.int.size * 3 + N.real.size * 2 + N.reg.size + N.off.size) + sizes ua)
          (readListSize N * hd.nbtotal.toNat) with
      | none => rfl
      | some idbuf =>
        simp only [Option.bind_some]
        have hl : idbuf.length ≤ readListSize N * hd.nbtotal.toNat := by
          unfold readAt at hi
          split at hi
          · rw [Option.some.injEq] at hi
            rw [← hi, List.length_take]
            omega
          · simp at hi
        have hpos : 0 < hd.nbtotal.toNat := by omega
        have hlt : readListSize N * hd.nbtotal.toNat < hd.nbtotal.toNat * (N.loc.size + N.dbl.size) := by
          rw [Nat.mul_comm]
          exact Nat.mul_lt_mul_of_pos_left (by unfold readListSize; omega) hpos
        rw [readIds_short N _ _ _ (by omega) hpos]
        rfl

theorem bind_inv {α β : Type} {e : Option α} {f : α → Option β} {r : β} (h : (e >>= f) = some r) :
    ∃ x, e = some x ∧ f x = some r := by
  cases e with
  | none => simp at h
  | some x => exact ⟨x, rfl, h⟩

/-- C31: bytes consumed by the block constructor when converting from a gray run, for every configuration and buffer. -/
theorem gray_consumed {c : Cfg} {split : Str → Str} {a b : BlockData} {buf : Str} {os : Nat} (hrad : c.rad = true)
    (h : readBlock c true split a buf = some (b, os)) :
    os = blockSizeGray c a + (if c.scal && c.chem then a.h.length else 0)
      + (if c.chemrad then a.chir.length else 0) := by
  have hf : ∀ {os n x o}, fetch buf os n = some (x, o) → o = os + n := by
    intro os n x o h
    unfold fetch at h
    split at h
    · simp at h; omega
    · simp at h
  have hi : ∀ {p old os x o}, fetchIf p buf old os = some (x, o) → o = os + (if p then old.length else 0) := by
    intro p old os x o h
    cases p with
    | false => simp [fetchIf] at h; simp; omega
    | true => exact hf (by simpa [fetchIf] using h)
  have ha : ∀ {l : List Str} {os x o}, fetchAll buf l os = some (x, o) → o = os + sizes l := by
    intro l
    induction l with
    | nil => intro os x o h; simp [fetchAll] at h; simp [sizes]; omega
    | cons y ys ih =>
      intro os x o h
      unfold fetchAll at h
      cases hy : fetch buf os y.length with
      | none => simp [hy] at h
      | some p =>
        obtain ⟨z, o1⟩ := p
        simp only [hy] at h
        cases hz : fetchAll buf ys o1 with
        | none => simp [hz] at h
        | some q =>
          obtain ⟨w, o2⟩ := q
          simp [hz] at h
          have h1 := hf hy
          have h2 := ih hz
          have e : sizes (y :: ys) = y.length + sizes ys := by simp [sizes_eq]
          rw [← h.2, h2, h1, e]; omega
  unfold readBlock at h
  obtain ⟨⟨_, o1⟩, h1, h⟩ := bind_inv h
  obtain ⟨⟨_, o2⟩, h2, h⟩ := bind_inv h
  obtain ⟨⟨_, o3⟩, h3, h⟩ := bind_inv h
  obtain ⟨⟨_, o4⟩, h4, h⟩ := bind_inv h
  obtain ⟨⟨_, o5⟩, h5, h⟩ := bind_inv h
  obtain ⟨⟨_, o6⟩, h6, h⟩ := bind_inv h
  obtain ⟨⟨_, o7⟩, h7, h⟩ := bind_inv h
  obtain ⟨⟨_, o8⟩, h8, h⟩ := bind_inv h
  obtain ⟨⟨_, o9⟩, h9, h⟩ := bind_inv h
  obtain ⟨⟨_, o10⟩, h10, h⟩ := bind_inv h
  obtain ⟨⟨_, o11⟩, h11, h⟩ := bind_inv h
  obtain ⟨⟨_, o12⟩, h12, h⟩ := bind_inv h
  obtain ⟨⟨_, o13⟩, h13, h⟩ := bind_inv h
  obtain ⟨⟨_, o14⟩, h14, h⟩ := bind_inv h
  obtain ⟨⟨_, o15⟩, h15, h⟩ := bind_inv h
  have h16 : o15 = os := by simpa using congrArg (fun o => o.map (·.2)) h
  clear h
  have e1 := hf h1
  have e2 := hi h2
  have e3 := hi h3
  have e4 := hi h4
  have e5 := hi h5
  have e6 := hi h6
  have e7 := hi h7
  have e8 := hi h8
  have e9 := hi h9
  have e10 := hi h10
  have e11 := hi h11
  have e12 := hi h12
  have e13 := hi h13
  have e14 := ha h14
  have e15 := ha h15
  clear h1 h2 h3 h4 h5 h6 h7 h8 h9 h10 h11 h12 h13 h14 h15 hf hi ha
  unfold blockSizeGray
  subst h16 e15 e14 e13 e12 e11 e10 e9 e8 e7 e6 e5 e4 e3 e2 e1
  cases c.gr <;> cases c.mhd <;> cases c.scal <;> simp [hrad] <;> omega

/-- C31: the bytes consumed agree with the computed size, as the consistency check demands, when neither
chemistry nor chemistry radiation is compiled in. Missing for the full claim: these two, for which it fails
(`gray_size_wrong`). -/
theorem gray_size_partial {c : Cfg} {split : Str → Str} {a b : BlockData} {buf : Str} {os : Nat} (hrad : c.rad = true)
    (hchem : c.chem = false) (hchr : c.chemrad = false) (h : readBlock c true split a buf = some (b, os)) :
    os = blockSizeGray c a := by
  have := gray_consumed hrad h
  simpa [hchem, hchr] using this

/-- C31, finding: with passive scalars and chemistry (meshblock.cpp:520-523) or chemistry radiation the computed size is
too small, so a correct file of the gray run (whose block size is that of the arrays with the gray
intensities) always fails the check of mesh.cpp:972-979. -/
theorem gray_size_wrong {c : Cfg} {a : BlockData} (hrad : c.rad = true)
    (h : (c.scal = true ∧ c.chem = true ∧ a.h ≠ []) ∨ (c.chemrad = true ∧ a.chir ≠ [])) :
    blockSizeGray c a < blockSize c { a with ir := a.irGray } := by
  have h1 : ∀ x : Str, x ≠ [] → 0 < x.length := fun x hx => List.length_pos_of_ne_nil hx
  unfold blockSizeGray blockSize
  rcases h with ⟨hs, hc, hh⟩ | ⟨hc, hh⟩
  · have := h1 _ hh
    simp only [hs, hc, hrad, if_true]
    cases c.chemrad <;> simp <;> omega
  · have := h1 _ hh
    simp only [hc, hrad, if_true]
    cases c.scal <;> cases c.chem <;> simp <;> omega

/-! ## Non-vacuity -/

/-- A toy representation: one character, values 0..9. -/
def digitCodec : Codec Nat where
  size := 1
  valid n := n < 10
  enc n := [Char.ofNat (48 + n)]
  dec s := match s with
    | [ch] => ch.toNat - 48
    | _ => 0
  len _ := rfl
  dec_enc n hn := by
    have : ∀ n, n < 10 → (Char.ofNat (48 + n)).toNat - 48 = n := by decide +kernel
    exact this n hn

/-- The same for integers. -/
def intCodec : Codec Int where
  size := 1
  valid n := 0 ≤ n ∧ n < 10
  enc n := [Char.ofNat (48 + n.toNat)]
  dec s := match s with
    | [ch] => ((ch.toNat - 48 : Nat) : Int)
    | _ => 0
  len _ := rfl
  dec_enc n hn := by
    have : ∀ n, n < 10 → (Char.ofNat (48 + n)).toNat - 48 = n := by decide +kernel
    have := this n.toNat (by omega)
    simp only
    rw [this]
    omega

/-- A toy machine. -/
def toy : Native Nat Nat Nat Nat := ⟨intCodec, digitCodec, digitCodec, digitCodec, digitCodec, digitCodec⟩

/-- A block with scalars and chemistry. -/
def toyBlock (x : Char) : BlockData :=
  ⟨[x, 'a'], [], [], [], [], [], [], [], [], [], [x], ['h'], [], [['i']], []⟩

/-- Three processes' worth of blocks: two on the first, one on the second. -/
def toyRanks : List (Str × List (Blk Nat Nat)) :=
  [(List.replicate 5 '?', [⟨1, 2, toyBlock 'x'⟩, ⟨3, 4, toyBlock 'y'⟩]), (List.replicate 5 '!', [⟨5, 6, toyBlock 'z'⟩])]

def toyCfg : Cfg := ⟨false, false, false, false, false, true, true, false⟩
def toyHead : Head Nat Nat := ⟨3, 2, 1, 7, 8, 9, 5⟩

example : toyRanks ≠ [] ∧ (∀ r ∈ toyRanks, r.1.length = toyHead.datasize ∧
    ∀ b ∈ r.2, blockSize toyCfg b.data = toyHead.datasize ∧ BlkOk toy b) ∧
    toyHead.nbtotal = ((toyRanks.flatMap (·.2)).length : Nat) ∧ HeadOk toy toyHead ∧ toy.real.size = toy.dbl.size := by
  refine ⟨by simp [toyRanks], ?_, rfl, ?_, rfl⟩
  · intro r hr
    simp only [toyRanks, List.mem_cons, List.not_mem_nil, or_false] at hr
    rcases hr with rfl | rfl
    · refine ⟨rfl, fun b hb => ?_⟩
      simp only [List.mem_cons, List.not_mem_nil, or_false] at hb
      rcases hb with rfl | rfl <;> exact ⟨rfl, ⟨by simp [toy, digitCodec], by simp [toy, digitCodec]⟩⟩
    · refine ⟨rfl, fun b hb => ?_⟩
      simp only [List.mem_cons, List.not_mem_nil, or_false] at hb
      rcases hb with rfl
      exact ⟨rfl, ⟨by simp [toy, digitCodec], by simp [toy, digitCodec]⟩⟩
  · constructor <;> simp [toy, toyHead, digitCodec, intCodec]

/-- A written file, and a gray restart of a configuration with chemistry. -/
example : (allWrites toy toyCfg "P".toList toyHead [] true 0 toyRanks).map (·.length) = some 6 := by decide +kernel

example : (readBlock ⟨false, false, true, false, false, true, true, false⟩ true id
    { toyBlock 'x' with irGray := ['g'] } (List.replicate 6 'q')).map (·.2) = some 6 := by decide +kernel

example : blockSizeGray ⟨false, false, true, false, false, true, true, false⟩
    { toyBlock 'x' with irGray := ['g'] } = 5 := by decide +kernel

end Verif.Restart
