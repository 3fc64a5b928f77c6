import Verif.Spec.Params
import Verif.Lemmas.Params
import Mathlib.Tactic.Ring

/-! Helper lemmas: parsing of dumped text. -/
namespace Verif.Params

theorem parEnd_eq : parEnd = ['<', 'p', 'a', 'r', '_', 'e', 'n', 'd', '>'] := by decide +kernel

theorem findIdx?_mid {α : Type} {q : α → Bool} {p r : List α} {c : α} (h : ∀ x ∈ p, q x = false) (hc : q c = true) :
    (p ++ c :: r).findIdx? q = some p.length := by
  induction p with
  | nil => simp [List.findIdx?_cons, hc]
  | cons a p ih =>
    simp only [List.cons_append, List.findIdx?_cons, h a (by simp)]
    rw [ih (fun x hx => h x (by simp [hx]))]
    simp

theorem findIdx?_no {α : Type} {q : α → Bool} {p : List α} (h : ∀ x ∈ p, q x = false) :
    p.findIdx? q = none := by
  rw [List.findIdx?_eq_none_iff]; exact h

/-- A found index splits the list. -/
theorem findIdx?_split {α : Type} {q : α → Bool} {s : List α} {k : Nat} (h : s.findIdx? q = some k) :
    ∃ p c r, s = p ++ c :: r ∧ p.length = k ∧ q c = true ∧ ∀ x ∈ p, q x = false := by
  induction s generalizing k with
  | nil => simp at h
  | cons a s ih =>
    rw [List.findIdx?_cons] at h
    by_cases ha : q a = true
    · rw [if_pos ha] at h
      simp only [Option.some.injEq] at h
      exact ⟨[], a, s, rfl, by simpa using h, ha, by simp⟩
    · rw [if_neg ha] at h
      obtain ⟨j, hj, rfl⟩ := Option.map_eq_some_iff.1 h
      obtain ⟨p, c, r, rfl, rfl, h1, h2⟩ := ih hj
      refine ⟨a :: p, c, r, rfl, rfl, h1, ?_⟩
      intro x hx
      rcases List.mem_cons.1 hx with rfl | hx
      · simpa using ha
      · exact h2 x hx

theorem trimR_spaces {s : Str} (h : s.getLast? ≠ some ' ') (k : Nat) :
    trimR (s ++ List.replicate k ' ') = s := by
  unfold trimR
  rw [List.reverse_append, List.reverse_replicate]
  have : (List.replicate k ' ' ++ s.reverse).dropWhile (· == ' ') = s.reverse := by
    induction k with
    | zero =>
      rw [List.replicate_zero, List.nil_append]
      cases hr : s.reverse with
      | nil => rfl
      | cons a t =>
        have : s.getLast? = some a := by
          rw [← List.head?_reverse, hr]; rfl
        have ha : a ≠ ' ' := fun e => h (by rw [this, e])
        rw [List.dropWhile_cons]; simp [ha]
    | succ k ih => rw [List.replicate_succ, List.cons_append, List.dropWhile_cons]; simpa using ih
  rw [this, List.reverse_reverse]

theorem trimR_last (s : Str) : (trimR s).getLast? ≠ some ' ' := by
  unfold trimR
  rw [List.getLast?_reverse]
  intro h
  have := List.head?_dropWhile_not (fun c : Char => c == ' ') s.reverse
  rw [h] at this
  simp at this

theorem mem_trimR {s : Str} {c : Char} (h : c ∈ trimR s) : c ∈ s := by
  unfold trimR at h
  rw [List.mem_reverse] at h
  exact List.mem_reverse.1 ((List.dropWhile_suffix _).subset h)

theorem mem_trimL {s : Str} {c : Char} (h : c ∈ trimL s) : c ∈ s :=
  (List.dropWhile_suffix _).subset h

theorem trimR_prefix (s : Str) : trimR s <+: s := by
  unfold trimR
  obtain ⟨t, ht⟩ := List.dropWhile_suffix (fun c : Char => c == ' ') (l := s.reverse)
  refine ⟨t.reverse, ?_⟩
  rw [← List.reverse_append, ht, List.reverse_reverse]

theorem head?_trimR {s : Str} {c : Char} (h : (trimR s).head? = some c) : s.head? = some c := by
  obtain ⟨t, ht⟩ := trimR_prefix s
  rw [← ht]
  cases hs : trimR s with
  | nil => rw [hs] at h; simp at h
  | cons a u => rw [hs] at h; simpa using h

theorem trimL_head (s : Str) : (trimL s).head? ≠ some ' ' := by
  unfold trimL
  intro h
  have := List.head?_dropWhile_not (fun c : Char => c == ' ') s
  rw [h] at this
  simp at this

theorem trimmed_trim (s : Str) : Trimmed (trimR (trimL s)) :=
  ⟨fun h => trimL_head s (head?_trimR h), trimR_last _⟩

theorem trim_value {v : Str} (h : Trimmed v) (k : Nat) :
    trimR (trimL (' ' :: v ++ List.replicate k ' ')) = v := by
  unfold trimL
  cases v with
  | nil =>
    have : ([' '] ++ List.replicate k ' ').dropWhile (· == ' ') = [] := by
      rw [show [' '] ++ List.replicate k ' ' = List.replicate (k + 1) ' ' from rfl]
      generalize k + 1 = j
      induction j with
      | zero => rfl
      | succ j ih => rw [List.replicate_succ, List.dropWhile_cons]; simpa using ih
    rw [this]; rfl
  | cons a t =>
    have ha : a ≠ ' ' := fun e => h.1 (by rw [e]; rfl)
    have : (' ' :: (a :: t) ++ List.replicate k ' ').dropWhile (· == ' ') = (a :: t) ++ List.replicate k ' ' := by
      rw [List.cons_append, List.dropWhile_cons]
      simp [ha]
    rw [this]
    exact trimR_spaces h.2 k

theorem filter_tab {s : Str} (h : ∀ c ∈ s, c ≠ '\t') : s.filter (· != '\t') = s := by
  rw [List.filter_eq_self]
  intro c hc
  simp [h c hc]

theorem drop_mid {α : Type} (a : List α) (c : α) (b : List α) : (a ++ c :: b).drop (a.length + 1) = b := by
  rw [List.append_cons]
  exact List.drop_left' (by simp)

/-- The text of one parameter line. -/
def lineText (n v c : Str) (k m : Nat) : Str :=
  n ++ List.replicate (k + 1) ' ' ++ "= ".toList ++ (v ++ List.replicate (m + 1) ' ') ++ c

theorem take_len {α : Type} (a b : List α) (k : Nat) (h : k = a.length) : (a ++ b).take k = a := by
  subst h; simp

theorem drop_len {α : Type} (a b : List α) (k : Nat) (h : k = a.length) : (a ++ b).drop k = b := by
  subst h; simp

theorem parse_lineText {n v c : Str} (hn : CleanName n) (hv : CleanValue v) (hc : CleanComment c) (k m : Nat) :
    classify (lineText n v c k m) = .par ⟨n, v, c⟩ := by
  have htab : ∀ x ∈ lineText n v c k m, x ≠ '\t' := by
    intro x hx
    unfold lineText at hx
    simp only [List.mem_append] at hx
    rcases hx with (((hx | hx) | hx) | (hx | hx)) | hx
    · exact (hn.chars x hx).2.2.1
    · rw [List.eq_of_mem_replicate hx]; decide
    · revert hx; revert x; decide
    · exact (hv.chars x hx).2.1
    · rw [List.eq_of_mem_replicate hx]; decide
    · exact (hc.chars x hx).1
  -- the shape seen from the equals sign
  have e1 : lineText n v c k m = (n ++ List.replicate (k + 1) ' ') ++ '=' ::
      ((' ' :: v ++ List.replicate (m + 1) ' ') ++ c) := by
    unfold lineText; simp
  have heq : (lineText n v c k m).findIdx? (· == '=') = some (n ++ List.replicate (k + 1) ' ').length := by
    rw [e1]
    refine findIdx?_mid ?_ (by decide)
    intro x hx
    rcases List.mem_append.1 hx with hx | hx
    · simpa using (hn.chars x hx).1
    · rw [List.eq_of_mem_replicate hx]; decide
  have hpre : ∀ x ∈ (n ++ List.replicate (k + 1) ' ') ++ '=' :: (' ' :: v ++ List.replicate (m + 1) ' '),
      (x == '#') = false := by
    intro x hx
    simp only [List.mem_append, List.mem_cons] at hx
    rcases hx with (hx | hx) | hx | (hx | hx) | hx
    · simpa using (hn.chars x hx).2.1
    · rw [List.eq_of_mem_replicate hx]; decide
    · rw [hx]; decide
    · rw [hx]; decide
    · simpa using (hv.chars x hx).1
    · rw [List.eq_of_mem_replicate hx]; decide
  -- first nonblank
  have hfirst : ∃ f ch t, (lineText n v c k m).findIdx? (· != ' ') = some f ∧
      (lineText n v c k m).drop f = ch :: t ∧ ch ≠ '#' ∧ ch ≠ '<' ∧
      trimR (((lineText n v c k m).drop f).take ((n ++ List.replicate (k + 1) ' ').length - f)) = n := by
    cases n with
    | nil =>
      refine ⟨k + 1, '=', ((' ' :: v ++ List.replicate (m + 1) ' ') ++ c), ?_, ?_, by decide, by decide, ?_⟩
      · rw [e1]
        have := findIdx?_mid (q := fun x : Char => x != ' ') (p := List.replicate (k + 1) ' ')
          (c := '=') (r := ((' ' :: v ++ List.replicate (m + 1) ' ') ++ c))
          (by intro x hx; rw [List.eq_of_mem_replicate hx]; decide) (by decide)
        rw [List.length_replicate] at this
        exact this
      · rw [e1]; exact drop_len _ _ _ (by simp)
      · simp [trimR]
    | cons a t =>
      have ha : a ≠ ' ' := fun e => hn.trimmed.1 (by rw [e]; rfl)
      refine ⟨0, a, t ++ List.replicate (k + 1) ' ' ++ '=' ::
        ((' ' :: v ++ List.replicate (m + 1) ' ') ++ c), ?_, ?_, (hn.chars a (by simp)).2.1, ?_, ?_⟩
      · rw [e1]; simp [List.findIdx?_cons, ha]
      · rw [e1]; simp
      · intro e; exact hn.head (by rw [e]; rfl)
      · rw [e1, List.drop_zero, Nat.sub_zero, take_len _ _ _ rfl]
        exact trimR_spaces hn.trimmed.2 _
  obtain ⟨f, ch, t, hf, hd, h1, h2, hname⟩ := hfirst
  have hval : (parseLine (lineText n v c k m)).value = v := by
    unfold parseLine
    simp only [heq]
    rcases hc.head with hc0 | hc0
    · have : (lineText n v c k m).findIdx? (· == '#') = none := by
        refine findIdx?_no ?_
        rw [e1, hc0, List.append_nil]; exact hpre
      simp only [this]
      rw [e1, hc0, List.append_nil, drop_mid]
      exact trim_value hv.trimmed _
    · obtain ⟨t', rfl⟩ : ∃ t', c = '#' :: t' := by
        cases c with
        | nil => simp at hc0
        | cons a t' => simp at hc0; exact ⟨t', by rw [hc0]⟩
      have e2 : lineText n v ('#' :: t') k m = ((n ++ List.replicate (k + 1) ' ') ++ '=' ::
          (' ' :: v ++ List.replicate (m + 1) ' ')) ++ '#' :: t' := by rw [e1]; simp
      have : (lineText n v ('#' :: t') k m).findIdx? (· == '#') =
          some ((n ++ List.replicate (k + 1) ' ') ++ '=' :: (' ' :: v ++ List.replicate (m + 1) ' ')).length := by
        rw [e2]
        exact findIdx?_mid hpre (by decide)
      simp only [this]
      rw [if_pos (by simp only [List.length_append, List.length_cons]; omega)]
      rw [e1, drop_mid, take_len]
      · exact trim_value hv.trimmed _
      · simp only [List.length_append, List.length_cons]; omega
  have hcom : (parseLine (lineText n v c k m)).comment = c := by
    unfold parseLine
    rcases hc.head with hc0 | hc0
    · have : (lineText n v c k m).findIdx? (· == '#') = none := by
        refine findIdx?_no ?_
        rw [e1, hc0, List.append_nil]; exact hpre
      simp only [this]; exact hc0.symm
    · obtain ⟨t', rfl⟩ : ∃ t', c = '#' :: t' := by
        cases c with
        | nil => simp at hc0
        | cons a t' => simp at hc0; exact ⟨t', by rw [hc0]⟩
      have e2 : lineText n v ('#' :: t') k m = ((n ++ List.replicate (k + 1) ' ') ++ '=' ::
          (' ' :: v ++ List.replicate (m + 1) ' ')) ++ '#' :: t' := by rw [e1]; simp
      have : (lineText n v ('#' :: t') k m).findIdx? (· == '#') =
          some ((n ++ List.replicate (k + 1) ' ') ++ '=' :: (' ' :: v ++ List.replicate (m + 1) ' ')).length := by
        rw [e2]
        exact findIdx?_mid hpre (by decide)
      simp only [this]
      rw [e2]; exact drop_len _ _ _ rfl
  have hnam : (parseLine (lineText n v c k m)).name = n := by
    unfold parseLine
    simp only [heq, hf, Option.getD_some]
    exact hname
  clear e1 heq hpre hname
  generalize lineText n v c k m = L at *
  have hp : parseLine L = ⟨n, v, c⟩ := by
    rw [← hnam, ← hval, ← hcom]
  unfold classify
  rw [filter_tab htab]
  simp only [hf, hd]
  rw [if_neg (by simp [h1]), if_neg (by rw [parEnd_eq]; simp [h2]), if_neg (by simp [h2]), hp]

theorem parse_block {b : Str} (hb : CleanBlockName b) : classify ('<' :: b ++ ['>']) = .block b := by
  have htab : ∀ x ∈ '<' :: b ++ ['>'], x ≠ '\t' := by
    intro x hx
    simp only [List.cons_append, List.mem_cons, List.mem_append, List.not_mem_nil, or_false] at hx
    rcases hx with rfl | hx | rfl
    · decide
    · exact (hb.chars x hx).2.1
    · decide
  unfold classify
  rw [filter_tab htab]
  have hf : ('<' :: b ++ ['>']).findIdx? (· != ' ') = some 0 := by simp [List.findIdx?_cons]
  simp only [hf, List.drop_zero]
  rw [if_neg (by simp), if_neg ?_, if_pos (by simp)]
  · have : ('<' :: b ++ ['>']).drop (0 + 1) = b ++ ['>'] := by simp
    rw [this]
    have h2 : (b ++ ['>']).findIdx? (· == '>') = some b.length :=
      findIdx?_mid (r := []) (by intro x hx; simpa using (hb.chars x hx).1) (by decide)
    simp only [h2]
    congr 1
    exact take_len _ _ _ (by omega)
  · intro h
    have h' : (b ++ ['>']).take 8 = "par_end>".toList := by
      have : ('<' :: b ++ ['>']).take 9 = '<' :: (b ++ ['>']).take 8 := rfl
      rw [this] at h
      have e : parEnd = '<' :: "par_end>".toList := rfl
      rw [e] at h
      exact (List.cons.inj h).2
    -- the position of the first `>`
    have h2 : (b ++ ['>']).findIdx? (· == '>') = some b.length :=
      findIdx?_mid (r := []) (by intro x hx; simpa using (hb.chars x hx).1) (by decide)
    have h3 : (b ++ ['>']) = "par_end>".toList ++ (b ++ ['>']).drop 8 := by
      rw [← h']; simp
    have h4 : (b ++ ['>']).findIdx? (· == '>') = some 7 := by
      rw [h3]
      exact findIdx?_mid (p := "par_end".toList) (c := '>') (r := (b ++ ['>']).drop 8) (by decide) (by decide)
    rw [h4] at h2
    have hl : b.length = 7 := by simpa using h2.symm
    apply hb.notEnd
    have h5 := congrArg (List.take 7) h3
    rw [take_len _ _ _ hl.symm] at h5
    rw [h5]; rfl

theorem dumpLine_ok {b : Block} {l : Line} (h : l.name.length ≤ b.maxName ∧ l.value.length ≤ b.maxValue) :
    dumpLine b l = some (lineText l.name l.value l.comment (b.maxName - l.name.length) (b.maxValue - l.value.length)) := by
  unfold dumpLine pad
  rw [if_pos h.1, if_pos h.2]
  rfl

theorem mapM_some {α β : Type} {f : α → Option β} {g : α → β} {l : List α} (h : ∀ x ∈ l, f x = some (g x)) :
    l.mapM f = some (l.map g) := by
  induction l with
  | nil => rfl
  | cons a l ih =>
    rw [List.mapM_cons, h a (by simp), ih (fun x hx => h x (by simp [hx]))]
    rfl

/-- The text of a line of the block. -/
def textOf (b : Block) (l : Line) : Str :=
  lineText l.name l.value l.comment (b.maxName - l.name.length) (b.maxValue - l.value.length)

/-- The lines of a block. -/
def blockText (b : Block) : List Str := ('<' :: b.name ++ ['>']) :: b.lines.map (textOf b)

theorem dumpBlock_ok {b : Block} (h : b.Ok) : dumpBlock b = some (blockText b) := by
  unfold dumpBlock
  rw [mapM_some (g := textOf b) (fun l hl => dumpLine_ok (h.len l hl))]
  rfl

theorem dumpLines_ok {s : Store} (h : Ok s) :
    dumpLines s = some (banner :: (s.map blockText).flatten ++ [banner]) := by
  unfold dumpLines
  rw [mapM_some (g := blockText) (fun b hb => dumpBlock_ok (h.blocks b hb))]
  rfl

theorem banner_skip : classify banner = .skip := by decide +kernel

theorem onBlock_last {pre : Store} {x : Block} {f : Block → Block} (h : ∀ y ∈ pre, y.name ≠ x.name) :
    onBlock x.name f (pre ++ [x]) = pre ++ [f x] := by
  induction pre with
  | nil => simp [onBlock]
  | cons a pre ih =>
    rw [List.cons_append, onBlock, if_neg (by simpa using h a (by simp)), ih (fun y hy => h y (by simp [hy]))]
    rfl

theorem setLine_new {n v c : Str} {ls : List Line} (h : n ∉ ls.map (·.name)) :
    setLine n v c ls = ls ++ [⟨n, v, c⟩] := by
  induction ls with
  | nil => rfl
  | cons a ls ih =>
    simp only [List.map_cons, List.mem_cons, not_or] at h
    rw [setLine, if_neg (by simpa using Ne.symm h.1), ih h.2]
    rfl

theorem load_blockLines (b : Block) (hcl : ∀ l ∈ b.lines, CleanName l.name ∧ CleanValue l.value ∧ CleanComment l.comment)
    {pre : Store} (hpre : ∀ y ∈ pre, y.name ≠ b.name) (ls1 ls2 : List Line) (mn mv : Nat)
    (hsub : ∀ l ∈ ls2, l ∈ b.lines) (hnd : ((ls1 ++ ls2).map (·.name)).Nodup) (rest : List Str) :
    ∃ mn' mv', loadLines (pre ++ [⟨b.name, ls1, mn, mv⟩]) (some b.name) (ls2.map (textOf b) ++ rest) =
      loadLines (pre ++ [⟨b.name, ls1 ++ ls2, mn', mv'⟩]) (some b.name) rest := by
  induction ls2 generalizing ls1 mn mv with
  | nil => exact ⟨mn, mv, by simp⟩
  | cons l ls2 ih =>
    obtain ⟨h1, h2, h3⟩ := hcl l (hsub l (by simp))
    have hp : classify (textOf b l) = .par l := parse_lineText h1 h2 h3 _ _
    rw [List.map_cons, List.cons_append, loadLines, hp]
    simp only
    have hnew : l.name ∉ ls1.map (·.name) := by
      intro hm
      rw [List.map_append, List.nodup_append] at hnd
      exact hnd.2.2 _ hm l.name (by simp) rfl
    rw [show onBlock b.name (fun x => x.add l.name l.value l.comment) (pre ++ [⟨b.name, ls1, mn, mv⟩]) =
      pre ++ [(Block.mk b.name ls1 mn mv).add l.name l.value l.comment] from
      onBlock_last (x := ⟨b.name, ls1, mn, mv⟩) hpre]
    have e : ∃ mn' mv', (Block.mk b.name ls1 mn mv).add l.name l.value l.comment =
        ⟨b.name, ls1 ++ [l], mn', mv'⟩ := by
      unfold Block.add
      simp only [setLine_new hnew]
      exact ⟨_, _, rfl⟩
    obtain ⟨mn', mv', e⟩ := e
    rw [e]
    have := ih (ls1 ++ [l]) mn' mv' (fun x hx => hsub x (by simp [hx])) (by simpa using hnd)
    simpa using this

theorem load_blocks {s : Store} (hc : CleanStore s) (hok : Ok s) (pre : Store) (rest : List Str)
    (hdis : ∀ y ∈ pre, ∀ b ∈ s, y.name ≠ b.name) (cur : Option Str) :
    ∃ s' cur', content s' = content s ∧
      loadLines pre cur ((s.map blockText).flatten ++ rest) = loadLines (pre ++ s') cur' rest := by
  induction s generalizing pre cur with
  | nil => exact ⟨[], cur, rfl, by simp⟩
  | cons b s ih =>
    have hb := hok.blocks b (by simp)
    rw [List.map_cons, List.flatten_cons, List.append_assoc]
    rw [show blockText b = ('<' :: b.name ++ ['>']) :: b.lines.map (textOf b) from rfl]
    rw [List.cons_append, loadLines, parse_block (hc.blocks b (by simp))]
    simp only
    have hadd : findOrAddBlock pre b.name = pre ++ [⟨b.name, [], 0, 0⟩] := by
      unfold findOrAddBlock
      rw [if_neg]
      intro h
      obtain ⟨y, hy, he⟩ := List.any_eq_true.1 h
      exact hdis y hy b (by simp) (by simpa using he)
    rw [hadd]
    obtain ⟨mn, mv, h1⟩ := load_blockLines b
      (fun l hl => ⟨hc.names b (by simp) l hl, hc.values b (by simp) l hl, hc.comments b (by simp) l hl⟩)
      (pre := pre) (fun y hy => hdis y hy b (by simp)) [] b.lines 0 0 (fun _ h => h) (by simpa using hb.nodup)
      ((s.map blockText).flatten ++ rest)
    rw [h1, List.nil_append]
    have hnd := hok.nodup
    simp only [List.map_cons, List.nodup_cons] at hnd
    obtain ⟨s', cur', h2, h3⟩ := ih
      ⟨fun x hx => hc.blocks x (by simp [hx]), fun x hx => hc.names x (by simp [hx]),
        fun x hx => hc.values x (by simp [hx]), fun x hx => hc.comments x (by simp [hx])⟩
      ⟨hnd.2, fun x hx => hok.blocks x (by simp [hx])⟩
      (pre ++ [⟨b.name, b.lines, mn, mv⟩]) (by
        intro y hy b' hb'
        rcases List.mem_append.1 hy with hy | hy
        · exact hdis y hy b' (by simp [hb'])
        · simp only [List.mem_singleton] at hy
          subst hy
          intro e
          exact hnd.1 (List.mem_map.2 ⟨b', hb', e.symm⟩)) (some b.name)
    refine ⟨⟨b.name, b.lines, mn, mv⟩ :: s', cur', ?_, ?_⟩
    · simp only [content, List.map_cons] at h2 ⊢
      rw [h2]
    · rw [h3]; simp

/-! ## Splitting text into lines -/

theorem splitLines_ne (t : Str) : splitLines t ≠ [] := by
  cases t with
  | nil => simp [splitLines]
  | cons c t =>
    unfold splitLines
    split
    · simp
    · split <;> simp

theorem splitLines_line {l : Str} (h : '\n' ∉ l) (t : Str) :
    splitLines (l ++ '\n' :: t) = l :: splitLines t := by
  induction l with
  | nil => simp [splitLines]
  | cons a l ih =>
    simp only [List.mem_cons, not_or] at h
    rw [List.cons_append, splitLines, if_neg (Ne.symm h.1), ih h.2]

theorem splitLines_unlines {ls : List Str} (h : ∀ l ∈ ls, '\n' ∉ l) (t : Str) :
    splitLines (unlines ls ++ t) = ls ++ splitLines t := by
  induction ls with
  | nil => simp [unlines]
  | cons l ls ih =>
    have : unlines (l :: ls) ++ t = l ++ '\n' :: (unlines ls ++ t) := by simp [unlines]
    rw [this, splitLines_line (h l (by simp)), ih (fun x hx => h x (by simp [hx]))]
    rfl

theorem splitLines_mem {t l : Str} (h : l ∈ splitLines t) : '\n' ∉ l := by
  induction t generalizing l with
  | nil => simp [splitLines] at h; simp [h]
  | cons c t ih =>
    unfold splitLines at h
    split at h
    · rcases List.mem_cons.1 h with rfl | h
      · simp
      · exact ih h
    · rename_i hc
      split at h
      · simp only [List.mem_singleton] at h
        rw [h]
        simpa using Ne.symm hc
      · rename_i l' ls hs
        rcases List.mem_cons.1 h with rfl | h
        · simp only [List.mem_cons, not_or]
          exact ⟨Ne.symm hc, ih (by rw [hs]; simp)⟩
        · exact ih (by rw [hs]; simp [h])

theorem splitLines_parEnd (r : Str) : ∃ r' rest, splitLines (parEnd ++ r) = (parEnd ++ r') :: rest := by
  have h : ∀ p : Str, '\n' ∉ p → ∃ r' rest, splitLines (p ++ r) = (p ++ r') :: rest := by
    intro p
    induction p with
    | nil =>
      intro _
      cases hs : splitLines r with
      | nil => exact absurd hs (splitLines_ne r)
      | cons a b => exact ⟨a, b, by simpa using hs⟩
    | cons c p ih =>
      intro hp
      simp only [List.mem_cons, not_or] at hp
      obtain ⟨r', rest, h⟩ := ih hp.2
      refine ⟨r', rest, ?_⟩
      rw [List.cons_append, splitLines, if_neg (Ne.symm hp.1), h]
      rfl
  exact h parEnd (by decide)

theorem classify_parEnd (r : Str) : classify (parEnd ++ r) = .stop := by
  unfold classify
  have e : (parEnd ++ r).filter (· != '\t') = parEnd ++ r.filter (· != '\t') := by
    rw [List.filter_append]; rfl
  rw [e]
  have hf : (parEnd ++ r.filter (· != '\t')).findIdx? (· != ' ') = some 0 := by
    rw [parEnd_eq]; simp [List.findIdx?_cons]
  simp only [hf, List.drop_zero]
  rw [if_neg (by rw [parEnd_eq]; simp), if_pos (take_len _ _ _ (by rw [parEnd_eq]; rfl))]

theorem loadLines_stop (s : Store) (cur : Option Str) (ls : List Str) (r : Str) (rest : List Str) (r' : Str)
    (rest' : List Str) :
    loadLines s cur (ls ++ (parEnd ++ r) :: rest) = loadLines s cur (ls ++ (parEnd ++ r') :: rest') := by
  induction ls generalizing s cur with
  | nil => simp [loadLines, classify_parEnd]
  | cons l ls ih =>
    rw [List.cons_append, List.cons_append, loadLines, loadLines]
    split <;> first | exact ih _ _ | rfl | (split <;> first | exact ih _ _ | rfl)

theorem load_dump {s : Store} (hc : CleanStore s) (hok : Ok s) (ls : List Str) (hls : dumpLines s = some ls) :
    (∀ l ∈ ls, '\n' ∉ l) ∧ ∃ s', content s' = content s ∧ ∀ r rest,
      loadLines [] none (ls ++ (parEnd ++ r) :: rest) = some s' := by
  rw [dumpLines_ok hok] at hls
  simp only [Option.some.injEq] at hls
  subst hls
  refine ⟨?_, ?_⟩
  · intro l hl
    simp only [List.cons_append, List.mem_cons, List.mem_append, List.mem_flatten, List.mem_map,
      List.not_mem_nil, or_false] at hl
    rcases hl with rfl | ⟨_, ⟨b, hb, rfl⟩, hl⟩ | rfl
    · decide
    · unfold blockText at hl
      rcases List.mem_cons.1 hl with rfl | hl
      · intro h
        simp only [List.cons_append, List.mem_cons, List.mem_append, List.not_mem_nil, or_false] at h
        rcases h with h | h | h
        · exact absurd h (by decide)
        · exact ((hc.blocks b hb).chars _ h).2.2 rfl
        · exact absurd h (by decide)
      · obtain ⟨x, hx, rfl⟩ := List.mem_map.1 hl
        intro h
        unfold textOf lineText at h
        simp only [List.mem_append] at h
        rcases h with (((h | h) | h) | (h | h)) | h
        · exact ((hc.names b hb x hx).chars _ h).2.2.2 rfl
        · exact absurd (List.eq_of_mem_replicate h) (by decide)
        · revert h; decide
        · exact ((hc.values b hb x hx).chars _ h).2.2 rfl
        · exact absurd (List.eq_of_mem_replicate h) (by decide)
        · exact ((hc.comments b hb x hx).chars _ h).2 rfl
    · decide
  · obtain ⟨s', cur', h1, h2⟩ := load_blocks hc hok [] (banner :: (parEnd ++ []) :: []) (by simp) none
    refine ⟨s', h1, ?_⟩
    intro r rest
    rw [loadLines_stop _ _ _ r rest [] []]
    rw [List.cons_append, List.cons_append, loadLines, banner_skip]
    simp only
    rw [List.append_assoc]
    rw [show [banner] ++ [parEnd ++ []] = banner :: (parEnd ++ []) :: [] from rfl, h2]
    rw [List.nil_append, loadLines, banner_skip]
    simp only
    rw [loadLines, classify_parEnd]

end Verif.Params
