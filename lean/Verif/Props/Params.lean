import Verif.Lemmas.ParamsRead
import Mathlib.Data.Set.Finite.Basic
import Mathlib.Data.Finite.Prod

/-!
# C24-C28: the parameter store, its text form and the header of a file
-/
namespace Verif.Params

/-! ## C24: last write wins -/

/-- An operation on the parameters. -/
inductive Op where
  /-- `SetString` (and `SetInteger`, `SetReal`, `SetBoolean` after printing) -/
  | set (b n v : Str)
  /-- `LoadFromStream` -/
  | load (text : Str)
  /-- one command-line argument -/
  | arg (a : Str)

/-- Perform an operation. -/
def Op.run (s : Store) : Op → Option Store
  | .set b n v => some (setString s b n v)
  | .load t => loadFromStream s t
  | .arg a => modifyOne s a

/-- The assignments made by lines of text: every parameter line up to the end marker assigns in the
block whose header came last. -/
def textWrites : Option Str → List Str → List (Str × Str × Str)
  | _, [] => []
  | cur, line :: rest =>
    match classify line with
    | .stop => []
    | .block n => textWrites (some n) rest
    | .par l => (cur.map (fun b => (b, l.name, l.value))).toList ++ textWrites cur rest
    | _ => textWrites cur rest

/-- What `block/name=value` addresses. If the first `=` comes before the first `/`, the code takes
everything behind the slash as the name and everything behind the `=` as the value. -/
def argTarget (a : Str) : Option (Str × Str × Str) :=
  if '/' ∈ a ∧ '=' ∈ a then
    let b := a.takeWhile (· != '/')
    let rest := (a.dropWhile (· != '/')).drop 1
    let name := if '=' ∈ b then rest else rest.takeWhile (· != '=')
    some (b, name, (a.dropWhile (· != '=')).drop 1)
  else none

/-- The assignments made by an operation. -/
def Op.writes : Op → List (Str × Str × Str)
  | .set b n v => [(b, n, v)]
  | .load t => textWrites none (splitLines t)
  | .arg a => (argTarget a).toList

/-- The value of the last assignment to block and name. -/
def lastWrite (ws : List (Str × Str × Str)) (b n : Str) : Option Str :=
  ((ws.filter (fun w => w.1 == b && w.2.1 == n)).getLast?).map (·.2.2)

theorem lastWrite_append (ws ws' : List (Str × Str × Str)) (b n : Str) :
    lastWrite (ws ++ ws') b n = (lastWrite ws' b n).or (lastWrite ws b n) := by
  unfold lastWrite
  rw [List.filter_append, List.getLast?_append]
  cases (ws'.filter (fun w => w.1 == b && w.2.1 == n)).getLast? <;> simp

theorem lastWrite_one (b' n' v b n : Str) :
    lastWrite [(b', n', v)] b n = if b = b' ∧ n = n' then some v else none := by
  unfold lastWrite
  by_cases h : b = b' ∧ n = n'
  · simp [h.1, h.2]
  · rw [if_neg h]
    have : (b' == b && n' == n) = false := by
      rw [Bool.and_eq_false_iff]
      by_cases h1 : b = b'
      · right; simp; exact fun e => h ⟨h1, e.symm⟩
      · left; simp; exact fun e => h1 e.symm
    simp [this]

theorem getString_addParam (s : Store) (b n v c b' n' : Str) :
    getString (addParam s b n v c) b' n' = if b' = b ∧ n' = n then some v else getString s b' n' := by
  rw [getString_eq, lookup_addParam, getString_eq]
  split <;> rfl

theorem loadLines_get {ls : List Str} {s s' : Store} {cur : Option Str}
    (hcur : ∀ b, cur = some b → (getBlock s b).isSome)
    (h : loadLines s cur ls = some s') (b n : Str) :
    getString s' b n = (lastWrite (textWrites cur ls) b n).or (getString s b n) := by
  induction ls generalizing s cur with
  | nil =>
    simp only [loadLines, Option.some.injEq] at h
    subst h
    simp [textWrites, lastWrite]
  | cons l ls ih =>
    unfold loadLines at h
    unfold textWrites
    split at h
    · rename_i hc; simp only [hc]; exact ih hcur h
    · rename_i hc
      simp only [Option.some.injEq] at h
      subst h
      simp [hc, lastWrite]
    · simp at h
    · rename_i m hc
      simp only [hc]
      rw [ih _ h, getString_eq (findOrAddBlock s m), lookup_findOrAdd, ← getString_eq]
      intro b' hb'
      simp only [Option.some.injEq] at hb'
      subst hb'
      rw [getBlock_findOrAdd]; simp
    · rename_i l' hc
      simp only [hc]
      split at h
      · simp at h
      · rename_i cb
        have hs := hcur cb rfl
        rw [ih _ h, lastWrite_append, Option.or_assoc]
        · congr 1
          simp only [Option.map_some, Option.toList_some, lastWrite_one]
          rw [getString_eq, lookup_onBlock_add _ _ _ _ _ _ _ hs, getString_eq]
          split <;> simp
        · intro b' hb'
          rw [find?_map_other (by intro x; rfl)]
          split
          · simpa using hcur b' hb'
          · exact hcur b' hb'

theorem dropWhile_mid {c : Char} {p r : Str} (h : c ∉ p) :
    (p ++ c :: r).dropWhile (· != c) = c :: r ∧ (p ++ c :: r).takeWhile (· != c) = p := by
  induction p with
  | nil => simp
  | cons a p ih =>
    simp only [List.mem_cons, not_or] at h
    have := ih h.2
    rw [List.cons_append, List.dropWhile_cons, List.takeWhile_cons]
    have ha : (a != c) = true := by simpa using Ne.symm h.1
    simp [ha, this]

/-- The positions used by the code address what `argTarget` says. -/
theorem modifyOne_target (s : Store) (a : Str) :
    modifyOne s a = match argTarget a with
      | none => some s
      | some (b, n, v) => if exists? s b n then some (onBlock b (fun x => x.setValue n v) s) else none := by
  unfold modifyOne argTarget
  by_cases h1 : '/' ∈ a
  · by_cases h2 : '=' ∈ a
    · rw [if_pos ⟨h1, h2⟩]
      obtain ⟨p1, r1, e1⟩ := List.append_of_mem h1
      obtain ⟨sl, r1', hf1, ht1, hn1, _⟩ := first_occurrence e1
      obtain ⟨p2, r2, e2⟩ := List.append_of_mem h2
      obtain ⟨eq, r2', hf2, ht2, hn2, _⟩ := first_occurrence e2
      simp only [hf1, hf2]
      have hl1 : (a.take sl).length = sl := by
        have := congrArg List.length ht1
        simp only [List.length_append, List.length_cons, List.length_take] at this ⊢
        omega
      have hl2 : (a.take eq).length = eq := by
        have := congrArg List.length ht2
        simp only [List.length_append, List.length_cons, List.length_take] at this ⊢
        omega
      have hd1 : a.drop (sl + 1) = r1' := by
        have := drop_mid (a.take sl) '/' r1'
        rw [hl1, ← ht1] at this; exact this
      have hd2 : a.drop (eq + 1) = r2' := by
        have := drop_mid (a.take eq) '=' r2'
        rw [hl2, ← ht2] at this; exact this
      have hw1 := dropWhile_mid (r := r1') hn1
      have hw2 := dropWhile_mid (r := r2') hn2
      rw [← ht1] at hw1
      rw [← ht2] at hw2
      rw [hw1.1, hw1.2, hw2.1, hd1, hd2]
      simp only [List.drop_succ_cons, List.drop_zero]
      have hname : (if sl < eq then r1'.take (eq - sl - 1) else r1') =
          (if '=' ∈ a.take sl then r1' else r1'.takeWhile (· != '=')) := by
        by_cases hlt : sl < eq
        · rw [if_pos hlt, if_neg]
          · have e3 : r1' = r1'.take (eq - sl - 1) ++ '=' :: r2' := by
              have h3 : a.drop (sl + 1) = (a.take eq).drop (sl + 1) ++ '=' :: r2' := by
                conv_lhs => rw [ht2]
                rw [List.drop_append_of_le_length (by omega)]
              rw [hd1, List.drop_take, hd1, Nat.sub_add_eq] at h3
              exact h3
            have hn3 : '=' ∉ r1'.take (eq - sl - 1) := by
              intro hm
              apply hn2
              rw [← hd1, Nat.sub_sub, ← List.drop_take] at hm
              exact List.mem_of_mem_drop hm
            have := (dropWhile_mid (r := r2') hn3).2
            rw [← e3] at this
            exact this.symm
          · intro hm
            apply hn2
            have : a.take sl = (a.take eq).take sl := by rw [List.take_take, Nat.min_eq_left hlt.le]
            rw [this] at hm
            exact List.mem_of_mem_take hm
        · rw [if_neg hlt, if_pos]
          have hne : eq ≠ sl := by
            rintro rfl
            have e1 : a[eq]? = some '=' := by
              rw [ht2, List.getElem?_append_right (by omega)]; simp [hl2]
            have e2 : a[eq]? = some '/' := by
              rw [ht1, List.getElem?_append_right (by omega)]; simp [hl1]
            rw [e1] at e2
            exact absurd e2 (by decide)
          have hlt' : eq < sl := by omega
          rw [ht2, List.take_append, hl2, List.mem_append]
          right
          obtain ⟨k, hk⟩ : ∃ k, sl - eq = k + 1 := ⟨sl - eq - 1, by omega⟩
          rw [hk, List.take_succ_cons]; simp
      rw [hname]
      generalize (if '=' ∈ a.take sl then r1' else r1'.takeWhile (· != '=')) = nm
      unfold exists?
      cases getBlock s (a.take sl) with
      | none => simp
      | some x =>
        cases hg : x.getLine nm <;> simp [hg]
    · rw [if_neg (fun h => h2 h.2)]
      have : a.findIdx? (· == '=') = none := by
        refine findIdx?_no ?_
        intro x hx
        simp only [beq_eq_false_iff_ne]; rintro rfl; exact h2 hx
      rw [this]
      cases a.findIdx? (· == '/') <;> rfl
  · rw [if_neg (fun h => h1 h.1)]
    have : a.findIdx? (· == '/') = none := by
      refine findIdx?_no ?_
      intro x hx
      simp only [beq_eq_false_iff_ne]; rintro rfl; exact h1 hx
    rw [this]

theorem modifyOne_get {s s' : Store} {a : Str} (h : modifyOne s a = some s') (b n : Str) :
    getString s' b n = (lastWrite (argTarget a).toList b n).or (getString s b n) := by
  rw [modifyOne_target] at h
  cases ht : argTarget a with
  | none =>
    rw [ht] at h
    simp only [Option.some.injEq] at h
    subst h
    simp [lastWrite]
  | some w =>
    obtain ⟨b', n', v⟩ := w
    rw [ht] at h
    simp only at h
    split at h
    · rename_i hex
      simp only [Option.some.injEq] at h
      subst h
      rw [Option.toList_some, lastWrite_one, getString_eq, lookup_setValue, getString_eq]
      split
      · rename_i hbn
        rw [exists_eq, Option.isSome_iff_exists] at hex
        obtain ⟨l, hl⟩ := hex
        rw [hbn.1, hbn.2, hl]
        simp
      · simp
    · simp at h

/-- C24: after any sequence of sets, loads and command-line arguments, every read returns the value
assigned last to exactly that block and name, or what was there before if there was no such
assignment. -/
theorem last_write_wins (ops : List Op) {s s' : Store} (h : ops.foldlM Op.run s = some s') (b n : Str) :
    getString s' b n = (lastWrite (ops.flatMap Op.writes) b n).or (getString s b n) := by
  induction ops generalizing s with
  | nil =>
    simp only [List.foldlM_nil] at h
    have : s = s' := Option.some.inj h
    subst this
    simp [lastWrite]
  | cons o ops ih =>
    rw [List.foldlM_cons] at h
    obtain ⟨s1, h1, h2⟩ := Option.bind_eq_some_iff.1 h
    rw [ih h2, List.flatMap_cons, lastWrite_append, Option.or_assoc]
    congr 1
    cases o with
    | set b' n' v =>
      simp only [Op.run, Option.some.injEq] at h1
      subst h1
      rw [Op.writes, lastWrite_one, setString, getString_addParam]
      split <;> simp
    | load t => exact loadLines_get (by simp) h1 b n
    | arg a => exact modifyOne_get h1 b n

/-- C24: a parameter exists exactly if it can be read. -/
theorem exists_iff_readable (s : Store) (b n : Str) : exists? s b n = (getString s b n).isSome := by
  rw [exists_eq, getString_eq, Option.isSome_map]

/-- Two blocks, an override on the command line and a set. -/
example : (([.load "<mesh>\nnx1 = 64\n<time>\ntlim = 1.0\n".toList, .arg "mesh/nx1=32".toList,
    .set "time".toList "tlim".toList "2".toList] : List Op).foldlM Op.run []).map
    (fun s => (getString s "mesh".toList "nx1".toList, getString s "time".toList "tlim".toList,
      getString s "mesh".toList "tlim".toList)) = some (some "32".toList, some "2".toList, none) := by
  decide +kernel

/-! ## C26: the command line -/

/-- C26: overrides keep all blocks, names, comments and their order, and change only the values
addressed, each to the value of the last argument addressing it. -/
theorem cmdline_frame {args : List Str} {s s' : Store} (h : modifyFromCmdline s args = some s') :
    (s'.map (fun b => (b.name, b.lines.map (fun l => (l.name, l.comment)))) =
      s.map (fun b => (b.name, b.lines.map (fun l => (l.name, l.comment))))) ∧
    ∀ b n, getString s' b n =
      (lastWrite (args.flatMap (fun a => (argTarget a).toList)) b n).or (getString s b n) := by
  induction args generalizing s with
  | nil =>
    have : s = s' := Option.some.inj h
    subst this
    exact ⟨rfl, by simp [lastWrite]⟩
  | cons a args ih =>
    unfold modifyFromCmdline at h
    rw [List.foldlM_cons] at h
    obtain ⟨s1, h1, h2⟩ := Option.bind_eq_some_iff.1 h
    obtain ⟨h3, h4⟩ := ih h2
    refine ⟨?_, ?_⟩
    · rw [h3]
      rw [modifyOne_target] at h1
      cases ht : argTarget a with
      | none => rw [ht] at h1; simp only [Option.some.injEq] at h1; rw [h1]
      | some w =>
        obtain ⟨b', n', v⟩ := w
        rw [ht] at h1
        simp only at h1
        split at h1
        · simp only [Option.some.injEq] at h1
          subst h1
          clear * -
          induction s with
          | nil => rfl
          | cons x s ih =>
            unfold onBlock
            split
            · simp only [List.map_cons]
              congr 2
              exact setValue_go_names n' v x.lines
            · simp only [List.map_cons, ih]
        · simp at h1
    · intro b n
      rw [h4, List.flatMap_cons, lastWrite_append, Option.or_assoc, modifyOne_get h1]

theorem cmdline_exists {args : List Str} {s s' : Store} (h : modifyFromCmdline s args = some s') (b n : Str) :
    exists? s' b n = exists? s b n := by
  induction args generalizing s with
  | nil =>
    have : s = s' := Option.some.inj h
    subst this; rfl
  | cons a args ih =>
    unfold modifyFromCmdline at h
    rw [List.foldlM_cons] at h
    obtain ⟨s1, h1, h2⟩ := Option.bind_eq_some_iff.1 h
    rw [ih h2]
    rw [modifyOne_target] at h1
    cases ht : argTarget a with
    | none => rw [ht] at h1; simp only [Option.some.injEq] at h1; rw [h1]
    | some w =>
      obtain ⟨b', n', v⟩ := w
      rw [ht] at h1
      simp only at h1
      split at h1
      · simp only [Option.some.injEq] at h1
        subst h1
        rw [exists_eq, exists_eq, lookup_setValue]
        split <;> simp
      · simp at h1

/-- C26: the program stops exactly if some argument addresses a parameter that does not exist. -/
theorem cmdline_aborts_iff (args : List Str) (s : Store) :
    modifyFromCmdline s args = none ↔
      ∃ a ∈ args, ∃ b n v, argTarget a = some (b, n, v) ∧ exists? s b n = false := by
  induction args generalizing s with
  | nil => simp [modifyFromCmdline]
  | cons a args ih =>
    have hone : modifyOne s a = none ↔ ∃ b n v, argTarget a = some (b, n, v) ∧ exists? s b n = false := by
      rw [modifyOne_target]
      cases ht : argTarget a with
      | none => simp
      | some w =>
        obtain ⟨b', n', v⟩ := w
        simp only
        constructor
        · intro h
          split at h
          · simp at h
          · rename_i hne
            exact ⟨b', n', v, rfl, by simpa using hne⟩
        · rintro ⟨b, n, v', e, he⟩
          simp only [Option.some.injEq, Prod.mk.injEq] at e
          rw [e.1, e.2.1, if_neg (by simp [he])]
    have hcons : modifyFromCmdline s (a :: args) = (modifyOne s a).bind (fun s1 => modifyFromCmdline s1 args) := by
      unfold modifyFromCmdline
      rw [List.foldlM_cons]; rfl
    rw [hcons]
    cases h1 : modifyOne s a with
    | none =>
      simp only [Option.bind_none, true_iff]
      obtain ⟨b, n, v, h⟩ := hone.1 h1
      exact ⟨a, by simp, b, n, v, h⟩
    | some s1 =>
      rw [Option.bind_some, ih s1]
      have hex : ∀ b n, exists? s1 b n = exists? s b n := by
        intro b n
        exact cmdline_exists (args := [a]) (by
          unfold modifyFromCmdline
          rw [List.foldlM_cons, h1]; rfl) b n
      simp only [hex, List.mem_cons, exists_eq_or_imp]
      constructor
      · exact .inr
      · rintro (h | h)
        · rw [hone.2 h] at h1; simp at h1
        · exact h

/-- C26: `block/name=value` with plain block and name addresses exactly that. -/
theorem argTarget_plain {b n v : Str} (hb : '/' ∉ b ∧ '=' ∉ b) (hn : '=' ∉ n) :
    argTarget (b ++ '/' :: (n ++ '=' :: v)) = some (b, n, v) := by
  unfold argTarget
  rw [if_pos (by simp)]
  have h1 := dropWhile_mid (r := n ++ '=' :: v) hb.1
  have h2 := dropWhile_mid (r := v) hn
  have h3 : (b ++ '/' :: (n ++ '=' :: v)).dropWhile (· != '=') = '=' :: v := by
    have : '=' ∉ b ++ '/' :: n := by simp [hb.2, hn]
    have := (dropWhile_mid (r := v) this).1
    simpa using this
  simp only [h1.1, h1.2, h3, List.drop_succ_cons, List.drop_zero, h2.2, if_neg hb.2]

/-- C26: any other argument is ignored. -/
theorem argTarget_other {a : Str} (h : '/' ∉ a ∨ '=' ∉ a) : argTarget a = none := by
  unfold argTarget
  rw [if_neg]
  rintro ⟨h1, h2⟩
  rcases h with h | h
  · exact h h1
  · exact h h2

/-- An override that works, one that aborts. -/
example : (modifyFromCmdline [⟨"a".toList, [⟨"x".toList, "1".toList, []⟩], 1, 1⟩] ["-t".toList, "a/x=22".toList]).isSome = true
    ∧ modifyFromCmdline [⟨"a".toList, [⟨"x".toList, "1".toList, []⟩], 1, 1⟩] ["a/y=22".toList] = none := by
  decide +kernel

/-- F23: an argument naming a file whose path contains `=` stops the program. -/
theorem path_with_equals_aborts :
    modifyFromCmdline [⟨"job".toList, [⟨"problem_id".toList, "x".toList, []⟩], 10, 1⟩]
      ["-d".toList, "/scratch/beta=1/run".toList] = none := by
  decide +kernel

/-! ## C27: read or default -/

/-- C27: the stored value if present, otherwise the default, which is then stored; no other parameter
changes; reading again, with any default, gives the same value and changes nothing. -/
theorem getOrAddString_spec (s : Store) (b n d : Str) :
    ∃ s' r, getOrAddString s b n d = (s', some r) ∧
      r = (getString s b n).getD d ∧ getString s' b n = some r ∧
      (∀ b' n', (b', n') ≠ (b, n) → getString s' b' n' = getString s b' n') ∧
      ∀ d', getOrAddString s' b n d' = (s', some r) := by
  unfold getOrAddString
  by_cases h : exists? s b n
  · have h' := h
    rw [exists_iff_readable, Option.isSome_iff_exists] at h'
    obtain ⟨v, hv⟩ := h'
    refine ⟨s, v, ?_, ?_, hv, fun _ _ _ => rfl, ?_⟩
    · rw [if_pos h, hv]
    · rw [hv]; rfl
    · intro d'; rw [if_pos h, hv]
  · have h' : getString s b n = none := by
      rw [exists_iff_readable] at h; simpa using h
    have hg : getString (addParam s b n d defaulted) b n = some d := by rw [getString_addParam]; simp
    refine ⟨addParam s b n d defaulted, d, ?_, ?_, hg, ?_, ?_⟩
    · rw [if_neg h]
    · rw [h']; rfl
    · intro b' n' hne
      rw [getString_addParam, if_neg]
      rintro ⟨rfl, rfl⟩; exact hne rfl
    · intro d'
      rw [if_pos (by rw [exists_iff_readable, hg]; rfl), hg]

/-- C27 for integers (unbounded in the model). -/
theorem getOrAddInteger_spec (s : Store) (b n : Str) (d : Int) :
    ∃ s' r, getOrAddInteger s b n d = (s', some r) ∧
      r = (getInteger s b n).getD d ∧ getInteger s' b n = some r ∧
      (∀ b' n', (b', n') ≠ (b, n) → getString s' b' n' = getString s b' n') ∧
      ∀ d', getOrAddInteger s' b n d' = (s', some r) := by
  unfold getOrAddInteger getInteger
  by_cases h : exists? s b n
  · have h' := h
    rw [exists_iff_readable, Option.isSome_iff_exists] at h'
    obtain ⟨v, hv⟩ := h'
    refine ⟨s, atoi v, ?_, ?_, by rw [hv]; rfl, fun _ _ _ => rfl, ?_⟩
    · rw [if_pos h, hv]; rfl
    · rw [hv]; rfl
    · intro d'; rw [if_pos h, hv]; rfl
  · have h' : getString s b n = none := by
      rw [exists_iff_readable] at h; simpa using h
    have hg : getString (addParam s b n (intStr d) defaulted) b n = some (intStr d) := by
      rw [getString_addParam]; simp
    refine ⟨addParam s b n (intStr d) defaulted, d, ?_, ?_, ?_, ?_, ?_⟩
    · rw [if_neg h]
    · rw [h']; rfl
    · rw [hg, Option.map_some, atoi_intStr]
    · intro b' n' hne
      rw [getString_addParam, if_neg]
      rintro ⟨rfl, rfl⟩; exact hne rfl
    · intro d'
      rw [if_pos (by rw [exists_iff_readable, hg]; rfl), hg, Option.map_some, atoi_intStr]

/-- C27 for booleans. -/
theorem getOrAddBoolean_spec (s : Store) (b n : Str) (d : Bool) :
    ∃ s' r, getOrAddBoolean s b n d = (s', some r) ∧
      r = (getBoolean s b n).getD (some d) ∧ getBoolean s' b n = some r ∧
      (∀ b' n', (b', n') ≠ (b, n) → getString s' b' n' = getString s b' n') ∧
      ∀ d', getOrAddBoolean s' b n d' = (s', some r) := by
  have hrb : readBool (boolStr d) = some d := by revert d; decide +kernel
  unfold getOrAddBoolean getBoolean
  by_cases h : exists? s b n
  · have h' := h
    rw [exists_iff_readable, Option.isSome_iff_exists] at h'
    obtain ⟨v, hv⟩ := h'
    refine ⟨s, readBool v, ?_, ?_, by rw [hv]; rfl, fun _ _ _ => rfl, ?_⟩
    · rw [if_pos h, hv]; rfl
    · rw [hv]; rfl
    · intro d'; rw [if_pos h, hv]; rfl
  · have h' : getString s b n = none := by
      rw [exists_iff_readable] at h; simpa using h
    have hg : getString (addParam s b n (boolStr d) defaulted) b n = some (boolStr d) := by
      rw [getString_addParam]; simp
    refine ⟨addParam s b n (boolStr d) defaulted, some d, ?_, ?_, ?_, ?_, ?_⟩
    · rw [if_neg h]
    · rw [h']; rfl
    · rw [hg, Option.map_some, hrb]
    · intro b' n' hne
      rw [getString_addParam, if_neg]
      rintro ⟨rfl, rfl⟩; exact hne rfl
    · intro d'
      rw [if_pos (by rw [exists_iff_readable, hg]; rfl), hg, Option.map_some, hrb]

/-- C27 for reals: the value read later is the one returned exactly if the default survives printing
and reading. -/
theorem getOrAddReal_idempotent_iff {K : Type} (shw : K → Str) (rd : Str → K) (s : Store) (b n : Str) (d : K)
    (hne : exists? s b n = false) :
    ∃ s', getOrAddReal shw rd s b n d = (s', some d) ∧ getReal rd s' b n = some (rd (shw d)) ∧
      ((∀ d', getOrAddReal shw rd s' b n d' = (s', some d)) ↔ rd (shw d) = d) := by
  have hg : getString (addParam s b n (shw d) defaulted) b n = some (shw d) := by
    rw [getString_addParam]; simp
  refine ⟨addParam s b n (shw d) defaulted, ?_, ?_, ?_⟩
  · unfold getOrAddReal; rw [if_neg (by simp [hne])]
  · unfold getReal; rw [hg]; rfl
  · have e : ∀ d', getOrAddReal shw rd (addParam s b n (shw d) defaulted) b n d' =
        (addParam s b n (shw d) defaulted, some (rd (shw d))) := by
      intro d'
      unfold getOrAddReal getReal
      rw [if_pos (by rw [exists_iff_readable, hg]; rfl), hg]; rfl
    simp only [e, Prod.mk.injEq, true_and, Option.some.injEq]
    exact ⟨fun h => h d, fun h _ => h⟩

/-- F21: printing with a bounded number of characters (six significant digits in the code) loses
some value, whatever the reading function: the read-with-default of it is not repeated by a later
read. -/
theorem getOrAddReal_not_idempotent {K : Type} [Infinite K] (shw : K → Str) (rd : Str → K) (N : Nat)
    (alphabet : Finset Char) (hshw : ∀ x, (shw x).length ≤ N ∧ ∀ c ∈ shw x, c ∈ alphabet)
    (s : Store) (b n : Str) (hne : exists? s b n = false) :
    ∃ d s', getOrAddReal shw rd s b n d = (s', some d) ∧ getReal rd s' b n ≠ some d := by
  have hfin : {l : Str | l.length ≤ N ∧ ∀ c ∈ l, c ∈ alphabet}.Finite := by
    induction N with
    | zero =>
      refine (Set.finite_singleton ([] : Str)).subset ?_
      rintro l ⟨h, _⟩
      exact List.eq_nil_of_length_eq_zero (by omega)
    | succ N ih =>
      have ih' : {l : Str | l.length ≤ N ∧ ∀ c ∈ l, c ∈ alphabet}.Finite := by
        clear hshw
        clear ih
        induction N with
        | zero =>
          refine (Set.finite_singleton ([] : Str)).subset ?_
          rintro l ⟨h, _⟩
          exact List.eq_nil_of_length_eq_zero (by omega)
        | succ N ih =>
          refine ((Set.finite_singleton ([] : Str)).union
            ((alphabet.finite_toSet.prod ih).image (fun p : Char × Str => p.1 :: p.2))).subset ?_
          rintro l ⟨h1, h2⟩
          cases l with
          | nil => left; rfl
          | cons a l =>
            right
            exact ⟨(a, l), ⟨h2 a (by simp), by simp at h1; omega, fun c hc => h2 c (by simp [hc])⟩, rfl⟩
      refine ((Set.finite_singleton ([] : Str)).union
        ((alphabet.finite_toSet.prod ih').image (fun p : Char × Str => p.1 :: p.2))).subset ?_
      rintro l ⟨h1, h2⟩
      cases l with
      | nil => left; rfl
      | cons a l =>
        right
        exact ⟨(a, l), ⟨h2 a (by simp), by simp at h1; omega, fun c hc => h2 c (by simp [hc])⟩, rfl⟩
  by_contra hcon
  push Not at hcon
  have hrt : ∀ d, rd (shw d) = d := by
    intro d
    obtain ⟨s', h1, h2, _⟩ := getOrAddReal_idempotent_iff shw rd s b n d hne
    have := hcon d s' h1
    rw [h2] at this
    exact Option.some.inj this
  have hinj : Function.Injective shw := fun x y e => by rw [← hrt x, ← hrt y, e]
  have : (Set.range shw).Finite := hfin.subset (by rintro _ ⟨x, rfl⟩; exact hshw x)
  exact Set.infinite_range_of_injective hinj this

/-- F22: a boolean with an empty value is read into an uninitialised variable. -/
theorem empty_boolean_uninitialised :
    (loadFromStream [] "<a>\nflag =\n".toList).map (fun s => getBoolean s "a".toList "flag".toList) =
      some (some none) := by
  decide +kernel

/-- Booleans given by a word (C27): read as true exactly if the text, in lower case and after leading blanks, begins with `true`; left
uninitialised exactly if it is blank; false otherwise. -/
theorem boolean_word (s : Store) (b n v : Str) (hv : getString s b n = some v) (h0 : v.head? ≠ some '0') (h1 : v.head? ≠ some '1') :
    (getBoolean s b n = some (some true) ↔ ∃ (m : Nat) (rest : Str), v.map lower = List.replicate m ' ' ++ "true".toList ++ rest) ∧
    (getBoolean s b n = some none ↔ ∀ ch ∈ v, ch = ' ') ∧
    ∃ r, getBoolean s b n = some r := by
  have hn : ¬ (v.take 1 = ['0'] ∨ v.take 1 = ['1']) := by
    rcases v with _ | ⟨a, v⟩
    · simp
    · simp at h0 h1 ⊢; exact ⟨h0, h1⟩
  have hlow : ∀ ch, lower ch = ' ' ↔ ch = ' ' := by
    intro ch
    unfold lower
    split
    · next h =>
      constructor
      · intro e
        exfalso
        have all : ∀ k < 91, 65 ≤ k → Char.ofNat (k + 32) ≠ ' ' := by decide +kernel
        exact all ch.toNat (Nat.lt_succ_of_le h.2) h.1 e
      · rintro rfl; exact absurd h (by decide)
    · exact Iff.rfl
  have hdec : ∀ l : Str, ∃ m, l = List.replicate m ' ' ++ l.dropWhile (· == ' ') := by
    intro l
    induction l with
    | nil => exact ⟨0, rfl⟩
    | cons a l ih =>
      by_cases ha : a = ' '
      · obtain ⟨m, hm⟩ := ih
        refine ⟨m + 1, ?_⟩
        rw [List.dropWhile_cons, if_pos (by simpa using ha), List.replicate_succ, List.cons_append, ← hm, ha]
      · exact ⟨0, by rw [List.dropWhile_cons, if_neg (by simpa using ha)]; rfl⟩
  have hrep : ∀ (m : Nat) (l : Str), (List.replicate m ' ' ++ l).dropWhile (· == ' ') = l.dropWhile (· == ' ') := by
    intro m l
    induction m with
    | zero => rfl
    | succ m ih => rw [List.replicate_succ, List.cons_append, List.dropWhile_cons, if_pos (by rfl), ih]
  have he : (v.map lower).dropWhile (· == ' ') = [] ↔ ∀ ch ∈ v, ch = ' ' := by
    have hnil : ∀ l : Str, l.dropWhile (· == ' ') = [] ↔ ∀ x ∈ l, (x == ' ') = true := by
      intro l
      induction l with
      | nil => simp
      | cons a l ih =>
        rw [List.dropWhile_cons]
        split
        · next ha => rw [ih]; simp_all
        · next ha => simp_all
    rw [hnil]
    simp only [List.mem_map, forall_exists_index, and_imp, forall_apply_eq_imp_iff₂, beq_iff_eq, hlow]
  unfold getBoolean
  rw [hv, Option.map_some]
  unfold readBool
  rw [if_neg hn]
  refine ⟨?_, ?_, _, rfl⟩
  · constructor
    · intro h
      simp only at h
      split at h
      · simp at h
      · simp only [Option.some.injEq, decide_eq_true_eq] at h
        obtain ⟨m, hm⟩ := hdec (v.map lower)
        refine ⟨m, ((v.map lower).dropWhile (· == ' ')).drop 4, ?_⟩
        rw [← h, List.append_assoc, List.take_append_drop]
        exact hm
    · rintro ⟨m, rest, hr⟩
      rw [hr, List.append_assoc, hrep]
      rfl
  · rw [← he]
    simp only
    split
    · next h => simp [h]
    · next h => simp [h]

/-- `True` and `FALSE` in an input file. -/
example : (loadFromStream [] "<a>\nx = True\ny = FALSE\nz = tea\n".toList).map
    (fun s => [getBoolean s "a".toList "x".toList, getBoolean s "a".toList "y".toList, getBoolean s "a".toList "z".toList]) =
    some [some (some true), some (some false), some (some false)] := by
  decide +kernel

/-! ## C25: dump and reload -/

/-- Stores built from nothing by loading plain text, setting clean values and overriding with clean
values. -/
inductive Reach : Store → Prop
  | empty : Reach []
  | load {s s' t} : Reach s → (∀ l ∈ splitLines t, PlainLine l) → loadFromStream s t = some s' → Reach s'
  | set {s b n v} : Reach s → CleanBlockName b → CleanName n → CleanValue v → Reach (setString s b n v)
  | default {s b n v} : Reach s → CleanBlockName b → CleanName n → CleanValue v →
      Reach (getOrAddString s b n v).1
  | cmd {s s' a} : Reach s → (∀ b n v, argTarget a = some (b, n, v) → CleanValue v) →
      modifyOne s a = some s' → Reach s'

theorem cleanComment_updated : CleanComment updated :=
  ⟨by decide +kernel, .inr (by decide +kernel)⟩

theorem cleanComment_defaulted : CleanComment defaulted :=
  ⟨by decide +kernel, .inr (by decide +kernel)⟩

theorem Reach.ok {s : Store} (h : Reach s) : Ok s ∧ CleanStore s := by
  induction h with
  | empty => exact ⟨Ok.nil, CleanStore.nil⟩
  | load _ hpl hl ih =>
    exact ⟨ih.1.loadLines hl, ih.2.loadLines (fun l hl => splitLines_mem hl) hpl hl⟩
  | set _ hb hn hv ih =>
    exact ⟨ih.1.addParam _ _ _ _, (ih.2.findOrAdd hb).onAdd hn hv cleanComment_updated⟩
  | default _ hb hn hv ih =>
    unfold getOrAddString
    split
    · exact ih
    · exact ⟨ih.1.addParam _ _ _ _, (ih.2.findOrAdd hb).onAdd hn hv cleanComment_defaulted⟩
  | @cmd s s' a _ hv hm ih =>
    rw [modifyOne_target] at hm
    cases ht : argTarget a with
    | none => rw [ht] at hm; simp only [Option.some.injEq] at hm; exact hm ▸ ih
    | some w =>
      obtain ⟨b', n', v⟩ := w
      rw [ht] at hm
      simp only at hm
      split at hm
      · simp only [Option.some.injEq] at hm
        subst hm
        exact ⟨ih.1.onBlock (fun _ => rfl) (fun _ hx => hx.setValue _ _), ih.2.onSetValue (hv _ _ _ ht)⟩
      · simp at hm

/-- C25: the dump of every store built from plain input succeeds, and loading it gives the same
blocks, names, values and comments in the same order. -/
theorem dump_reload {s : Store} (h : Reach s) :
    ∃ d s', parameterDump s = some d ∧ loadFromStream [] d = some s' ∧ content s' = content s := by
  obtain ⟨hok, hcl⟩ := h.ok
  have hd := dumpLines_ok hok
  obtain ⟨hnl, s', hc, hl⟩ := load_dump hcl hok _ hd
  refine ⟨_, s', by unfold parameterDump; rw [hd]; rfl, ?_, hc⟩
  unfold loadFromStream
  have := splitLines_unlines (ls := (banner :: (s.map blockText).flatten ++ [banner]) ++ [parEnd])
    (by
      intro l hl
      rcases List.mem_append.1 hl with hl | hl
      · exact hnl l hl
      · simp only [List.mem_singleton] at hl
        rw [hl]; decide +kernel) []
  rw [List.append_nil] at this
  rw [this, List.append_assoc]
  have e := hl [] (splitLines [])
  rw [List.append_nil] at e
  exact e

/-- Plain input with a comment, an empty value, tabs and indentation. -/
example : ∀ l ∈ splitLines "# title\n<mesh>\n  nx1\t= 64  # cells\nkey =\n".toList, PlainLine l := by
  intro l hl
  have : l ∈ ["# title".toList, "<mesh>".toList, "  nx1\t= 64  # cells".toList, "key =".toList, []] := by
    revert hl; revert l; decide +kernel
  simp only [List.mem_cons, List.not_mem_nil, or_false] at this
  rcases this with rfl | rfl | rfl | rfl | rfl
  · right; left; decide +kernel
  · right; right; left; decide +kernel
  · right; right; right
    exact ⟨by decide +kernel, "  nx1".toList, " 64  # cells".toList, by decide +kernel, by decide +kernel⟩
  · right; right; right
    exact ⟨by decide +kernel, "key ".toList, [], by decide +kernel, by decide +kernel⟩
  · left; decide +kernel

/-- F20: with a comment sign before the equals sign the value changes at every dump and reload. -/
theorem hash_before_equals_changes :
    ∃ t s d s', loadFromStream [] t = some s ∧ parameterDump s = some d ∧ loadFromStream [] d = some s' ∧
      getString s "a".toList "x # y".toList = some "1".toList ∧
      getString s' "a".toList "x # y".toList = some "1 # y = 1".toList := by
  refine ⟨"<a>\nx # y = 1\n".toList,
    [⟨"a".toList, [⟨"x # y".toList, "1".toList, "# y = 1".toList⟩], 5, 1⟩],
    (parameterDump [⟨"a".toList, [⟨"x # y".toList, "1".toList, "# y = 1".toList⟩], 5, 1⟩]).getD [],
    [⟨"a".toList, [⟨"x # y".toList, "1 # y = 1".toList, "# y = 1 # y = 1".toList⟩], 5, 9⟩], ?_, ?_, ?_, ?_, ?_⟩ <;>
  decide +kernel

/-- F9: an indented block header gets a name that contains the bracket. -/
theorem indented_header_name :
    (loadFromStream [] "  <mesh>\nnx1 = 4\n".toList).map (fun s => s.map (·.name)) = some ["mesh>".toList] := by
  decide +kernel

/-! ## C28: the header of a file -/

/-- C28: a file whose first end marker begins a line is read independently of the chunk size `B`:
within the limit the lines before the marker are loaded and the position is behind the marker and
its newline; beyond the limit the program stops. -/
theorem chunking_irrelevant {B : Nat} (hB : 0 < B) (s : Store) (ls : List Str) (rest : Str)
    (hnl : ∀ l ∈ ls, '\n' ∉ l)
    (hfirst : find parEnd (unlines ls ++ parEnd ++ rest) = some (unlines ls).length) :
    loadFromFile B s (unlines ls ++ parEnd ++ rest) =
      if (unlines ls).length + 9 ≤ 11 * B then
        (loadLines s none (ls ++ [parEnd])).map (·, (unlines ls).length + 10)
      else none := by
  unfold loadFromFile
  rw [readHeader_spec hB hfirst 12 0 (by omega) (by omega) (by omega)]
  by_cases hlim : (unlines ls).length + 9 ≤ 11 * B
  · rw [if_pos hlim, if_pos hlim]
    simp only
    congr 1
    generalize hM : min (unlines ls ++ parEnd ++ rest).length _ = M
    have hMle : (unlines ls).length + 9 ≤ M := by
      rw [← hM]
      refine Nat.le_min.2 ⟨?_, ?_⟩
      · simp only [List.length_append, parEnd_len]; omega
      · have := Nat.div_add_mod ((unlines ls).length + 9 - 0 * B - 1) B
        have := Nat.mod_lt ((unlines ls).length + 9 - 0 * B - 1) hB
        have e : (0 + ((unlines ls).length + 9 - 0 * B - 1) / B) * B =
          B * (((unlines ls).length + 9 - 0 * B - 1) / B) := by ring
        omega
    have ht : (unlines ls ++ parEnd ++ rest).take M = unlines ls ++ (parEnd ++ rest.take (M - ((unlines ls).length + 9))) := by
      rw [List.take_append, List.take_of_length_le (by simp only [List.length_append, parEnd_len]; omega),
        List.append_assoc]
      congr 3
      simp only [List.length_append, parEnd_len]
    rw [ht]
    unfold loadFromStream
    rw [splitLines_unlines hnl]
    obtain ⟨r', rest', he⟩ := splitLines_parEnd (rest.take (M - ((unlines ls).length + 9)))
    rw [he]
    have := loadLines_stop s none ls r' rest' [] []
    rw [List.append_nil] at this
    exact this
  · rw [if_neg hlim, if_neg hlim]

/-- C28: reading back a restart file, for every payload and every chunk size: same parameters, and the
position is the first byte of the payload. The marker must not occur inside the parameters. -/
theorem restart_header {s : Store} (h : Reach s) {d : Str} (hd : parameterDump s = some d)
    (hmark : find parEnd d = some (d.length - 10)) {B : Nat} (hB : 0 < B) (hlim : d.length ≤ 11 * B)
    (payload : Str) :
    ∃ s', loadFromFile B [] (d ++ payload) = some (s', d.length) ∧ content s' = content s := by
  obtain ⟨hok, hcl⟩ := h.ok
  have hdl := dumpLines_ok hok
  obtain ⟨hnl, s', hc, hl⟩ := load_dump hcl hok _ hdl
  generalize (banner :: (s.map blockText).flatten ++ [banner]) = ls at *
  have hdd : d = unlines ls ++ parEnd ++ ['\n'] := by
    unfold parameterDump at hd
    rw [hdl] at hd
    simp only [Option.map_some, Option.some.injEq] at hd
    rw [← hd]
    simp [unlines]
  have hlen : d.length = (unlines ls).length + 10 := by
    rw [hdd]; simp only [List.length_append, parEnd_len, List.length_singleton]
  have hfind : find parEnd (unlines ls ++ parEnd ++ ('\n' :: payload)) = some (unlines ls).length := by
    have := find_append (by rw [parEnd_eq]; simp) hmark payload
    rw [hlen, Nat.add_sub_cancel, hdd] at this
    simpa using this
  have := chunking_irrelevant hB [] ls ('\n' :: payload) hnl hfind
  rw [if_pos (by omega)] at this
  have e : d ++ payload = unlines ls ++ parEnd ++ ('\n' :: payload) := by rw [hdd]; simp
  have hl' := hl [] []
  rw [List.append_nil] at hl'
  rw [e, this, hl', hlen]
  exact ⟨s', rfl, hc⟩

theorem find_none_take {pat t : Str} (hpat : pat ≠ []) (h : find pat t = none) (m : Nat) : find pat (t.take m) = none := by
  by_contra hne
  obtain ⟨q, hq⟩ := Option.ne_none_iff_exists'.1 hne
  have := find_append hpat hq (t.drop m)
  rw [List.take_append_drop, h] at this
  simp at this

/-- C28: an input file without marker is read completely up to ten chunks and refused beyond. -/
theorem input_without_marker {B : Nat} (hB : 0 < B) (s : Store) (file : Str) (h : find parEnd file = none) :
    loadFromFile B s file =
      if file.length ≤ 10 * B then (loadFromStream s file).map (·, file.length) else none := by
  have key : ∀ fuel k, 11 < fuel + k → k ≤ 10 → k * B ≤ file.length →
      readHeader B file fuel k = if file.length ≤ 10 * B then some (file, file.length) else none := by
    intro fuel
    induction fuel with
    | zero => intro k h1 h2; omega
    | succ fuel ih =>
      intro k hf hk hle
      rw [readHeader, find_none_take (by rw [parEnd_eq]; simp) h]
      simp only
      have e : (k + 1) * B = k * B + B := by ring
      have hkb : k * B ≤ 10 * B := Nat.mul_le_mul_right _ hk
      by_cases hret : min B (file.length - k * B) = B
      · rw [hret]
        by_cases hbig : k * B + B > B * 10
        · rw [if_pos hbig, if_neg (by omega)]
        · rw [if_neg hbig, if_pos rfl]
          refine ih (k + 1) (by omega) ?_ (by omega)
          by_contra hc
          have : 11 * B ≤ (k + 1) * B := Nat.mul_le_mul_right _ (by omega)
          omega
      · have hpos : k * B + min B (file.length - k * B) = file.length := by omega
        rw [hpos, if_neg hret, List.take_length]
        by_cases hbig : file.length > B * 10
        · rw [if_pos hbig, if_neg (by omega)]
        · rw [if_neg hbig, if_pos (by omega)]
  unfold loadFromFile
  rw [key 12 0 (by omega) (by omega) (by omega)]
  by_cases hlim : file.length ≤ 10 * B
  · rw [if_pos hlim, if_pos hlim]
  · rw [if_neg hlim, if_neg hlim]

/-- A header and payload; the marker straddles chunks of 14 bytes. -/
example : find parEnd ((parameterDump [⟨"a".toList, [⟨"x".toList, "1".toList, []⟩], 1, 1⟩]).getD []) = some (145 - 10) ∧
    (loadFromFile 14 [] ((parameterDump [⟨"a".toList, [⟨"x".toList, "1".toList, []⟩], 1, 1⟩]).getD [] ++ "xyz".toList)).map
      (fun p => (content p.1, p.2)) = some ([("a".toList, [⟨"x".toList, "1".toList, []⟩])], 145) := by
  decide +kernel

/-- If the first chunk holds the whole dump, the position follows the first marker in it, wherever
that is. -/
theorem header_first_marker {s : Store} (h : Reach s) {d : Str} (hd : parameterDump s = some d) {p : Nat}
    (hmark : find parEnd d = some p) {B : Nat} (hlim : d.length ≤ B) (payload : Str) :
    ∃ s', loadFromFile B [] (d ++ payload) = some (s', p + 10) ∧ content s' = content s := by
  obtain ⟨hok, hcl⟩ := h.ok
  have hdl := dumpLines_ok hok
  obtain ⟨hnl, s', hc, hl⟩ := load_dump hcl hok _ hdl
  generalize (banner :: (s.map blockText).flatten ++ [banner]) = ls at *
  have hdd : d = unlines ls ++ parEnd ++ ['\n'] := by
    unfold parameterDump at hd
    rw [hdl] at hd
    simp only [Option.map_some, Option.some.injEq] at hd
    rw [← hd]
    simp [unlines]
  have hple := find_some_le hmark
  rw [parEnd_len] at hple
  have hfind := find_append (by rw [parEnd_eq]; simp) hmark payload
  unfold loadFromFile
  rw [readHeader_spec (by omega) hfind 12 0 (by omega) (by omega) (by omega), if_pos (by omega)]
  have hq : (p + 9 - 0 * B - 1) / B = 0 := Nat.div_eq_of_lt (by omega)
  simp only [hq]
  have ht : (d ++ payload).take (min (d ++ payload).length ((0 + 0) * B + B)) =
      unlines ls ++ (parEnd ++ ('\n' :: payload.take (B - d.length))) := by
    have : (d ++ payload).take (min (d ++ payload).length ((0 + 0) * B + B)) = (d ++ payload).take B := by
      rcases Nat.le_total (d ++ payload).length B with hB' | hB'
      · rw [Nat.min_eq_left (by omega), List.take_length, List.take_of_length_le hB']
      · rw [Nat.min_eq_right (by omega)]; congr 1; omega
    rw [this, List.take_append, List.take_of_length_le hlim]
    conv_lhs => rw [hdd]
    rw [hdd]
    simp
  rw [ht]
  unfold loadFromStream
  rw [splitLines_unlines hnl]
  obtain ⟨r', rest', he⟩ := splitLines_parEnd ('\n' :: payload.take (B - d.length))
  rw [he, hl r' rest']
  exact ⟨s', rfl, hc⟩

/-- F25: a comment that mentions the marker is accepted in the input, but the restart file then starts
its data at the wrong place. -/
theorem marker_in_comment_misplaces :
    ∃ t s d, loadFromStream [] t = some s ∧ (∀ l ∈ splitLines t, PlainLine l) ∧ parameterDump s = some d ∧
      ∀ payload, ∃ s' p, loadFromFile 4096 [] (d ++ payload) = some (s', p) ∧ p ≠ d.length := by
  have hpl : ∀ l ∈ splitLines "<a>\nx = 1 # see <par_end>\n".toList, PlainLine l := by
    intro l hl
    have : l ∈ ["<a>".toList, "x = 1 # see <par_end>".toList, []] := by
      revert hl; revert l; decide +kernel
    simp only [List.mem_cons, List.not_mem_nil, or_false] at this
    rcases this with rfl | rfl | rfl
    · right; right; left; decide +kernel
    · right; right; right
      exact ⟨by decide +kernel, "x ".toList, " 1 # see <par_end>".toList, by decide +kernel, by decide +kernel⟩
    · left; decide +kernel
  have hload : loadFromStream [] "<a>\nx = 1 # see <par_end>\n".toList =
    some [⟨"a".toList, [⟨"x".toList, "1".toList, "# see <par_end>".toList⟩], 1, 1⟩] := by decide +kernel
  have hlen : ((parameterDump [⟨"a".toList, [⟨"x".toList, "1".toList, "# see <par_end>".toList⟩], 1, 1⟩]).getD []).length
    = 160 := by decide +kernel
  have hd : parameterDump [⟨"a".toList, [⟨"x".toList, "1".toList, "# see <par_end>".toList⟩], 1, 1⟩] =
    some ((parameterDump [⟨"a".toList, [⟨"x".toList, "1".toList, "# see <par_end>".toList⟩], 1, 1⟩]).getD []) := by
    decide +kernel
  refine ⟨_, _, _, hload, hpl, hd, ?_⟩
  intro payload
  obtain ⟨s', h1, _⟩ := header_first_marker (Reach.load Reach.empty hpl hload) hd (p := 78) (by decide +kernel)
    (B := 4096) (by rw [hlen]; decide) payload
  exact ⟨s', 88, h1, by rw [hlen]; decide⟩

end Verif.Params
