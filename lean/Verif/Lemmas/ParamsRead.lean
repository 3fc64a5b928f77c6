import Verif.Lemmas.ParamsText
import Mathlib.Tactic.Linarith

/-! Helper lemmas: parsed input is clean, reading the header, numbers as text. -/
namespace Verif.Params

theorem mem_filter_tab {raw : Str} {c : Char} (h : c ∈ raw.filter (· != '\t')) : c ∈ raw ∧ c ≠ '\t' := by
  rw [List.mem_filter] at h
  exact ⟨h.1, by simpa using h.2⟩

theorem dropWhile_spaces {p r : Str} {ch : Char} (hp : ∀ x ∈ p, (x != ' ') = false) (hc : (ch != ' ') = true) :
    (p ++ ch :: r).dropWhile (· == ' ') = ch :: r := by
  induction p with
  | nil => rw [List.nil_append, List.dropWhile_cons, if_neg (by simpa using hc)]
  | cons a p ih =>
    rw [List.cons_append, List.dropWhile_cons, if_pos (by simpa using hp a (by simp))]
    exact ih (fun x hx => hp x (by simp [hx]))

theorem first_occurrence {α : Type} [DecidableEq α] {c : α} {t a b : List α} (h : t = a ++ c :: b) :
    ∃ e b', t.findIdx? (fun x => x == c) = some e ∧ t = t.take e ++ c :: b' ∧ c ∉ t.take e ∧
      ∃ a2, a = t.take e ++ a2 := by
  subst h
  induction a with
  | nil => exact ⟨0, b, by simp [List.findIdx?_cons], by simp, by simp, [], by simp⟩
  | cons x a ih =>
    by_cases hx : x = c
    · exact ⟨0, a ++ c :: b, by simp [List.findIdx?_cons, hx], by simp [hx], by simp, x :: a, by simp⟩
    · obtain ⟨e, b', h1, h2, h3, a2, h4⟩ := ih
      refine ⟨e + 1, b', ?_, ?_, ?_, a2, ?_⟩
      · simp [List.findIdx?_cons, hx, h1]
      · rw [List.cons_append, List.take_succ_cons, List.cons_append, ← h2]
      · rw [List.cons_append, List.take_succ_cons]
        simp only [List.mem_cons, not_or]
        exact ⟨Ne.symm hx, h3⟩
      · rw [List.cons_append, List.take_succ_cons, List.cons_append, ← h4]

theorem parseLine_clean {t : Str} {p r : Str} {ch : Char} (ht : t = p ++ ch :: r)
    (hp : ∀ x ∈ p, (x != ' ') = false) (hch : (ch != ' ') = true) (hlt : ch ≠ '<')
    (hchars : ∀ x ∈ t, x ≠ '\t' ∧ x ≠ '\n') {a b : Str} (hab : t = a ++ '=' :: b) (hna : '#' ∉ a) :
    CleanName (parseLine t).name ∧ CleanValue (parseLine t).value ∧ CleanComment (parseLine t).comment := by
  have hfirst : t.findIdx? (· != ' ') = some p.length := by rw [ht]; exact findIdx?_mid hp hch
  obtain ⟨e, b', he, hte, hne, a2, ha2⟩ := first_occurrence hab
  have hnh : '#' ∉ t.take e := fun h => hna (by rw [ha2]; exact List.mem_append_left _ h)
  have hle : e < t.length := by
    have := congrArg List.length hte
    simp only [List.length_append, List.length_cons, List.length_take] at this
    omega
  have hdrop : t.drop p.length = ch :: r := by rw [ht]; simp
  refine ⟨?_, ?_, ?_⟩
  · unfold parseLine
    simp only [he, hfirst, Option.getD_some]
    have hsub : ∀ x ∈ trimR ((t.drop p.length).take (e - p.length)), x ∈ t.take e := by
      intro x hx
      have := mem_trimR hx
      rw [← List.drop_take] at this
      exact List.mem_of_mem_drop this
    have hhead : ∀ x, (trimR ((t.drop p.length).take (e - p.length))).head? = some x → x = ch := by
      intro x hx
      have := head?_trimR hx
      rw [hdrop] at this
      cases hk : e - p.length with
      | zero => rw [hk] at this; simp at this
      | succ k => rw [hk] at this; simpa using this.symm
    refine ⟨?_, ⟨?_, trimR_last _⟩, ?_⟩
    · intro c hc
      have h1 := hsub c hc
      have h2 := hchars c (List.mem_of_mem_take h1)
      exact ⟨fun e' => hne (e' ▸ h1), fun e' => hnh (e' ▸ h1), h2.1, h2.2⟩
    · intro h
      have := hhead _ h
      rw [← this] at hch
      exact absurd hch (by decide)
    · intro h
      exact hlt (hhead _ h).symm
  · unfold parseLine
    simp only [he]
    refine ⟨?_, trimmed_trim _⟩
    intro c hc
    have hc1 := mem_trimL (mem_trimR hc)
    cases hh : t.findIdx? (· == '#') with
    | none =>
      rw [hh] at hc1
      have hct := List.mem_of_mem_drop hc1
      have h2 := hchars c hct
      have h3 := List.findIdx?_eq_none_iff.1 hh c hct
      exact ⟨by simpa using h3, h2⟩
    | some h =>
      rw [hh] at hc1
      simp only at hc1
      obtain ⟨q, x, s, hq, hql, hx, hqn⟩ := findIdx?_split hh
      have hx' : x = '#' := by simpa using hx
      have heh : e < h := by
        rcases Nat.lt_trichotomy e h with h' | h' | h'
        · exact h'
        · exfalso
          have e1 : t[e]? = some '=' := by
            rw [hte, List.getElem?_append_right (by simp)]
            simp [Nat.min_eq_left hle.le]
          have e2 : t[e]? = some '#' := by
            rw [h', hq, ← hql]; simp [hx']
          rw [e1] at e2
          exact absurd e2 (by decide)
        · exfalso
          apply hnh
          rw [hq, List.take_append, hql, List.mem_append]
          right
          obtain ⟨k, hk⟩ : ∃ k, e - h = k + 1 := ⟨e - h - 1, by omega⟩
          rw [hk, List.take_succ_cons, hx']
          simp
      rw [if_pos heh] at hc1
      have e3 : (t.drop (e + 1)).take (h - e - 1) = (t.take h).drop (e + 1) := by
        rw [List.drop_take, Nat.sub_sub]
      rw [e3] at hc1
      have hc2 := List.mem_of_mem_drop hc1
      have h2 := hchars c (List.mem_of_mem_take hc2)
      have h3 : t.take h = q := by rw [hq]; exact take_len _ _ _ hql.symm
      rw [h3] at hc2
      exact ⟨by simpa using hqn c hc2, h2⟩
  · unfold parseLine
    cases hh : t.findIdx? (· == '#') with
    | none => exact ⟨by simp, .inl rfl⟩
    | some h =>
      obtain ⟨q, x, s, hq, hql, hx, hqn⟩ := findIdx?_split hh
      refine ⟨fun c hc => hchars c (List.mem_of_mem_drop hc), .inr ?_⟩
      show (t.drop h).head? = some '#'
      rw [hq, drop_len _ _ _ hql.symm]
      simpa using hx

theorem classify_clean {raw : Str} (hnl : '\n' ∉ raw) (hpl : PlainLine raw) :
    (∀ l, classify raw = .par l → CleanName l.name ∧ CleanValue l.value ∧ CleanComment l.comment) ∧
    (∀ n, classify raw = .block n → CleanBlockName n) := by
  unfold classify
  unfold PlainLine at hpl
  have hchars : ∀ x ∈ raw.filter (· != '\t'), x ≠ '\t' ∧ x ≠ '\n' := by
    intro x hx
    have := mem_filter_tab hx
    exact ⟨this.2, fun e => hnl (e ▸ this.1)⟩
  simp only at hpl ⊢
  generalize raw.filter (· != '\t') = t at *
  cases hf : t.findIdx? (· != ' ') with
  | none => simp
  | some f =>
    obtain ⟨p, ch, r, ht, hpl', hch, hp⟩ := findIdx?_split hf
    have hdw : t.dropWhile (· == ' ') = ch :: r := by rw [ht]; exact dropWhile_spaces hp hch
    have hdrop : t.drop f = ch :: r := by rw [ht]; exact drop_len _ _ _ hpl'.symm
    rw [hdw] at hpl
    simp only [hdrop, List.head?_cons, reduceCtorEq, false_or] at hpl ⊢
    by_cases h1 : ch = '#'
    · rw [if_pos (by rw [h1]; rfl)]; simp
    · rw [if_neg (by simp [h1])]
      by_cases h2 : ch = '<'
      · have hp0 : p = [] := by
          rcases hpl with h | h | h
          · exact absurd (Option.some.inj h) h1
          · cases p with
            | nil => rfl
            | cons a p =>
              exfalso
              rw [ht] at h
              have ha : a = '<' := by simpa using h
              have := hp a (by simp)
              rw [ha] at this
              exact absurd this (by decide)
          · exact absurd (by rw [h2]) h.1
        subst hp0
        have hf0 : f = 0 := by simpa using hpl'.symm
        subst hf0
        have htr : t.drop (0 + 1) = r := by rw [ht]; rfl
        split
        · simp
        · rename_i hne
          rw [if_pos (by rw [h2]; rfl), htr]
          cases hk : r.findIdx? (· == '>') with
          | none => simp
          | some k =>
            refine ⟨by simp, ?_⟩
            intro n hn
            simp only [LineKind.block.injEq] at hn
            obtain ⟨q, x, s, hq, hql, hx, hqn⟩ := findIdx?_split hk
            have hnq : n = q := by
              rw [← hn, hq]; exact take_len _ _ _ (by omega)
            subst hnq
            have hx' : x = '>' := by simpa using hx
            refine ⟨?_, ?_⟩
            · intro c hc
              have := hchars c (by rw [ht, hq]; simp [hc])
              exact ⟨by simpa using hqn c hc, this⟩
            · intro h
              apply hne
              rw [h2, hq, h, hx', parEnd_eq]
              rfl
      · rcases hpl with h | h | ⟨_, a, b, hab, hna⟩
        · exact absurd (Option.some.inj h) h1
        · exfalso
          cases p with
          | nil => rw [ht] at h; exact h2 (by simpa using h)
          | cons a p =>
            rw [ht] at h
            have ha : a = '<' := by simpa using h
            have := hp a (by simp)
            rw [ha] at this
            exact absurd this (by decide)
        · rw [if_neg (by rw [parEnd_eq]; simp [h2]), if_neg (by simp [h2])]
          refine ⟨?_, by simp⟩
          intro l hl
          simp only [LineKind.par.injEq] at hl
          subst hl
          exact parseLine_clean ht hp hch h2 hchars hab hna

/-! ## Clean stores -/

theorem CleanStore.nil : CleanStore [] := ⟨by simp, by simp, by simp, by simp⟩

theorem CleanStore.findOrAdd {s : Store} (h : CleanStore s) {b : Str} (hb : CleanBlockName b) :
    CleanStore (findOrAddBlock s b) := by
  unfold findOrAddBlock
  split
  · exact h
  · refine ⟨?_, ?_, ?_, ?_⟩ <;>
    · intro x hx
      rcases List.mem_append.1 hx with hx | hx
      · first
        | exact h.blocks x hx
        | exact h.names x hx
        | exact h.values x hx
        | exact h.comments x hx
      · simp only [List.mem_singleton] at hx
        subst hx
        first
        | exact hb
        | (intro l hl; simp at hl)

theorem CleanStore.onBlock {s : Store} (h : CleanStore s) {b : Str} {f : Block → Block}
    (hf : ∀ x, (f x).name = x.name)
    (hl : ∀ x ∈ s, ∀ l ∈ (f x).lines, CleanName l.name ∧ CleanValue l.value ∧ CleanComment l.comment) :
    CleanStore (onBlock b f s) := by
  refine ⟨?_, ?_, ?_, ?_⟩ <;>
  · intro x hx
    rcases mem_onBlock hx with hx | ⟨y, hy, _, rfl⟩
    · first
      | exact h.blocks x hx
      | exact h.names x hx
      | exact h.values x hx
      | exact h.comments x hx
    · first
      | (rw [hf]; exact h.blocks y hy)
      | exact fun l hl' => (hl y hy l hl').1
      | exact fun l hl' => (hl y hy l hl').2.1
      | exact fun l hl' => (hl y hy l hl').2.2

theorem CleanStore.onAdd {s : Store} (h : CleanStore s) {b n v c : Str} (hn : CleanName n)
    (hv : CleanValue v) (hc : CleanComment c) : CleanStore (Params.onBlock b (fun x => x.add n v c) s) := by
  refine h.onBlock (fun _ => rfl) ?_
  intro x hx l hl
  rcases mem_setLine (show l ∈ setLine n v c x.lines from hl) with rfl | hl
  · exact ⟨hn, hv, hc⟩
  · exact ⟨h.names x hx l hl, h.values x hx l hl, h.comments x hx l hl⟩

theorem CleanStore.onSetValue {s : Store} (h : CleanStore s) {b n v : Str}
    (hv : CleanValue v) : CleanStore (Params.onBlock b (fun x => x.setValue n v) s) := by
  refine h.onBlock (fun _ => rfl) ?_
  intro x hx l hl
  rcases mem_setValue_go (show l ∈ Block.setValue.go n v x.lines from hl) with hl | ⟨l', hl', rfl⟩
  · exact ⟨h.names x hx l hl, h.values x hx l hl, h.comments x hx l hl⟩
  · exact ⟨h.names x hx l' hl', hv, h.comments x hx l' hl'⟩

theorem CleanStore.loadLines {ls : List Str} {s s' : Store} {cur : Option Str} (h : CleanStore s)
    (hnl : ∀ l ∈ ls, '\n' ∉ l) (hpl : ∀ l ∈ ls, PlainLine l)
    (hl : loadLines s cur ls = some s') : CleanStore s' := by
  induction ls generalizing s cur with
  | nil => simp only [Params.loadLines, Option.some.injEq] at hl; exact hl ▸ h
  | cons l ls ih =>
    have ih' : ∀ {s cur}, CleanStore s → Params.loadLines s cur ls = some s' → CleanStore s' :=
      fun h hl => ih h (fun x hx => hnl x (by simp [hx])) (fun x hx => hpl x (by simp [hx])) hl
    have hc := classify_clean (hnl l (by simp)) (hpl l (by simp))
    unfold Params.loadLines at hl
    split at hl
    · exact ih' h hl
    · simp only [Option.some.injEq] at hl; exact hl ▸ h
    · simp at hl
    · rename_i n hn
      exact ih' (h.findOrAdd (hc.2 n hn)) hl
    · rename_i l' hl'
      have := hc.1 l' hl'
      split at hl
      · simp at hl
      · exact ih' (h.onAdd this.1 this.2.1 this.2.2) hl

/-! ## Reading the header -/

theorem find_some_le {pat s : Str} {p : Nat} (h : find pat s = some p) : p + pat.length ≤ s.length := by
  induction s generalizing p with
  | nil =>
    unfold find at h
    split at h
    · rename_i hp; simp at h; subst hp; simp [← h]
    · simp at h
  | cons a s ih =>
    unfold find at h
    split at h
    · rename_i hp
      simp only [Option.some.injEq] at h
      have := (List.isPrefixOf_iff_prefix.1 hp).length_le
      omega
    · obtain ⟨q, hq, rfl⟩ := Option.map_eq_some_iff.1 h
      have := ih hq
      simp only [List.length_cons]; omega

theorem find_take {pat s : Str} (hpat : pat ≠ []) {p : Nat} (h : find pat s = some p) (m : Nat) :
    find pat (s.take m) = if p + pat.length ≤ m then some p else none := by
  induction s generalizing p m with
  | nil => simp [find, hpat] at h
  | cons a s ih =>
    have hpl : 0 < pat.length := List.length_pos_of_ne_nil hpat
    cases m with
    | zero =>
      rw [if_neg (by omega)]
      simp [find, hpat]
    | succ m =>
      rw [List.take_succ_cons]
      unfold find at h
      by_cases hp : pat.isPrefixOf (a :: s)
      · rw [if_pos hp] at h
        simp only [Option.some.injEq] at h
        subst h
        rw [find]
        have hpre := List.isPrefixOf_iff_prefix.1 hp
        by_cases hm : 0 + pat.length ≤ m + 1
        · rw [if_pos hm, if_pos]
          rw [List.isPrefixOf_iff_prefix, ← List.take_succ_cons]
          rw [List.prefix_take_iff]
          exact ⟨hpre, by omega⟩
        · rw [if_neg hm, if_neg]
          · -- nothing later either: too short
            have : find pat (s.take m) = none := by
              by_contra hne
              obtain ⟨q, hq⟩ := Option.ne_none_iff_exists'.1 hne
              have := find_some_le hq
              simp only [List.length_take] at this
              omega
            rw [this]; rfl
          · intro h'
            have := (List.isPrefixOf_iff_prefix.1 h').length_le
            simp only [List.length_cons, List.length_take] at this
            omega
      · rw [if_neg hp] at h
        obtain ⟨q, hq, rfl⟩ := Option.map_eq_some_iff.1 h
        rw [find, if_neg, ih hq]
        · by_cases hm : q + pat.length ≤ m
          · rw [if_pos hm, if_pos (by omega)]; rfl
          · rw [if_neg hm, if_neg (by omega)]; rfl
        · intro h'
          apply hp
          rw [List.isPrefixOf_iff_prefix] at h' ⊢
          rw [← List.take_succ_cons] at h'
          exact h'.trans (List.take_prefix _ _)

theorem find_append {pat s : Str} (hpat : pat ≠ []) {p : Nat} (h : find pat s = some p) (r : Str) :
    find pat (s ++ r) = some p := by
  induction s generalizing p with
  | nil => simp [find, hpat] at h
  | cons a s ih =>
    rw [List.cons_append]
    unfold find at h ⊢
    by_cases hp : pat.isPrefixOf (a :: s)
    · rw [if_pos hp] at h
      rw [if_pos, h]
      rw [List.isPrefixOf_iff_prefix] at hp ⊢
      exact hp.trans ⟨r, rfl⟩
    · rw [if_neg hp] at h
      obtain ⟨q, hq, rfl⟩ := Option.map_eq_some_iff.1 h
      have hle := find_some_le hq
      rw [if_neg, ih hq]
      · rfl
      · intro h'
        apply hp
        rw [List.isPrefixOf_iff_prefix] at h' ⊢
        have : a :: (s ++ r) = (a :: s) ++ r := rfl
        rw [this] at h'
        exact List.prefix_of_prefix_length_le h' (List.prefix_append _ _)
          (by simp only [List.length_cons]; omega)

theorem find_split {pat s : Str} {p : Nat} (h : find pat s = some p) : ∃ r, s = s.take p ++ pat ++ r := by
  induction s generalizing p with
  | nil =>
    unfold find at h
    split at h
    · rename_i hp; exact ⟨[], by simp [hp]⟩
    · simp at h
  | cons a s ih =>
    unfold find at h
    split at h
    · rename_i hp
      simp only [Option.some.injEq] at h
      subst h
      obtain ⟨r, hr⟩ := List.isPrefixOf_iff_prefix.1 hp
      exact ⟨r, by simp [hr]⟩
    · obtain ⟨q, hq, rfl⟩ := Option.map_eq_some_iff.1 h
      obtain ⟨r, hr⟩ := ih hq
      refine ⟨r, ?_⟩
      rw [List.take_succ_cons, List.cons_append, List.cons_append, ← hr]

theorem parEnd_len : parEnd.length = 9 := by rw [parEnd_eq]; rfl

/-- The chunked search when the marker is at `p`. -/
theorem readHeader_spec {B : Nat} (hB : 0 < B) {file : Str} {p : Nat} (hp : find parEnd file = some p)
    (fuel k : Nat) (hf : 11 < fuel + k) (hk : k ≤ 10) (hnot : k * B < p + 9) :
    readHeader B file fuel k =
      if p + 9 ≤ 11 * B then
        some (file.take (min file.length ((k + (p + 9 - k * B - 1) / B) * B + B)), p + 10)
      else none := by
  have hlen := find_some_le hp
  rw [parEnd_len] at hlen
  induction fuel generalizing k with
  | zero => omega
  | succ fuel ih =>
    rw [readHeader]
    have hpar : file.take (k * B + min B (file.length - k * B)) = file.take (min file.length (k * B + B)) := by
      congr 1; omega
    rw [hpar, find_take (by rw [parEnd_eq]; simp) hp, parEnd_len]
    by_cases hfound : p + 9 ≤ min file.length (k * B + B)
    · rw [if_pos hfound]
      simp only
      have hlim : p + 9 ≤ 11 * B := by
        have : (k + 1) * B ≤ 11 * B := Nat.mul_le_mul_right _ (by omega)
        have : (k + 1) * B = k * B + B := by ring
        omega
      rw [if_pos hlim]
      have hq : (p + 9 - k * B - 1) / B = 0 := Nat.div_eq_of_lt (by omega)
      simp only [hq, Nat.add_zero]
    · rw [if_neg hfound]
      simp only
      have hret : min B (file.length - k * B) = B := by omega
      rw [hret]
      by_cases hbig : k * B + B > B * 10
      · rw [if_pos hbig]
        rw [if_neg]
        have : 10 ≤ k := by
          by_contra h
          have : (k + 1) * B ≤ 10 * B := Nat.mul_le_mul_right _ (by omega)
          have : (k + 1) * B = k * B + B := by ring
          omega
        have : 11 * B ≤ (k + 1) * B := Nat.mul_le_mul_right _ (by omega)
        have : (k + 1) * B = k * B + B := by ring
        omega
      · rw [if_neg hbig, if_pos rfl]
        have e : (k + 1) * B = k * B + B := by ring
        have hk10 : k + 1 ≤ 10 := by
          by_contra h
          have : 11 * B ≤ (k + 1) * B := Nat.mul_le_mul_right _ (by omega)
          omega
        rw [ih (k + 1) (by omega) hk10 (by omega)]
        have hd : (p + 9 - k * B - 1) / B = (p + 9 - (k + 1) * B - 1) / B + 1 := by
          have : p + 9 - k * B - 1 = (p + 9 - (k + 1) * B - 1) + B := by omega
          rw [this, Nat.add_div_right _ hB]
        rw [hd]
        have : k + 1 + (p + 9 - (k + 1) * B - 1) / B = k + ((p + 9 - (k + 1) * B - 1) / B + 1) := by ring
        rw [this]

/-! ## Numbers -/

theorem digit_toNat {d : Nat} (h : d < 10) : (Char.ofNat (48 + d)).toNat = 48 + d := by
  revert h; revert d; decide

theorem digitsVal_append (acc : Nat) (s t : Str) (h : ∀ c ∈ s, 48 ≤ c.toNat ∧ c.toNat ≤ 57) :
    digitsVal acc (s ++ t) = digitsVal (digitsVal acc s) t := by
  induction s generalizing acc with
  | nil => rfl
  | cons c s ih =>
    have hc := h c (by simp)
    rw [List.cons_append, digitsVal, digitsVal]
    have : (decide (c.toNat < 48) || decide (57 < c.toNat)) = false := by
      simp only [Bool.or_eq_false_iff, decide_eq_false_iff_not]; omega
    rw [if_neg (by simp [this]), if_neg (by simp [this])]
    exact ih _ (fun x hx => h x (by simp [hx]))

theorem natStr_digits (n : Nat) : ∀ c ∈ natStr n, 48 ≤ c.toNat ∧ c.toNat ≤ 57 := by
  induction n using Nat.strongRecOn with
  | ind n ih =>
    intro c hc
    unfold natStr at hc
    split at hc
    · rename_i h
      simp only [List.mem_singleton] at hc
      rw [hc, digit_toNat h]; omega
    · rename_i h
      rcases List.mem_append.1 hc with hc | hc
      · exact ih (n / 10) (by omega) c hc
      · simp only [List.mem_singleton] at hc
        rw [hc, digit_toNat (by omega)]; omega

theorem digitsVal_natStr (n : Nat) : digitsVal 0 (natStr n) = n := by
  induction n using Nat.strongRecOn with
  | ind n ih =>
    unfold natStr
    split
    · rename_i h
      simp only [digitsVal, digit_toNat h]
      rw [if_neg (by simp; omega)]
      omega
    · rename_i h
      rw [digitsVal_append _ _ _ (natStr_digits _), ih (n / 10) (by omega)]
      have h10 : n % 10 < 10 := by omega
      simp only [digitsVal, digit_toNat h10]
      rw [if_neg (by simp; omega)]
      omega

theorem natStr_ne (n : Nat) : natStr n ≠ [] := by
  unfold natStr; split <;> simp

theorem atoi_digits {s : Str} (h : ∀ c ∈ s, 48 ≤ c.toNat ∧ c.toNat ≤ 57) : atoi s = digitsVal 0 s := by
  unfold atoi
  cases s with
  | nil => rfl
  | cons c s =>
    have hc := h c (by simp)
    have h1 : c ≠ ' ' := by rintro rfl; revert hc; decide
    have h2 : c ≠ '-' := by rintro rfl; revert hc; decide
    have h3 : c ≠ '+' := by rintro rfl; revert hc; decide
    rw [List.dropWhile_cons, if_neg (by simpa using h1)]
    split
    · rename_i e; exact absurd (List.cons.inj e).1 h2
    · rename_i e; exact absurd (List.cons.inj e).1 h3
    · rfl

theorem atoi_intStr (i : Int) : atoi (intStr i) = i := by
  unfold intStr
  split
  · rename_i h
    unfold atoi
    rw [List.dropWhile_cons, if_neg (by decide)]
    simp only [digitsVal_natStr]
    omega
  · rename_i h
    rw [atoi_digits (natStr_digits _), digitsVal_natStr]
    omega

theorem intStr_chars (i : Int) : ∀ c ∈ intStr i, c = '-' ∨ (48 ≤ c.toNat ∧ c.toNat ≤ 57) := by
  intro c hc
  unfold intStr at hc
  split at hc
  · rcases List.mem_cons.1 hc with rfl | hc
    · exact .inl rfl
    · exact .inr (natStr_digits _ c hc)
  · exact .inr (natStr_digits _ c hc)

theorem cleanValue_of_chars {v : Str} (h : ∀ c ∈ v, c ≠ '#' ∧ c ≠ '\t' ∧ c ≠ '\n' ∧ c ≠ ' ') : CleanValue v :=
  ⟨fun c hc => ⟨(h c hc).1, (h c hc).2.1, (h c hc).2.2.1⟩,
    fun e => (h ' ' (List.mem_of_head? e)).2.2.2 rfl,
    fun e => (h ' ' (List.mem_of_getLast? e)).2.2.2 rfl⟩

theorem cleanValue_intStr (i : Int) : CleanValue (intStr i) := by
  refine cleanValue_of_chars ?_
  intro c hc
  rcases intStr_chars i c hc with rfl | h
  · decide
  · refine ⟨?_, ?_, ?_, ?_⟩ <;> (rintro rfl; revert h; decide)

end Verif.Params
