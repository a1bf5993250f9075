import Verif.Lemmas.Tokens
import Verif.Lemmas.Bayes

/-!
# C126 to C132: the tokens of a message
-/

namespace Verif.Props
open Verif Py Re Spec Tokens

/-! ### What the words of a message are -/

theorem mark_facts {c : Char} (h : wordMark c) : runChar c = true ∧ c.toNat < 128 ∧ isSpace c = false := by
  have hn : ∀ d ∈ c!",@*!_'\"$.-", runChar d = true ∧ d.toNat < 128 ∧ isSpace d = false := by decide
  rcases h with h | h
  · refine ⟨by simp [runChar, h], ?_, wordChar_nonblank (by simp [wordChar, h])⟩
    simp only [Char.isAlphanum, Char.isAlpha, Char.isUpper, Char.isLower, Char.isDigit, Bool.or_eq_true, Bool.and_eq_true,
      decide_eq_true_eq, UInt32.le_iff_toNat_le] at h
    have : c.toNat = c.val.toNat := rfl
    simp at h
    omega
  · exact hn c h

theorem asciiWord_word {w : Str} (h0 : w ≠ []) (h : ∀ c ∈ w, wordMark c) : Word w := ⟨h0, fun c hc => (mark_facts (h c hc)).2.2⟩

theorem readable_rendered {msg : Mail} {w text : Str} (h0 : w ≠ []) (h : ToRead msg text) (hs : Stands w text) : Stands w (rendered msg) := by
  unfold rendered
  refine stands_join _ ?_
  rcases h with h | h
  · refine ⟨text, ?_, hs⟩
    have : text ≠ [] := by
      rintro rfl
      obtain ⟨a, b, e, _⟩ := hs
      simp at e
      exact h0 e.2.1
    rw [h]
    simp [this]
  · exact ⟨text, List.mem_cons_of_mem _ (List.mem_map.2 ⟨(c!"text/plain", text), List.mem_filter.2 ⟨h, by simp⟩, rfl⟩), hs⟩

theorem readable_word {C : Chew} {ui : List Str} {msg : Mail} {w text : Str} (h0 : w ≠ []) (hw : ∀ c ∈ w, wordMark c)
    (h1 : ¬ c!"..." <:+: w) (h2 : ¬ c!"--" <:+: w) (h : ToRead msg text) (hs : Stands w text) : AWord C ui msg w [] 1 := by
  have hW := asciiWord_word h0 hw
  obtain ⟨line, hl, hs⟩ := stands_lines hW (readable_rendered h0 h hs)
  refine ⟨(line, [], 1), ?_, rfl, stands_split hW (stands_clean h0 (fun c hc => ⟨(mark_facts (hw c hc)).1, (mark_facts (hw c hc)).2.1⟩) h1 h2 hs)⟩
  unfold sources
  exact List.mem_append_left _ (List.mem_append_left _ (List.mem_map.2 ⟨line, hl, rfl⟩))

theorem textLines_nil : textLines [] = [] := rfl

/-- Words of the body are pieces of a text to read. -/
theorem body_word {C : Chew} {ui : List Str} {msg : Mail} {w pre : Str} {region : Nat} (h : AWord C ui msg w pre region) (hr : region ≠ 0) :
    pre = [] ∧ region = 1 ∧ Word w ∧ ∃ text, ToRead msg text ∧ w <:+: text := by
  obtain ⟨src, hsrc, e, hw⟩ := h
  unfold sources at hsrc
  rcases List.mem_append.1 hsrc with hsrc | hsrc
  · rcases List.mem_append.1 hsrc with hsrc | hsrc
    · obtain ⟨line, hl, rfl⟩ := List.mem_map.1 hsrc
      simp only [Prod.mk.injEq] at e
      obtain ⟨hi, hW⟩ := word_infix hw
      refine ⟨e.1.symm, e.2.symm, hW, ?_⟩
      have hi := lines_infix hW.2 hl hi
      have hnl : '\n' ∉ w := fun hm => by
        have := hW.2 _ hm
        revert this; decide
      unfold rendered at hi
      obtain ⟨x, hx, hi⟩ := infix_join_line hnl hW.1 _ hi
      rcases List.mem_cons.1 hx with rfl | hx
      · have hb : ¬ w <:+: c!"\n" := by
          intro hi
          obtain ⟨d, ds, rfl⟩ := List.exists_cons_of_ne_nil hW.1
          have := hi.subset (List.mem_cons_self ..)
          simp at this
          subst this
          exact hnl (by simp)
        cases hsub : msg.subject with
        | none => rw [hsub] at hi; exact absurd hi hb
        | some s =>
          rw [hsub] at hi
          simp only at hi
          split at hi
          · exact absurd hi hb
          · exact ⟨s, .inl hsub, hi⟩
      · obtain ⟨p, hp, rfl⟩ := List.mem_map.1 hx
        rw [List.mem_filter] at hp
        have h2 := hp.2
        simp at h2
        exact ⟨p.2, .inr (by rw [← h2]; exact hp.1), hi⟩
    · obtain ⟨line, hl, rfl⟩ := List.mem_map.1 hsrc
      rw [show invisible msg = [] from rfl, textLines_nil] at hl
      cases hl
  · obtain ⟨hh, hl, rfl⟩ := List.mem_map.1 hsrc
    simp only [Prod.mk.injEq] at e
    exact absurd e.2.symm hr

theorem trim_infix (w : Str) : trim w <:+: w := by
  unfold trim rstripBy lstripChars lstripBy
  refine List.IsInfix.trans ?_ (List.dropWhile_suffix (fun c => edgeChars.contains c)).isInfix
  have := (List.dropWhile_suffix (fun c => edgeChars.contains c) (l := (w.dropWhile (fun c => edgeChars.contains c)).reverse))
  have := List.reverse_prefix.2 this
  rw [List.reverse_reverse] at this
  exact this.isInfix

theorem trim_same {w : Str} (h1 : ∀ c, w.head? = some c → ¬ edgeMark c) (h2 : ∀ c, w.getLast? = some c → ¬ edgeMark c) : trim w = w := by
  have e : ∀ c, edgeChars.contains c = true ↔ edgeMark c := by
    intro c
    rw [List.contains_iff_mem]
    exact Iff.rfl
  have hd : ∀ s : Str, (∀ c, s.head? = some c → ¬ edgeMark c) → s.dropWhile (fun c => edgeChars.contains c) = s := by
    intro s hs
    cases s with
    | nil => rfl
    | cons c s =>
      rw [List.dropWhile_cons, if_neg]
      rw [e]
      exact hs c rfl
  unfold trim rstripBy lstripChars lstripBy
  rw [hd w h1, hd w.reverse (by simpa using h2)]
  simp

theorem stopWords_eq (w : Str) : stopWords.contains w = true ↔ w ∈ sayNothing := by
  rw [List.contains_iff_mem]
  have : stopWords = sayNothing := by decide +kernel
  rw [this]

/-! ### C126: tokenising ends -/

/-- A dot with a letter directly after it. -/
def DotLetter (s : Str) : Prop := ∃ c, c.isAlpha = true ∧ ['.', c] <:+: s

/-- Tokenising ends if there is no dot before a letter in the texts to read. -/
theorem C126_ends_partial (C : Chew) (ui : List Str) (fuel : Nat) (msg : Mail) (h : ∀ text, ToRead msg text → ¬ DotLetter text) :
    tokenise C ui fuel msg ≠ .running := by
  rw [Ne, tokenise_running]
  rintro ⟨word, pre, region, hw, hn⟩
  rw [wordTokens_none] at hn
  obtain ⟨hr, hd, _⟩ := hn
  obtain ⟨_, _, _, text, ht, hi⟩ := body_word hw (by omega)
  refine h text ht ?_
  unfold startsDomain at hd
  split at hd
  · rename_i a b c rest e
    simp at hd
    refine ⟨c, hd.2, List.IsInfix.trans ?_ ((trim_infix word).trans hi)⟩
    rw [e, hd.1.2]
    exact ⟨[a], rest, by simp⟩
  · cases hd

/-- Tokenising never ends if a word in a text to read has a dot as its second character and a letter as its third. -/
theorem C126_url_violated (C : Chew) (ui : List Str) (fuel : Nat) (msg : Mail) (text : Str) (a c : Char) (rest : Str)
    (ht : ToRead msg text) (hs : Stands (a :: '.' :: c :: rest) text) (hw : ∀ d ∈ a :: '.' :: c :: rest, wordMark d)
    (ha : ¬ edgeMark a) (hc : c.isAlpha = true) (h1 : ¬ c!"..." <:+: a :: '.' :: c :: rest) (h2 : ¬ c!"--" <:+: a :: '.' :: c :: rest) :
    tokenise C ui fuel msg = .running := by
  rw [tokenise_running]
  refine ⟨_, [], 1, readable_word (by simp) hw h1 h2 ht hs, ?_⟩
  rw [wordTokens_none]
  have e : ∀ d, edgeChars.contains d = true ↔ edgeMark d := fun d => by rw [List.contains_iff_mem]; exact Iff.rfl
  have hce : edgeChars.contains c = false := by
    cases hh : edgeChars.contains c with
    | false => rfl
    | true =>
      have : ∀ d ∈ edgeChars, d.isAlpha = false := by decide
      rw [this c (by simpa using hh)] at hc; cases hc
  have hstart : ∃ rest', trim (a :: '.' :: c :: rest) = a :: '.' :: c :: rest' := by
    unfold trim rstripBy lstripChars lstripBy
    rw [List.dropWhile_cons, if_neg (by rw [e]; exact ha)]
    have hr : ∀ s : Str, ∃ s', ((s ++ [c, '.', a]).dropWhile (fun c => edgeChars.contains c)) = s' ++ [c, '.', a] := by
      intro s
      induction s with
      | nil => exact ⟨[], by rw [List.nil_append, List.dropWhile_cons, if_neg (by rw [hce]; simp)]⟩
      | cons d s ih =>
        rw [List.cons_append, List.dropWhile_cons]
        split
        · exact ih
        · exact ⟨d :: s, rfl⟩
    obtain ⟨s', hs'⟩ := hr rest.reverse
    refine ⟨s'.reverse, ?_⟩
    rw [show (a :: '.' :: c :: rest).reverse = rest.reverse ++ [c, '.', a] by simp, hs']
    simp
  obtain ⟨rest', e'⟩ := hstart
  rw [e']
  refine ⟨.inl rfl, ?_, ?_⟩
  · simp [startsDomain, hc, nonSpace, (mark_facts (hw a (by simp))).2.2]
  · cases hh : stopWords.contains (a :: '.' :: c :: rest') with
    | false => rfl
    | true =>
      have hno : ∀ w ∈ sayNothing, '.' ∉ w := by decide +kernel
      exact absurd (by simp) (hno _ ((stopWords_eq _).1 hh))

/-! ### C127: words become tokens -/

theorem keep_last (pre : Str) (region : Nat) (w : Str) (h : w.length ≤ 15) : .text (pre ++ w) ∈ keep pre region w := by
  unfold keep
  have : decide (w.length > maxLength) = false := by simp [maxLength, h]
  simp only [this, Bool.false_and]
  simp

theorem keep_lower (pre : Str) (w : Str) (h : w.length ≤ 15) : .text (pre ++ lower w) ∈ keep pre 1 w := by
  unfold keep
  have : decide (w.length > maxLength) = false := by simp [maxLength, h]
  simp only [this, Bool.false_and]
  simp

/-- Every word of three to fifteen characters of ASCII that is not on the list is a token of the message, as it stands and in small
letters: if there are tokens at all. -/
theorem C127_word_partial (C : Chew) (ui : List Str) (fuel : Nat) (msg : Mail) (l : List Str) (h : tokenise C ui fuel msg = .tokens l)
    (text w : Str) (ht : ToRead msg text) (hs : Stands w text) (hw : AsciiWord w) (h3 : 3 ≤ w.length) (h15 : w.length ≤ 15)
    (hn : w ∉ sayNothing) : w ∈ l ∧ lower w ∈ l := by
  have h0 : w ≠ [] := by rintro rfl; simp at h3
  obtain ⟨ts, e, hts⟩ := (tokenise_tokens h).1 _ _ _ (readable_word h0 hw.chars hw.noDots hw.noDashes ht hs)
  have htrim := trim_same hw.start hw.stop
  have hk : ∀ t ∈ keep [] 1 w, t ∈ ts := by
    intro t ht
    rcases wordTokens_some e with ⟨_, h | h⟩ | ⟨_, _, ⟨rfl, _⟩ | ⟨rfl, _⟩⟩
    · rw [htrim] at h; omega
    · rw [htrim, stopWords_eq] at h; exact absurd h hn
    · rw [htrim]; exact List.mem_cons_of_mem _ ht
    · rw [htrim]; exact ht
  constructor
  · obtain ⟨s, es, hs⟩ := hts _ (hk _ (keep_last [] 1 w h15))
    cases es
    exact hs h0
  · obtain ⟨s, es, hs⟩ := hts _ (hk _ (keep_lower [] w h15))
    cases es
    refine hs ?_
    simpa [lower] using h0

/-- Of a longer word its first seven characters are kept. -/
theorem C127_long_partial (C : Chew) (ui : List Str) (fuel : Nat) (msg : Mail) (l : List Str) (h : tokenise C ui fuel msg = .tokens l)
    (text w : Str) (ht : ToRead msg text) (hs : Stands w text) (hw : AsciiWord w) (h15 : 15 < w.length) (hstar : '*' ∉ w) :
    c!"sk:" ++ w.take 7 ∈ l := by
  have h0 : w ≠ [] := by rintro rfl; simp at h15
  obtain ⟨ts, e, hts⟩ := (tokenise_tokens h).1 _ _ _ (readable_word h0 hw.chars hw.noDots hw.noDashes ht hs)
  have htrim := trim_same hw.start hw.stop
  have hlong : ∀ s ∈ sayNothing, s.length ≤ 15 := by decide +kernel
  have h2 : ((w.take 2).all (between 0xA0 0xFF)) = false := by
    obtain ⟨d, ds, rfl⟩ := List.exists_cons_of_ne_nil h0
    have := (mark_facts (hw.chars d (by simp))).2.1
    simp [between]
    intro h
    omega
  have hk : .text (c!"sk:" ++ w.take 7) ∈ keep [] 1 w := by
    unfold keep
    have : (decide (w.length > maxLength) && !w.contains '*') = true := by simp [maxLength, h15, hstar]
    simp only [this, h2]
    simp
  have hk : .text (c!"sk:" ++ w.take 7) ∈ ts := by
    rcases wordTokens_some e with ⟨_, h | h⟩ | ⟨_, _, ⟨rfl, _⟩ | ⟨rfl, _⟩⟩
    · rw [htrim] at h; omega
    · rw [htrim, stopWords_eq] at h; have := hlong _ h; omega
    · rw [htrim]; exact List.mem_cons_of_mem _ hk
    · rw [htrim]; exact hk
  obtain ⟨s, es, hs⟩ := hts _ hk
  cases es
  exact hs (by simp)

/-- No token occurs twice, and none is empty. -/
theorem C127_once (C : Chew) (ui : List Str) (fuel : Nat) (msg : Mail) (l : List Str) (h : tokenise C ui fuel msg = .tokens l) :
    l.Nodup ∧ [] ∉ l := by
  refine ⟨?_, fun hm => ((tokenise_tokens h).2 _ hm).1 rfl⟩
  unfold tokenise at h
  split at h
  · cases h
  · split at h
    · cases h
    · cases h
      exact Bayes.eraseDups_nodup _

theorem tuples_derived {w : Str} (h : 15 < w.length) : ∀ (n : Nat) (s : Str), s = w.drop n → ∀ t, .text t ∈ tuples s → Derived w t := by
  suffices ∀ (k : Nat) (n : Nat) (s : Str), s.length ≤ k → s = w.drop n → ∀ t, .text t ∈ tuples s → Derived w t from
    fun n s => this s.length n s (Nat.le_refl _)
  intro k
  induction k with
  | zero =>
    intro n s hs _ t ht
    have : s = [] := List.length_eq_zero_iff.1 (by omega)
    subst this
    simp [tuples] at ht
  | succ k ih =>
    intro n s hs e t ht
    match s, hs, e, ht with
    | [], _, _, ht => simp [tuples] at ht
    | [_], _, _, ht => simp [tuples] at ht
    | [_, _], _, _, ht => simp [tuples] at ht
    | a :: b :: c :: rest, hs, e, ht =>
      have e2 : c :: rest = w.drop (n + 2) := by
        rw [← List.drop_drop, ← e]; rfl
      rw [tuples] at ht
      rcases List.mem_cons.1 ht with ht | ht
      · cases ht
        rw [e2]
        exact .tail _ h
      · exact ih (n + 2) _ (by simp at hs ⊢; omega) e2 t ht

theorem keep_derived {w t : Str} (h : .text t ∈ keep [] 1 w) : Derived w t := by
  unfold keep at h
  simp only at h
  split at h
  · rename_i hl
    simp only [Bool.and_eq_true, decide_eq_true_eq, maxLength] at hl
    exact tuples_derived (by simpa using hl.1.1.1) 0 w rfl t h
  · have hd : ∀ tok : Str, Derived w tok → .text t ∈
        [Tok.text ([] ++ tok.filter (fun c => wordChar c || c == ':' || c == '*')),
         .text ([] ++ lower (tok.filter (fun c => wordChar c || c == ':' || c == '*'))), .text ([] ++ lower tok)] ++
          [.text ([] ++ tok)] → Derived w t := by
      intro tok hk hm
      simp only [List.nil_append, List.cons_append, List.mem_cons, Tok.text.injEq, List.not_mem_nil, or_false] at hm
      rcases hm with rfl | rfl | rfl | rfl
      · exact hk.letters
      · exact hk.letters.lower
      · exact hk.lower
      · exact hk
    by_cases hl : (decide (w.length > maxLength) && !w.contains '*') = true
    · simp only [hl] at h
      refine hd (c!"sk:" ++ w.take 7) (.short ?_) (by simpa using h)
      simp only [Bool.and_eq_true, decide_eq_true_eq, maxLength] at hl
      simpa using hl.1
    · simp only [hl] at h
      refine hd w .same (by simpa using h)

theorem tokeniseHeaders_nil (C : Chew) (ui : List Str) : tokeniseHeaders C ui [] = [] := rfl

theorem trim_ends (w : Str) : (∀ c, (trim w).head? = some c → ¬ edgeMark c) ∧ ∀ c, (trim w).getLast? = some c → ¬ edgeMark c := by
  have e : ∀ c, edgeChars.contains c = true ↔ edgeMark c := by
    intro c
    rw [List.contains_iff_mem]
    exact Iff.rfl
  have hd : ∀ (s : Str) c, (s.dropWhile (fun c => edgeChars.contains c)).head? = some c → ¬ edgeMark c := by
    intro s
    induction s with
    | nil => intro c h; cases h
    | cons d s ih =>
      intro c h
      rw [List.dropWhile_cons] at h
      split at h
      · exact ih c h
      · rename_i hn
        simp at h
        subst h
        rwa [e] at hn
  unfold trim rstripBy lstripChars lstripBy
  constructor
  · intro c hc
    have hp : (((w.dropWhile fun c => edgeChars.contains c).reverse.dropWhile fun c => edgeChars.contains c).reverse) <+:
        w.dropWhile fun c => edgeChars.contains c := by
      have := List.reverse_prefix.2 (List.dropWhile_suffix (fun c => edgeChars.contains c)
        (l := (w.dropWhile (fun c => edgeChars.contains c)).reverse))
      rwa [List.reverse_reverse] at this
    obtain ⟨r, hr⟩ := hp
    refine hd w c ?_
    rw [← hr, List.head?_append, hc]
    rfl
  · intro c hc
    rw [List.getLast?_reverse] at hc
    exact hd _ c hc

/-- Every token of a message without headers comes from a piece of one of its texts that has no white space in it, no marks at its ends
and is not on the list. -/
theorem C127_from_text (C : Chew) (ui : List Str) (fuel : Nat) (msg : Mail) (l : List Str) (h : tokenise C ui fuel msg = .tokens l)
    (hh : msg.headers = []) (t : Str) (ht : t ∈ l) :
    ∃ text w, ToRead msg text ∧ w <:+: text ∧ (∀ c ∈ w, isSpace c = false) ∧ 3 ≤ w.length ∧ w ∉ sayNothing ∧ Derived w t ∧
      (∀ c, w.head? = some c → ¬ edgeMark c) ∧ ∀ c, w.getLast? = some c → ¬ edgeMark c := by
  obtain ⟨_, word, pre, region, ts, hw, e, hts⟩ := (tokenise_tokens h).2 t ht
  have hr : region ≠ 0 := by
    obtain ⟨src, hsrc, e, _⟩ := hw
    unfold sources at hsrc
    rw [hh, tokeniseHeaders_nil, List.map_nil, List.append_nil] at hsrc
    rcases List.mem_append.1 hsrc with hsrc | hsrc
    all_goals
      obtain ⟨line, _, rfl⟩ := List.mem_map.1 hsrc
      simp at e
      omega
  obtain ⟨rfl, rfl, hW, text, hread, hi⟩ := body_word hw hr
  have hin : trim word <:+: text := (trim_infix word).trans hi
  have hsp : ∀ c ∈ trim word, isSpace c = false := fun c hc => hW.2 c ((trim_infix word).subset hc)
  rcases wordTokens_some e with ⟨rfl, _⟩ | ⟨h3, hs, hk⟩
  · cases hts
  · have hns : trim word ∉ sayNothing := by
      intro hm
      rw [(stopWords_eq _).2 hm] at hs; cases hs
    refine ⟨text, trim word, hread, hin, hsp, h3, hns, keep_derived ?_, trim_ends word⟩
    rcases hk with ⟨rfl, _⟩ | ⟨rfl, _⟩
    · rcases List.mem_cons.1 hts with h | h
      · cases h
      · exact h
    · exact hts

/-- The letters and digits of a word, with `_` and `*`, are a token too, also in small letters. -/
theorem C127_letters_partial (C : Chew) (ui : List Str) (fuel : Nat) (msg : Mail) (l : List Str) (h : tokenise C ui fuel msg = .tokens l)
    (text w : Str) (ht : ToRead msg text) (hs : Stands w text) (hw : AsciiWord w) (h3 : 3 ≤ w.length) (h15 : w.length ≤ 15)
    (hn : w ∉ sayNothing) (v : Str) (hv : v = w.filter (fun c => c.isAlphanum || c == '_' || c == '*')) (hv0 : v ≠ []) :
    v ∈ l ∧ lower v ∈ l := by
  have h0 : w ≠ [] := by rintro rfl; simp at h3
  obtain ⟨ts, e, hts⟩ := (tokenise_tokens h).1 _ _ _ (readable_word h0 hw.chars hw.noDots hw.noDashes ht hs)
  have htrim := trim_same hw.start hw.stop
  have hf : w.filter (fun c => wordChar c || c == ':' || c == '*') = v := by
    rw [hv]
    apply List.filter_congr
    intro c hc
    have hm := hw.chars c hc
    have h1 : ∀ d ∈ c!",@*!_'\"$.-", (wordChar d || d == ':' || d == '*') = (d.isAlphanum || d == '_' || d == '*') := by decide
    rcases hm with hm | hm
    · simp [wordChar, hm]
    · exact h1 c hm
  have hk : .text v ∈ keep [] 1 w ∧ .text (lower v) ∈ keep [] 1 w := by
    unfold keep
    have : decide (w.length > maxLength) = false := by simp [maxLength, h15]
    simp only [this, Bool.false_and, hf]
    simp [hf]
  have hk' : ∀ t ∈ keep [] 1 w, t ∈ ts := by
    intro t ht
    rcases wordTokens_some e with ⟨_, h | h⟩ | ⟨_, _, ⟨rfl, _⟩ | ⟨rfl, _⟩⟩
    · rw [htrim] at h; omega
    · rw [htrim, stopWords_eq] at h; exact absurd h hn
    · rw [htrim]; exact List.mem_cons_of_mem _ ht
    · rw [htrim]; exact ht
  constructor
  · obtain ⟨s, es, hs⟩ := hts _ (hk' _ hk.1)
    cases es
    exact hs hv0
  · obtain ⟨s, es, hs⟩ := hts _ (hk' _ hk.2)
    cases es
    exact hs (by simpa [lower] using hv0)

/-- The words of a cleaned line are of Latin-1. -/
theorem clean_latin {line w : Str} (h : w ∈ splitWs (clean line)) : ∀ c ∈ w, c.toNat ≤ 255 := by
  intro c hc
  obtain ⟨h1, hw⟩ := split_infix h
  have hb := blank_notin hw
  have h1 := (separator_infix _ _ [] (Nat.le_refl _) w hb).2 h1
  have h1 := (separator_infix _ _ [] (Nat.le_refl _) w hb).2 h1
  obtain ⟨x, hx, h2⟩ := infix_join hb hw.1 _ h1
  have hc' := h2.subset hc
  have hns := hw.2 c hc
  have hfind : ∀ (a : Str) (n : Nat) (b : Str), x ∈ findGo runsRe n b a → ∃ b' a', Reads runsRe b' x a' := by
    intro a
    induction a with
    | nil => intro n b h; cases n <;> · rw [findGo] at h; cases h
    | cons c cs ih =>
      intro n b h
      cases n with
      | succ n => rw [findGo] at h; exact ih _ _ h
      | zero =>
        rw [findGo] at h
        cases hmm : m runsRe ⟨b, c :: cs, []⟩ some with
        | none => rw [hmm] at h; exact ih _ _ h
        | some t =>
          rw [hmm] at h
          obtain ⟨v, h1, h2, h3⟩ := m_some_takes hmm
          rcases List.mem_cons.1 h with h | h
          · rw [h2] at h
            exact ⟨b, _, h ▸ h3⟩
          · exact ih _ _ h
  obtain ⟨b', a', hr⟩ := hfind _ _ _ hx
  have hle : ∀ lo hi, hi ≤ 255 → Only (fun c => isSpace c = true ∨ c.toNat ≤ 255) (.chr (between lo hi)) := by
    intro lo hi hl c hc
    simp only [between, Bool.and_eq_true, decide_eq_true_eq] at hc
    exact .inr (by omega)
  have honly : Only (fun c => isSpace c = true ∨ c.toNat ≤ 255) runsRe := by
    unfold runsRe
    refine Only.alts ?_
    intro r hr
    simp only [List.mem_cons, List.not_mem_nil, or_false] at hr
    have hrun : ∀ c, runChar c = true → isSpace c = true ∨ c.toNat ≤ 255 := by
      intro c hc
      by_cases hs : isSpace c = true
      · exact .inl hs
      · right
        have : wordMark c := by
          simp only [runChar, Bool.or_eq_true] at hc
          rcases hc with (hc | hc) | hc
          · exact .inl hc
          · exact .inr (List.contains_iff_mem.1 hc)
          · exact absurd hc hs
        have := (mark_facts this).2.1
        omega
    rcases hr with rfl | rfl | rfl | rfl | rfl
    · exact ⟨hrun, hrun⟩
    · exact ⟨hle _ _ (by decide), hle _ _ (by decide)⟩
    · exact ⟨hle _ _ (by decide), Only.times (hle _ _ (by decide)) _⟩
    · exact ⟨hle _ _ (by decide), Only.times (hle _ _ (by decide)) _⟩
    · exact hle _ _ (by decide)
  rcases hr.only honly c hc' with h | h
  · rw [hns] at h; cases h
  · exact h

theorem line_nothing {fuel : Nat} {line pre : Str} {region : Nat} (h : ∀ c ∈ line, isSpace c = true ∨ 255 < c.toNat) :
    tokeniseLine fuel line pre region = some [] := by
  have : splitWs (clean line) = [] := by
    apply List.eq_nil_iff_forall_not_mem.2
    intro w hw
    obtain ⟨hi, hW⟩ := word_infix hw
    obtain ⟨d, ds, rfl⟩ := List.exists_cons_of_ne_nil hW.1
    have h1 := clean_latin hw d (by simp)
    have h2 := hW.2 d (by simp)
    rcases h d (hi.subset (by simp)) with h | h
    · rw [h2] at h; cases h
    · omega
  rw [tokeniseLine, this]
  rfl

theorem tokenise_body {C : Chew} {ui : List Str} {fuel : Nat} {msg : Mail}
    (h : ∀ line ∈ textLines (rendered msg), tokeniseLine fuel line [] 1 = some []) :
    tokenise C ui fuel msg = (match ((tokeniseHeaders C ui msg.headers).map (fun h => (h.2, c!"H" ++ h.1 ++ c!":", 0))).mapM
        (fun l => tokeniseLine fuel l.1 l.2.1 l.2.2) with
      | none => .running
      | some ts => match texts ts.flatten with
        | none => .failed
        | some l => .tokens l.eraseDups) := by
  have hpre : ∀ (L : List Str) (R : List (Str × Str × Nat)), (∀ line ∈ L, tokeniseLine fuel line [] 1 = some []) →
      (L.map (fun l => (l, ([] : Str), 1)) ++ R).mapM (fun l : Str × Str × Nat => tokeniseLine fuel l.1 l.2.1 l.2.2) =
        (R.mapM (fun l => tokeniseLine fuel l.1 l.2.1 l.2.2)).map (fun r => List.replicate L.length [] ++ r) := by
    intro L R
    induction L with
    | nil => intro _; simp
    | cons a L ih =>
      intro hL
      rw [List.map_cons, List.cons_append, List.mapM_cons, hL a (by simp), ih fun x hx => hL x (List.mem_cons_of_mem _ hx)]
      cases R.mapM (fun l => tokeniseLine fuel l.1 l.2.1 l.2.2) <;> rfl
  unfold tokenise sources
  rw [show invisible msg = [] from rfl, textLines_nil, List.map_nil, List.append_nil, hpre _ _ h]
  cases ((tokeniseHeaders C ui msg.headers).map (fun h => (h.2, c!"H" ++ h.1 ++ c!":", 0))).mapM
        (fun l => tokeniseLine fuel l.1 l.2.1 l.2.2) with
  | none => rfl
  | some r =>
    simp only [Option.map_some]
    have : ∀ n, (List.replicate n ([] : List Tok) ++ r).flatten = r.flatten := by
      intro n
      induction n with
      | zero => rfl
      | succ n ih => rw [List.replicate_succ, List.cons_append, List.flatten_cons, ih]; rfl
    rw [this]
    cases texts r.flatten <;> rfl

/-- Texts in alphabets other than the Latin one are as if they were not there. -/
theorem C127_alphabet_violated (C : Chew) (ui : List Str) (fuel : Nat) (msg : Mail)
    (h : ∀ text, ToRead msg text → ∀ c ∈ text, isSpace c = true ∨ 255 < c.toNat) :
    tokenise C ui fuel msg = tokenise C ui fuel (withoutText msg) := by
  have hn : ∀ m : Mail, (∀ text, ToRead m text → ∀ c ∈ text, isSpace c = true ∨ 255 < c.toNat) →
      ∀ line ∈ textLines (rendered m), tokeniseLine fuel line [] 1 = some [] := by
    intro m hm line hl
    have : splitWs (clean line) = [] := by
      apply List.eq_nil_iff_forall_not_mem.2
      intro w hw
      have hA : AWord C ui m w [] 1 := by
        refine ⟨(line, [], 1), ?_, rfl, hw⟩
        unfold sources
        exact List.mem_append_left _ (List.mem_append_left _ (List.mem_map.2 ⟨line, hl, rfl⟩))
      obtain ⟨_, _, hW, text, hr, hi⟩ := body_word hA (by decide)
      obtain ⟨d, ds, rfl⟩ := List.exists_cons_of_ne_nil hW.1
      have h1 := clean_latin hw d (by simp)
      have h2 := hW.2 d (by simp)
      rcases hm text hr d (hi.subset (by simp)) with h | h
      · rw [h2] at h; cases h
      · omega
    rw [tokeniseLine, this]
    rfl
  rw [tokenise_body (hn msg h), tokenise_body (hn (withoutText msg) ?_)]
  · rfl
  · rintro text (hr | hr)
    · cases hr
    · cases hr

/-! ### C128: words that say nothing -/

/-- A word of the list is a token if it is written with a capital letter. -/
theorem C128_capital_violated (C : Chew) (ui : List Str) (fuel : Nat) (msg : Mail) (l : List Str) (h : tokenise C ui fuel msg = .tokens l)
    (text v w : Str) (ht : ToRead msg text) (hs : Stands v text) (hv : AsciiWord v) (hn : v ∉ sayNothing) (hw : w ∈ sayNothing)
    (e : lower v = w) : w ∈ l := by
  have hlen : ∀ s ∈ sayNothing, 3 ≤ s.length ∧ s.length ≤ 15 := by decide +kernel
  have h1 := hlen w hw
  have h2 : w.length = v.length := by rw [← e, lower, List.length_map]
  rw [← e]
  exact (C127_word_partial C ui fuel msg l h text v ht hs hv (by omega) (by omega) hn).2

theorem lower_small {w : Str} (h : ∀ c ∈ w, 'a' ≤ c ∧ c ≤ 'z') : lower w = w := by
  rw [lower]
  conv => rhs; rw [← List.map_id w]
  refine List.map_congr_left fun c hc => ?_
  obtain ⟨h1, h2⟩ := h c hc
  have h1 := UInt32.le_iff_toNat_le.1 (Char.le_def.1 h1)
  unfold Char.toLower
  rw [dif_neg]
  · rfl
  · rintro ⟨_, h3⟩
    have h3 := UInt32.le_iff_toNat_le.1 h3
    have : ('Z'.val.toNat) < 'a'.val.toNat := by decide
    omega

/-- In a message without headers and with texts of small letters only, no word of the list is a token. -/
theorem C128_small_partial (C : Chew) (ui : List Str) (fuel : Nat) (msg : Mail) (l : List Str) (h : tokenise C ui fuel msg = .tokens l)
    (hh : msg.headers = []) (ht : ∀ text, ToRead msg text → ∀ c ∈ text, isSpace c = true ∨ ('a' ≤ c ∧ c ≤ 'z')) :
    ∀ w ∈ sayNothing, w ∉ l := by
  intro w hw hl
  obtain ⟨text, v, hr, hi, hsp, h3, hn, hd, _, _⟩ := C127_from_text C ui fuel msg l h hh w hl
  have hv : ∀ c ∈ v, 'a' ≤ c ∧ c ≤ 'z' := by
    intro c hc
    rcases ht text hr c (hi.subset hc) with h | h
    · rw [hsp c hc] at h; cases h
    · exact h
  have hal : ∀ c ∈ v, c.isAlphanum = true := by
    intro c hc
    have := hv c hc
    simp [Char.isAlphanum, Char.isAlpha, Char.isLower]
    left; right
    exact ⟨this.1, this.2⟩
  have hkey : ∀ t, Derived v t → t = v ∨ ':' ∈ t := by
    intro t hd
    induction hd with
    | same => exact .inl rfl
    | @lower t _ ih =>
      rcases ih with rfl | ih
      · exact .inl (lower_small hv)
      · right
        exact List.mem_map.2 ⟨':', ih, by decide⟩
    | @letters t _ ih =>
      rcases ih with rfl | ih
      · left
        apply List.filter_eq_self.2
        intro c hc
        simp [wordChar, hal c hc]
      · right
        exact List.mem_filter.2 ⟨ih, by decide⟩
    | short _ => right; simp
    | tail _ _ => right; simp
  have hno : ∀ s ∈ sayNothing, ':' ∉ s := by decide +kernel
  rcases hkey w hd with rfl | h
  · exact hn hw
  · exact hno w hw h

/-! ### C129: tokenising does not fail -/

/-- There are no tokens if a word in a text to read has `@` as its second character. -/
theorem C129_address_violated (C : Chew) (ui : List Str) (fuel : Nat) (msg : Mail) (text : Str) (a c : Char) (rest : Str)
    (ht : ToRead msg text) (hs : Stands (a :: '@' :: c :: rest) text) (hw : AsciiWord (a :: '@' :: c :: rest)) :
    ∀ l, tokenise C ui fuel msg ≠ .tokens l := by
  intro l h
  obtain ⟨ts, e, hts⟩ := (tokenise_tokens h).1 _ _ _ (readable_word (by simp) hw.chars hw.noDots hw.noDashes ht hs)
  have htrim := trim_same hw.start hw.stop
  have hsa : startsAddress (a :: '@' :: c :: rest) = true := by
    simp [startsAddress, nonSpace, (mark_facts (hw.chars a (by simp))).2.2, (mark_facts (hw.chars c (by simp))).2.2]
  have hno : ∀ w ∈ sayNothing, '@' ∉ w := by decide +kernel
  rcases wordTokens_some e with ⟨_, h | h⟩ | ⟨_, _, ⟨rfl, _⟩ | ⟨_, h⟩⟩
  · rw [htrim] at h; simp at h; omega
  · rw [htrim, stopWords_eq] at h
    exact absurd (by simp) (hno _ h)
  · obtain ⟨s, es, _⟩ := hts _ (List.mem_cons_self ..)
    cases es
  · rw [htrim] at h
    exact h ⟨.inl rfl, hsa⟩

/-- There are tokens if there is neither `@` nor a dot before a letter in the texts to read. -/
theorem C129_plain_partial (C : Chew) (ui : List Str) (fuel : Nat) (msg : Mail)
    (h : ∀ text, ToRead msg text → ¬ DotLetter text ∧ '@' ∉ text) : ∃ l, tokenise C ui fuel msg = .tokens l := by
  have hr := C126_ends_partial C ui fuel msg fun text ht => (h text ht).1
  have hf : tokenise C ui fuel msg ≠ .failed := by
    rw [Ne, tokenise_failed hr]
    rintro ⟨word, pre, region, ts, a, hw, e, hg⟩
    have hkeep : ∀ pre region w, .generator a ∉ keep pre region w := by
      intro pre region w hm
      have htup : ∀ s, .generator a ∉ tuples s := by
        intro s
        fun_induction tuples s <;> simp_all
      unfold keep at hm
      simp only at hm
      split at hm
      · exact htup _ hm
      · split at hm <;> simp at hm
    rcases wordTokens_some e with ⟨rfl, _⟩ | ⟨_, _, ⟨rfl, hreg, hsa⟩ | ⟨rfl, _⟩⟩
    · cases hg
    · obtain ⟨_, _, _, text, ht, hi⟩ := body_word hw (by omega)
      refine (h text ht).2 ?_
      have : '@' ∈ trim word := by
        unfold startsAddress at hsa
        split at hsa
        · rename_i x y z r e
          simp at hsa
          rw [e, hsa.1.2]
          simp
        · cases hsa
      exact (List.IsInfix.trans (trim_infix word) hi).subset this
    · exact hkeep _ _ _ hg
  cases hk : tokenise C ui fuel msg with
  | running => exact absurd hk hr
  | failed => exact absurd hk hf
  | tokens l => exact ⟨l, rfl⟩

/-! ### Concrete cases -/

/-- Headers used as they are. -/
def plainChew : Chew := ⟨id, id, id⟩

/-- An offer. -/
def offer : Mail :=
  ⟨some c!"Cheap Watches", [(c!"text/plain", c!"Buy 20 incontrovertible\nones, You pay it's less")],
   [(c!"x-mailer", [c!"Outlook Express"]), (c!"from", [c!"Joe <joe@example.com>"]), (c!"x-spam-status", [c!"Yes, score"])]⟩

/-- Its tokens. -/
def offerTokens : List Str :=
  [c!"Cheap", c!"cheap", c!"Watches", c!"watches", c!"Buy", c!"buy", c!"sk:incontr", c!"ones", c!"You", c!"you", c!"pay", c!"less",
   c!"H*UA:Outlook", c!"H*UA:Express", c!"Hx-mailer:Outlook", c!"Hx-mailer:Express", c!"Hx-spam-status:Yes",
   c!"Hx-spam-status:score"]

set_option maxRecDepth 8000 in
theorem offer_tokens : tokenise plainChew [] 3 offer = .tokens offerTokens := by decide +kernel

theorem asciiWord_of {w : Str} (h : (w.all (fun c => c.isAlphanum)) = true) : AsciiWord w := by
  have hc : ∀ c ∈ w, c.isAlphanum = true := by simpa using h
  have hh : ∀ c ∈ w, ¬ edgeMark c := fun c hm he => by
    have : ∀ d ∈ c!"-'\".,", d.isAlphanum = false := by decide
    exact Bool.noConfusion ((hc c hm).symm.trans (this c he))
  refine ⟨fun c hm => Or.inl (hc c hm), fun c h => hh c (List.mem_of_mem_head? h), fun c h => hh c (List.mem_of_getLast? h), ?_, ?_⟩
  · intro hi
    exact hh '.' (hi.subset (by simp)) (by simp [edgeMark])
  · intro hi
    exact hh '-' (hi.subset (by simp)) (by simp [edgeMark])

theorem stands_subject : Stands c!"Cheap" c!"Cheap Watches" := ⟨[], c!" Watches", by decide, by simp, by simp; decide⟩

-- C126: a text without dots, and one with a link
example : ∀ text, ToRead ⟨some c!"hello", [], []⟩ text → ¬ DotLetter text := by
  rintro text (h | h)
  · cases h
    rintro ⟨c, _, hi⟩
    have := hi.subset (show '.' ∈ ['.', c] by simp)
    revert this
    decide
  · cases h

example : Stands c!"x.com" c!"see x.com now" ∧ (∀ d ∈ c!"x.com", wordMark d) ∧ ¬ edgeMark 'x' ∧ 'c'.isAlpha = true ∧
    ¬ c!"..." <:+: c!"x.com" ∧ ¬ c!"--" <:+: c!"x.com" := by
  refine ⟨⟨c!"see ", c!" now", by decide, by simp; decide, by simp; decide⟩, ?_, by simp [edgeMark], by decide, by decide, by decide⟩
  intro d hd
  simp only [List.mem_cons, List.not_mem_nil, or_false] at hd
  rcases hd with rfl | rfl | rfl | rfl | rfl <;> simp [wordMark] <;> decide

example : tokenise plainChew [] 100 ⟨some c!"see x.com now", [], []⟩ = .running := by
  refine C126_url_violated _ _ _ _ c!"see x.com now" 'x' 'c' c!"om" (Or.inl rfl)
    ⟨c!"see ", c!" now", by decide, by simp; decide, by simp; decide⟩ ?_ (by simp [edgeMark]) (by decide) (by decide) (by decide)
  intro d hd
  simp only [List.mem_cons, List.not_mem_nil, or_false] at hd
  rcases hd with rfl | rfl | rfl | rfl | rfl <;> simp [wordMark] <;> decide

-- C127: a word, and a long one
example : c!"Cheap" ∈ offerTokens ∧ lower c!"Cheap" ∈ offerTokens :=
  C127_word_partial plainChew [] 3 offer _ offer_tokens c!"Cheap Watches" c!"Cheap" (Or.inl rfl) stands_subject
    (asciiWord_of (by decide)) (by decide) (by decide) (by decide +kernel)

example : c!"sk:incontr" ∈ offerTokens :=
  C127_long_partial plainChew [] 3 offer _ offer_tokens _ c!"incontrovertible" (Or.inr (List.mem_singleton.2 rfl))
    ⟨c!"Buy 20 ", c!"\nones, You pay it's less", by decide, by simp; decide, by simp; decide⟩ (asciiWord_of (by decide)) (by decide)
    (by decide)

example : offerTokens.Nodup ∧ [] ∉ offerTokens := C127_once _ _ _ _ _ offer_tokens

example : ∃ l, tokenise plainChew [] 3 ⟨some c!"Cheap", [], []⟩ = .tokens l ∧ c!"cheap" ∈ l := ⟨[c!"Cheap", c!"cheap"], by decide +kernel, by decide⟩

-- C127: Greek
example : ∀ text, ToRead ⟨some c!"καλημέρα κόσμε", [], []⟩ text → ∀ c ∈ text, isSpace c = true ∨ 255 < c.toNat := by
  rintro text (h | h)
  · cases h; decide
  · cases h

-- C128: a capital, and small letters
example : c!"you" ∈ sayNothing ∧ c!"you" ∈ offerTokens := by decide +kernel

example : AsciiWord c!"You" ∧ c!"You" ∉ sayNothing ∧ c!"you" ∈ sayNothing ∧ lower c!"You" = c!"you" :=
  ⟨asciiWord_of (by decide), by decide +kernel, by decide +kernel, by decide⟩

example : (∀ text, ToRead ⟨some c!"you pay less", [], []⟩ text → ∀ c ∈ text, isSpace c = true ∨ ('a' ≤ c ∧ c ≤ 'z')) ∧
    tokenise plainChew [] 3 ⟨some c!"you pay less", [], []⟩ = .tokens [c!"pay", c!"less"] := by
  refine ⟨?_, by decide +kernel⟩
  rintro text (h | h)
  · cases h; decide
  · cases h

-- C129: an address
example : tokenise plainChew [] 3 ⟨some c!"see j@xyz now", [], []⟩ = .failed := by decide +kernel

example : Stands c!"j@xyz" c!"see j@xyz now" ∧ AsciiWord c!"j@xyz" := by
  refine ⟨⟨c!"see ", c!" now", by decide, by simp; decide, by simp; decide⟩, ?_, ?_, ?_, by decide, by decide⟩
  · intro d hd
    simp only [List.mem_cons, List.not_mem_nil, or_false] at hd
    rcases hd with rfl | rfl | rfl | rfl | rfl <;> simp [wordMark] <;> decide
  · simp [edgeMark]
  · simp [edgeMark]

end Verif.Props
