import Verif.Props.Tokens
import Verif.Lemmas.Py
import Verif.Lemmas.Headers

/-!
# C127, C130 to C132: tokens of headers
-/

namespace Verif.Props
open Verif Py Re Spec Tokens

/-! ### Values -/

theorem stands_rstrip {w v : Str} (hw : Word w) (h : Stands w v) : Stands w (rstripBy isSpace v) := by
  obtain ⟨a, b, rfl, ha, hb⟩ := h
  have key : ∀ x : Str, (∀ c, x.getLast? = some c → isSpace c = false) → x ≠ [] →
      rstripBy isSpace (x ++ b) = x ++ rstripBy isSpace b := by
    intro x hx h0
    unfold rstripBy
    rw [List.reverse_append, List.dropWhile_append]
    have hxr : x.reverse.dropWhile isSpace = x.reverse := by
      cases e : x.reverse with
      | nil => rfl
      | cons c r =>
        have : x.getLast? = some c := by rw [← List.head?_reverse, e]; rfl
        rw [List.dropWhile_cons, if_neg (by rw [hx c this]; simp)]
    split
    · rename_i he
      have he : b.reverse.dropWhile isSpace = [] := by simpa using he
      rw [hxr, he]
      simp
    · simp
  rw [List.append_assoc, ← List.append_assoc, key]
  · refine ⟨a, rstripBy isSpace b, rfl, ha, ?_⟩
    intro c hc
    cases b with
    | nil => simp [rstripBy] at hc
    | cons z b =>
      have hp : rstripBy isSpace (z :: b) <+: z :: b := by
        unfold rstripBy
        have := (List.dropWhile_suffix isSpace (l := (z :: b).reverse))
        have := List.reverse_prefix.2 this
        rwa [List.reverse_reverse] at this
      cases hr : rstripBy isSpace (z :: b) with
      | nil => rw [hr] at hc; cases hc
      | cons y r =>
        rw [hr, List.cons_prefix_cons] at hp
        rw [hr] at hc
        simp at hc
        exact hb c (by simp [← hp.1, hc])
  · intro c hc
    rw [List.getLast?_append] at hc
    cases e : w.getLast? with
    | none => exact absurd (List.getLast?_eq_none_iff.1 e) hw.1
    | some d =>
      rw [e] at hc
      simp at hc
      exact hw.2 c (List.mem_of_getLast? (hc ▸ e))
  · simp [hw.1]

theorem ignored_eq : ignoredHeaders = neverUsed := by decide +kernel

theorem addr_eq : addrHeaders = addressHeaders := by decide +kernel

theorem presence_eq : presenceHeaders = signatureHeaders := by decide +kernel

theorem chew_ordinary {C : Chew} {h : Str} (ho : OrdinaryHeader h) (v : Str) : chew C h v = v := by
  have h1 := ho.noAddress
  have h2 := ho.value
  have h3 := ho.other
  simp only [List.mem_cons, List.not_mem_nil, or_false, not_or] at h3
  unfold chew
  rw [if_neg, if_neg, if_neg h3.2.2.2.1, if_neg h3.2.2.2.2.1, if_neg h3.2.2.2.2.2, if_neg]
  · rw [presence_eq]; simpa using h2
  · rw [addr_eq]; simpa using h1
  · simp [h3.1, h3.2.1, h3.2.2.1]

theorem compress_ordinary {h : Str} (ho : OrdinaryHeader h) : compress h = h := by
  unfold compress
  rw [if_neg ho.noRelays.1, if_neg ho.noRelays.2]

/-- Not one of the names for the values of several headers. -/
def Single (h : Str) : Prop := h ≠ c!"*MI" ∧ h ≠ c!"*Ad" ∧ h ≠ c!"*UA"

theorem small_single {h : Str} (hh : lower h = h) : Single h := by
  refine ⟨?_, ?_, ?_⟩ <;> · rintro rfl; exact absurd hh (by decide)

/-- What a header does to the entry of another name. -/
theorem parseSpecial_get {C : Chew} {k h : Str} {parsed : Dict Str Str} {v : Str} (hh : Single h) :
    Dict.get? (parseSpecial C k parsed v).2 h =
      if compress k = h then some (match Dict.get? parsed h with | some old => old ++ c!" " ++ chew C k v | none => chew C k v)
      else Dict.get? parsed h := by
  have hset : ∀ (s : Str) (d : Dict Str Str) (x : Str) (b : Bool), h ≠ s →
      Dict.get? (if b then Dict.set d s x else d) h = Dict.get? d h := by
    intro s d x b hs
    cases b with
    | false => rfl
    | true => rw [if_pos rfl, Dict.get?_set_ne _ _ (Ne.symm hs)]
  unfold parseSpecial
  simp only
  generalize hd : (if [c!"x-mailer", c!"user-agent"].contains k = true then _ else _ : Dict Str Str) = d
  have hdh : Dict.get? d h = Dict.get? parsed h := by
    rw [← hd]
    rw [hset c!"*UA" _ _ _ hh.2.2, hset c!"*Ad" _ _ _ hh.2.1, hset c!"*MI" _ _ _ hh.1]
  by_cases hk : compress k = h
  · rw [if_pos hk, hk, hdh]
    cases Dict.get? parsed h <;> simp
  · rw [if_neg hk, ← hdh]
    cases Dict.get? d (compress k) <;> simp only <;> rw [Dict.get?_set_ne _ _ hk]

theorem parseSpecial_name {C : Chew} {k : Str} {parsed : Dict Str Str} {v : Str} : (parseSpecial C k parsed v).1 = compress k := by
  unfold parseSpecial
  simp only
  split <;> rfl

theorem stands_before {w x y : Str} (h : Stands w x) : Stands w (x ++ c!" " ++ y) := by
  obtain ⟨a, b, rfl, ha, hb⟩ := h
  refine ⟨a, b ++ c!" " ++ y, by simp, ha, ?_⟩
  intro c hc
  cases b with
  | nil => simp at hc; subst hc; decide
  | cons d b => simp at hc; exact hb c (by simp [hc])

theorem stands_after {w x y : Str} (h : Stands w y) : Stands w (x ++ c!" " ++ y) := by
  obtain ⟨a, b, rfl, ha, hb⟩ := h
  refine ⟨x ++ c!" " ++ a, b, by simp, ?_, hb⟩
  intro c hc
  rw [List.getLast?_append] at hc
  cases ea : a.getLast? with
  | some d => rw [ea] at hc; simp at hc; exact ha c (hc ▸ ea)
  | none => rw [ea] at hc; simp at hc; subst hc; decide

/-- The word stands in the entry of the header. -/
def Has (h w : Str) (parsed : Dict Str Str) : Prop := ∃ x, Dict.get? parsed h = some x ∧ Stands w x

theorem has_step {C : Chew} {h w k : Str} {parsed : Dict Str Str} {v : Str} (hh : Single h) (hp : Has h w parsed) :
    Has h w (parseSpecial C k parsed v).2 := by
  obtain ⟨x, hx, hs⟩ := hp
  rw [Has, parseSpecial_get hh]
  split
  · rw [hx]
    exact ⟨_, rfl, stands_before hs⟩
  · exact ⟨x, hx, hs⟩

theorem has_values {C : Chew} {h w : Str} {ig : List Str} (hh : Single h) : ∀ (vs : List Str) (k : Str) (parsed : Dict Str Str),
    Has h w parsed → Has h w (headerValues C ig k vs parsed)
  | [], _, _, hp => hp
  | v :: vs, k, parsed, hp => by
    rw [headerValues]
    split
    · exact has_values hh vs k parsed hp
    · exact has_values hh vs _ _ (has_step hh hp)

theorem has_mem {C : Chew} {h w : Str} {ig : List Str} (hh : lower h = h) (hc : compress h = h) (hi : ig.contains h = false) :
    ∀ (vs : List Str) (parsed : Dict Str Str), (∃ v ∈ vs, Stands w (chew C h (rstripBy isSpace v))) → Has h w (headerValues C ig h vs parsed)
  | [], _, hv => by obtain ⟨v, hv, _⟩ := hv; cases hv
  | v :: vs, parsed, hv => by
    rw [headerValues, hh, if_neg (by simpa using hi)]
    simp only
    by_cases hs : Stands w (chew C h (rstripBy isSpace v))
    · refine has_values (small_single hh) vs _ _ ?_
      rw [Has, parseSpecial_get (small_single hh), if_pos hc]
      refine ⟨_, rfl, ?_⟩
      cases Dict.get? parsed h with
      | none => exact hs
      | some old => exact stands_after hs
    · rw [parseSpecial_name, hc]
      refine has_mem hh hc hi vs _ ?_
      obtain ⟨u, hu, hus⟩ := hv
      rcases List.mem_cons.1 hu with rfl | hu
      · exact absurd hus hs
      · exact ⟨u, hu, hus⟩

/-- The first value of a header goes under its short name. -/
theorem has_first {C : Chew} {h w : Str} {ig : List Str} (hh : lower h = h) (hc : Single (compress h)) (hi : ig.contains h = false)
    {v : Str} {vs : List Str} (parsed : Dict Str Str) (hs : Stands w (chew C h (rstripBy isSpace v))) :
    Has (compress h) w (headerValues C ig h (v :: vs) parsed) := by
  rw [headerValues, hh, if_neg (by simpa using hi)]
  refine has_values hc vs _ _ ?_
  rw [Has, parseSpecial_get hc, if_pos rfl]
  refine ⟨_, rfl, ?_⟩
  cases Dict.get? parsed (compress h) with
  | none => exact hs
  | some old => exact stands_after hs

theorem has_foldl {C : Chew} {h w : Str} {ig : List Str} (hh : Single h) : ∀ (l : List (Str × List Str)) (parsed : Dict Str Str),
    Has h w parsed → Has h w (l.foldl (fun parsed h =>
      headerValues C ig h.1 (if h.1 = c!"received" then h.2.drop (h.2.length - 2) else h.2) parsed) parsed)
  | [], _, hp => hp
  | _ :: l, _, hp => has_foldl hh l _ (has_values hh _ _ _ hp)

theorem has_header {C : Chew} {h w e : Str} {ui : List Str} (hu : h ∉ neverUsed) (hrec : h ≠ c!"received") (he : Single e)
    {headers : List (Str × List Str)} {vs : List Str} (hm : (h, vs) ∈ headers)
    (hv : ∀ parsed, Has e w (headerValues C (ui.map lower) h vs parsed)) : Has e w (tokeniseHeaders C ui headers) := by
  unfold tokeniseHeaders
  have hm' : (h, vs) ∈ headers.filter (fun h => !ignoredHeaders.contains h.1) := by
    rw [List.mem_filter]
    refine ⟨hm, ?_⟩
    rw [ignored_eq]
    simpa using hu
  generalize headers.filter (fun h => !ignoredHeaders.contains h.1) = l at hm'
  generalize ([] : Dict Str Str) = parsed
  induction l generalizing parsed with
  | nil => cases hm'
  | cons k l ih =>
    rw [List.foldl_cons]
    rcases List.mem_cons.1 hm' with rfl | hm'
    · refine has_foldl he l _ ?_
      simp only [if_neg hrec]
      exact hv _
    · exact ih hm' _

/-- A word in what is kept of a header becomes a token. -/
theorem header_token {C : Chew} {ui : List Str} {fuel : Nat} {msg : Mail} {l : List Str} (h : tokenise C ui fuel msg = .tokens l)
    {e w : Str} (hh : Has e w (tokeniseHeaders C ui msg.headers)) (hw : AsciiWord w) (h3 : 3 ≤ w.length) (h15 : w.length ≤ 15)
    (hn : w ∉ sayNothing) : c!"H" ++ e ++ c!":" ++ w ∈ l := by
  have h0 : w ≠ [] := by rintro rfl; simp at h3
  have hW := asciiWord_word h0 hw.chars
  obtain ⟨x, hx, hsx⟩ := hh
  have hA : AWord C ui msg w (c!"H" ++ e ++ c!":") 0 := by
    refine ⟨(x, c!"H" ++ e ++ c!":", 0), ?_, rfl,
      stands_split hW (stands_clean h0 (fun c hc => ⟨(mark_facts (hw.chars c hc)).1, (mark_facts (hw.chars c hc)).2.1⟩) hw.noDots
        hw.noDashes hsx)⟩
    unfold sources
    exact List.mem_append_right _ (List.mem_map.2 ⟨(e, x), Dict.mem_of_get? _ hx, rfl⟩)
  obtain ⟨ts, e', hts⟩ := (tokenise_tokens h).1 _ _ _ hA
  have htrim := trim_same hw.start hw.stop
  have hk : .text (c!"H" ++ e ++ c!":" ++ w) ∈ ts := by
    rcases wordTokens_some e' with ⟨_, h | h⟩ | ⟨_, _, ⟨_, h, _⟩ | ⟨rfl, _⟩⟩
    · rw [htrim] at h; omega
    · rw [htrim, stopWords_eq] at h; exact absurd h hn
    · simp at h
    · rw [htrim]; exact keep_last _ 0 w h15
  obtain ⟨s, es, hs⟩ := hts _ hk
  cases es
  exact hs (by simp)

/-- Every word of three to fifteen characters of ASCII in an ordinary header is a token, marked with the name of the header. -/
theorem C127_header_partial (C : Chew) (ui : List Str) (fuel : Nat) (msg : Mail) (l : List Str) (h : tokenise C ui fuel msg = .tokens l)
    (name : Str) (vs : List Str) (v w : Str) (ho : OrdinaryHeader name) (hi : name ∉ ui.map lower) (hm : (name, vs) ∈ msg.headers)
    (hv : v ∈ vs) (hs : Stands w v) (hw : AsciiWord w) (h3 : 3 ≤ w.length) (h15 : w.length ≤ 15) (hn : w ∉ sayNothing) :
    c!"H" ++ name ++ c!":" ++ w ∈ l := by
  have h0 : w ≠ [] := by rintro rfl; simp at h3
  have hW := asciiWord_word h0 hw.chars
  have hrec : name ≠ c!"received" := by
    have := ho.other
    simp only [List.mem_cons, not_or] at this
    exact this.2.2.2.1
  refine header_token h (has_header ho.used hrec (small_single ho.small) hm fun parsed => ?_) hw h3 h15 hn
  refine has_mem ho.small (compress_ordinary ho) (by simpa using hi) vs _ ⟨v, hv, ?_⟩
  rw [chew_ordinary ho]
  exact stands_rstrip hW hs

/-- The words of the lists of relays are tokens, marked with a short name for the list. -/
theorem C127_relays_partial (C : Chew) (ui : List Str) (fuel : Nat) (msg : Mail) (l : List Str) (h : tokenise C ui fuel msg = .tokens l)
    (name label : Str)
    (hname : (name, label) = (c!"x-spam-relays-trusted", c!"*RT") ∨ (name, label) = (c!"x-spam-relays-untrusted", c!"*RU"))
    (vs : List Str) (v w : Str) (hi : name ∉ ui.map lower) (hm : (name, v :: vs) ∈ msg.headers) (hs : Stands w v) (hw : AsciiWord w)
    (h3 : 3 ≤ w.length) (h15 : w.length ≤ 15) (hn : w ∉ sayNothing) : c!"H" ++ label ++ c!":" ++ w ∈ l := by
  have h0 : w ≠ [] := by rintro rfl; simp at h3
  have hW := asciiWord_word h0 hw.chars
  have key : lower name = name ∧ compress name = label ∧ name ∉ neverUsed ∧ name ≠ c!"received" ∧ Single label ∧ ∀ v, chew C name v = v := by
    unfold Single
    rcases hname with e | e <;> cases e
    · exact ⟨by decide, by decide, by decide +kernel, by decide, by decide, fun v => rfl⟩
    · exact ⟨by decide, by decide, by decide +kernel, by decide, by decide, fun v => rfl⟩
  obtain ⟨k1, k2, k3, k4, k5, k6⟩ := key
  refine header_token h (has_header k3 k4 k5 hm fun parsed => ?_) hw h3 h15 hn
  have := has_first (C := C) (w := w) (vs := vs) (v := v) k1 (k2 ▸ k5) (ig := ui.map lower) (by simpa using hi) parsed
    (by rw [k6]; exact stands_rstrip hW hs)
  rwa [k2] at this

theorem replace_none {p v : Str} (hp : p ≠ []) (h : ¬ p <:+: v) : replace p [] v = v := by
  induction v with
  | nil => rfl
  | cons c cs ih =>
    rw [replace_cons p [] hp, if_neg, ih fun hi => h (hi.trans (List.suffix_cons _ _).isInfix)]
    intro hpre
    exact h (List.isPrefixOf_iff_prefix.1 hpre).isInfix

/-- So are those of MIME-Version, if it is not about version 1.0. -/
theorem C127_mime_partial (C : Chew) (ui : List Str) (fuel : Nat) (msg : Mail) (l : List Str) (h : tokenise C ui fuel msg = .tokens l)
    (vs : List Str) (v w : Str) (hi : c!"mime-version" ∉ ui.map lower) (hm : (c!"mime-version", vs) ∈ msg.headers)
    (hv : v ∈ vs) (hv1 : ¬ c!"1.0" <:+: v) (hs : Stands w v) (hw : AsciiWord w) (h3 : 3 ≤ w.length) (h15 : w.length ≤ 15)
    (hn : w ∉ sayNothing) : c!"Hmime-version:" ++ w ∈ l := by
  have h0 : w ≠ [] := by rintro rfl; simp at h3
  have hW := asciiWord_word h0 hw.chars
  refine header_token (e := c!"mime-version") h (has_header (by decide +kernel) (by decide) (small_single (by decide)) hm fun parsed => ?_)
    hw h3 h15 hn
  refine has_mem (by decide) (by decide) (by simpa using hi) vs _ ⟨v, hv, ?_⟩
  have hr : ¬ c!"1.0" <:+: rstripBy isSpace v := by
    intro hx
    refine hv1 (hx.trans ?_)
    unfold rstripBy
    have := (List.dropWhile_suffix isSpace (l := v.reverse))
    have := List.reverse_prefix.2 this
    rw [List.reverse_reverse] at this
    exact this.isInfix
  have : chew C c!"mime-version" (rstripBy isSpace v) = rstripBy isSpace v := replace_none (by simp) hr
  rw [this]
  exact stands_rstrip hW hs

theorem _root_.Verif.Spec.Sources.small {label : Str} {names : List Str} (h : Sources label names) : lower label ≠ label ∧ label ≠ c!"*RT" ∧ label ≠ c!"*RU" ∧
    c!"*rt" ∉ names ∧ c!"*ru" ∉ names ∧ c!"x-spam-relays-trusted" ∉ names := by
  rcases h with e | e <;> cases e <;> decide

theorem compress_ne {label : Str} {names : List Str} (h : Sources label names) (k : Str) (hk : lower k = k) : compress k ≠ label := by
  obtain ⟨h1, h2, h3, _⟩ := h.small
  unfold compress
  split
  · exact h2.symm
  · split
    · exact h3.symm
    · rintro rfl
      exact h1 hk

theorem label_step {C : Chew} {label : Str} {names : List Str} (h : Sources label names) {k v : Str} {parsed : Dict Str Str}
    (hk : lower k = k) : Dict.get? (parseSpecial C k parsed v).2 label =
      if k ∈ names then some (chew C k v) else Dict.get? parsed label := by
  have hc := compress_ne h k hk
  unfold parseSpecial
  simp only
  generalize hd : (if [c!"x-mailer", c!"user-agent"].contains k = true then _ else _ : Dict Str Str) = d
  suffices hdl : Dict.get? d label = (if k ∈ names then some (chew C k v) else Dict.get? parsed label) by
    cases Dict.get? d (compress k) <;> simp only <;> rw [Dict.get?_set_ne _ _ hc] <;> exact hdl
  rw [← hd]
  rcases h with e | e <;> cases e
  · by_cases hm : k ∈ [c!"in-reply-to", c!"references", c!"message-id"]
    · have h2 : [c!"from", c!"to", c!"cc"].contains k = false ∧ [c!"x-mailer", c!"user-agent"].contains k = false := by
        simp only [List.mem_cons, List.not_mem_nil, or_false] at hm
        rcases hm with rfl | rfl | rfl <;> decide
      rw [h2.1, h2.2]
      simp only [Bool.false_eq_true, if_false]
      rw [if_pos hm, if_pos (by rw [List.contains_iff_mem]; exact hm)]
      exact Dict.get?_set_self _ _ _
    · rw [if_neg hm, if_neg (show ¬ [c!"in-reply-to", c!"references", c!"message-id"].contains k = true by simpa using hm)]
      split
      · rw [Dict.get?_set_ne _ _ (by decide)]
        split
        · rw [Dict.get?_set_ne _ _ (by decide)]
        · rfl
      · split
        · rw [Dict.get?_set_ne _ _ (by decide)]
        · rfl
  · by_cases hm : k ∈ [c!"x-mailer", c!"user-agent"]
    · rw [if_pos hm, if_pos (by simpa using hm)]
      exact Dict.get?_set_self _ _ _
    · rw [if_neg hm, if_neg (show ¬ [c!"x-mailer", c!"user-agent"].contains k = true by simpa using hm)]
      split
      · rw [Dict.get?_set_ne _ _ (by decide)]
        split
        · rw [Dict.get?_set_ne _ _ (by decide)]
        · rfl
      · split
        · rw [Dict.get?_set_ne _ _ (by decide)]
        · rfl

theorem label_values {C : Chew} {label : Str} {names : List Str} (h : Sources label names) {ig : List Str} : ∀ (vs : List Str) (k : Str)
    (parsed : Dict Str Str), lower k ∉ names → Dict.get? (headerValues C ig k vs parsed) label = Dict.get? parsed label
  | [], _, _, _ => rfl
  | v :: vs, k, parsed, hk => by
    rw [headerValues]
    split
    · exact label_values h vs k parsed hk
    · simp only
      rw [label_values h vs _ _ ?_, label_step h (Mail.lower_idem k), if_neg hk]
      rw [parseSpecial_name]
      obtain ⟨_, _, _, h4, h5, _⟩ := h.small
      unfold compress
      split
      · exact h4
      · split
        · exact h5
        · rw [Mail.lower_idem]; exact hk

theorem label_foldl {C : Chew} {label : Str} {names : List Str} (h : Sources label names) {ig : List Str} :
    ∀ (l : List (Str × List Str)) (parsed : Dict Str Str), (∀ k ∈ l, lower k.1 ∉ names) →
    Dict.get? (l.foldl (fun parsed h =>
      headerValues C ig h.1 (if h.1 = c!"received" then h.2.drop (h.2.length - 2) else h.2) parsed) parsed) label = Dict.get? parsed label
  | [], _, _ => rfl
  | k :: l, parsed, hk => by
    rw [List.foldl_cons, label_foldl h l _ fun x hx => hk x (List.mem_cons_of_mem _ hx), label_values h _ _ _ (hk k (by simp))]

/-- The words of X-Mailer or User-Agent, of In-Reply-To or References are tokens under a common name too, if the message has only one
such header. -/
theorem C127_common_partial (C : Chew) (ui : List Str) (fuel : Nat) (msg : Mail) (l : List Str) (h : tokenise C ui fuel msg = .tokens l)
    (label : Str) (names : List Str) (hl : Sources label names) (name : Str) (hname : name ∈ names) (hid : name ≠ c!"message-id")
    (a b : List (Str × List Str)) (v w : Str) (hi : name ∉ ui.map lower) (hm : msg.headers = a ++ (name, [v]) :: b)
    (hb : ∀ k ∈ b, lower k.1 ∉ names) (hs : Stands w v) (hw : AsciiWord w) (h3 : 3 ≤ w.length) (h15 : w.length ≤ 15)
    (hn : w ∉ sayNothing) : c!"H" ++ label ++ c!":" ++ w ∈ l := by
  have h0 : w ≠ [] := by rintro rfl; simp at h3
  have hW := asciiWord_word h0 hw.chars
  have key : lower name = name ∧ name ≠ c!"received" ∧ ignoredHeaders.contains name = false ∧ ∀ v, chew C name v = v := by
    rcases hl with e | e <;> cases e <;> simp only [List.mem_cons, List.not_mem_nil, or_false] at hname
    · rcases hname with rfl | rfl | rfl
      · exact ⟨by decide, by decide, by decide +kernel, fun v => rfl⟩
      · exact ⟨by decide, by decide, by decide +kernel, fun v => rfl⟩
      · exact absurd rfl hid
    · rcases hname with rfl | rfl
      · exact ⟨by decide, by decide, by decide +kernel, fun v => rfl⟩
      · exact ⟨by decide, by decide, by decide +kernel, fun v => rfl⟩
  obtain ⟨k1, k2, k3, k4⟩ := key
  refine header_token h ⟨rstripBy isSpace v, ?_, stands_rstrip hW hs⟩ hw h3 h15 hn
  rw [hm]
  unfold tokeniseHeaders
  rw [List.filter_append, List.filter_cons, if_pos (by rw [k3]; rfl), List.foldl_append, List.foldl_cons,
    label_foldl hl _ _ fun k hk => hb k ((List.mem_filter.1 hk).1)]
  simp only [if_neg k2]
  rw [headerValues, k1, if_neg (by simpa using hi)]
  simp only [headerValues]
  rw [label_step hl k1, if_pos hname, k4]

/-- The results of an earlier scan are learned: the words of these headers are tokens. -/
theorem C132_markup_violated (C : Chew) (fuel : Nat) (msg : Mail) (l : List Str) (h : tokenise C [] fuel msg = .tokens l)
    (name : Str) (hname : name ∈ [c!"x-spam-status", c!"x-spam-flag", c!"x-spam-level", c!"x-spam-report", c!"x-spam-score"])
    (vs : List Str) (v w : Str) (hm : (name, vs) ∈ msg.headers)
    (hv : v ∈ vs) (hs : Stands w v) (hw : AsciiWord w) (h3 : 3 ≤ w.length) (h15 : w.length ≤ 15) (hn : w ∉ sayNothing) :
    c!"H" ++ name ++ c!":" ++ w ∈ l := by
  have ho : OrdinaryHeader name := by
    simp only [List.mem_cons, List.not_mem_nil, or_false] at hname
    rcases hname with rfl | rfl | rfl | rfl | rfl
    all_goals exact ⟨by decide, by decide +kernel, by decide +kernel, by decide +kernel, by decide, by decide⟩
  exact C127_header_partial C [] fuel msg l h name vs v w ho (by simp) hm hv hs hw h3 h15 hn

/-! ### C130: addresses in headers -/

theorem searchFrom_some {r : Re} {t : St} : ∀ (a b : Str), searchFrom r b a = some t → ∃ b' a', m r ⟨b', a', []⟩ some = some t
  | [], b, h => ⟨b, [], by rwa [searchFrom] at h⟩
  | c :: cs, b, h => by
    rw [searchFrom] at h
    cases hmm : m r ⟨b, c :: cs, []⟩ some with
    | some t' => rw [hmm] at h; cases h; exact ⟨b, c :: cs, hmm⟩
    | none => rw [hmm] at h; exact searchFrom_some cs _ h

/-- No address is ever found. -/
theorem chewAddr_nil (val : Str) : chewAddr val = [] := by
  unfold chewAddr findAddrs
  cases hs : search addrRe val with
  | none => rfl
  | some t =>
    obtain ⟨b, a, hm⟩ := searchFrom_some _ _ hs
    obtain ⟨t', hw, e⟩ := m_sound _ _ _ _ hm
    simp at e
    subst e
    have hg : ∃ x r, t'.get 1 = some (x :: r) ∧ x ≠ '@' := by
      unfold addrRe at hw
      simp only [seqs] at hw
      cases hw with
      | seq h1 hw =>
      cases hw with
      | seq h2 hw =>
      cases hw with
      | seq h3 h4 =>
      cases h3 with
      | group h3 =>
      rename_i s1 s2 s3
      have g4 := h4.groups ⟨trivial, trivial⟩
      obtain ⟨w, e3, _, r3⟩ := h3.reads
      obtain ⟨u, v, rfl, ru, _⟩ := Reads.seq.1 r3
      obtain ⟨hu0, hu⟩ := Reads.plus.1 ru
      obtain ⟨x, u, rfl⟩ := List.exists_cons_of_ne_nil hu0
      refine ⟨x, u ++ v, ?_, ?_⟩
      · rw [St.get, g4]
        simp only [Dict.get?, if_true]
        rw [e3, List.length_append, Nat.add_sub_cancel, List.take_left]
        rfl
      · rintro rfl
        have := hu '@' (by simp)
        revert this
        decide
    obtain ⟨x, r, hg, hx⟩ := hg
    simp only [hg, Option.getD_some, List.take_succ_cons, List.take_zero, List.flatMap_cons, List.flatMap_nil, List.append_nil]
    have : mailAddrs [x] = [] := by
      unfold mailAddrs rsplit1
      have : split1 ['@'] [x].reverse = none := by
        simp [split1, List.isPrefixOf, hx, beq_eq_false_iff_ne, Ne.symm hx]
      rw [this]
    rw [this]
    rfl

/-- The two lists of headers differ at most in the values of headers of `names`. -/
inductive SameBut (names : List Str) : List (Str × List Str) → List (Str × List Str) → Prop where
  | nil : SameBut names [] []
  | same (h : Str × List Str) {a b} : SameBut names a b → SameBut names (h :: a) (h :: b)
  | other (name : Str) (vs us : List Str) {a b} : name ∈ names → vs.length = us.length → SameBut names a b →
      SameBut names ((name, vs) :: a) ((name, us) :: b)

theorem values_same {C : Chew} {ig : List Str} {h : Str} (hl : lower h = h) (hc : compress h = h)
    (he : ∀ v u, chew C h v = chew C h u) : ∀ (vs us : List Str) (parsed : Dict Str Str), vs.length = us.length →
    headerValues C ig h vs parsed = headerValues C ig h us parsed
  | [], [], _, _ => rfl
  | [], _ :: _, _, e => by simp at e
  | _ :: _, [], _, e => by simp at e
  | v :: vs, u :: us, parsed, e => by
    rw [headerValues, headerValues, hl]
    split
    · exact values_same hl hc he vs us parsed (by simpa using e)
    · have hp : parseSpecial C h parsed (rstripBy isSpace v) = parseSpecial C h parsed (rstripBy isSpace u) := by
        unfold parseSpecial
        rw [he (rstripBy isSpace v) (rstripBy isSpace u)]
      simp only
      rw [hp, parseSpecial_name, hc]
      exact values_same hl hc he vs us _ (by simpa using e)

theorem headers_same {C : Chew} {ui names : List Str}
    (hn : ∀ h ∈ names, lower h = h ∧ compress h = h ∧ h ≠ c!"received" ∧ ∀ v u, chew C h v = chew C h u)
    {a b : List (Str × List Str)} (h : SameBut names a b) : tokeniseHeaders C ui a = tokeniseHeaders C ui b := by
  unfold tokeniseHeaders
  generalize ([] : Dict Str Str) = parsed
  induction h generalizing parsed with
  | nil => rfl
  | same h _ ih =>
    rw [List.filter_cons, List.filter_cons]
    split
    · rw [List.foldl_cons, List.foldl_cons]
      exact ih _
    · exact ih _
  | other name vs us hm hlen _ ih =>
    obtain ⟨h1, h2, h3, h4⟩ := hn name hm
    rw [List.filter_cons, List.filter_cons]
    simp only
    split
    · rw [List.foldl_cons, List.foldl_cons]
      simp only [if_neg h3]
      rw [values_same h1 h2 h4 vs us _ hlen]
      exact ih _
    · exact ih _

theorem tokenise_headers {C : Chew} {ui : List Str} {fuel : Nat} {msg : Mail} {hs : List (Str × List Str)}
    (h : tokeniseHeaders C ui msg.headers = tokeniseHeaders C ui hs) :
    tokenise C ui fuel { msg with headers := hs } = tokenise C ui fuel msg := by
  unfold tokenise sources
  simp only [h]
  rfl

/-- The tokens do not depend on the addresses in the headers: From, To and the others count as present, and that is all. -/
theorem C130_addresses_violated (C : Chew) (ui : List Str) (fuel : Nat) (msg : Mail) (hs : List (Str × List Str))
    (h : SameBut addressHeaders msg.headers hs) :
    tokenise C ui fuel { msg with headers := hs } = tokenise C ui fuel msg := by
  refine tokenise_headers (headers_same ?_ h)
  have ht : ∀ h ∈ addressHeaders,
      lower h = h ∧ compress h = h ∧ h ≠ c!"received" ∧
      [c!"message-id", c!"x-message-id", c!"resent-message-id"].contains h = false ∧ addrHeaders.contains h = true := by
    decide +kernel
  intro h hm
  obtain ⟨h1, h2, h3, h4, h5⟩ := ht h hm
  refine ⟨h1, h2, h3, fun v u => ?_⟩
  unfold chew
  rw [if_neg (by rw [h4]; simp), if_pos h5, if_neg (by rw [h4]; simp), if_pos h5, chewAddr_nil, chewAddr_nil]

/-! ### C131: the same message has the same tokens -/

theorem clean_word {w : Str} (hw : AsciiWord w) (h0 : w ≠ []) : clean w = w := by
  have h1 : findAll runsRe w = [w] := by
    have := findGo_match (r := runsRe) (b := []) (a := []) h0 (runs_match h0 (fun c hc => (mark_facts (hw.chars c hc)).1) (by simp))
    rw [List.append_nil] at this
    rw [findAll, this, findGo]
  have h2 : ∀ c lo, 0 < lo → ¬ List.replicate lo c <:+: w → sub (separatorRe c lo) apart w = w := by
    intro c lo hlo hn
    have := subGo_keep (r := separatorRe c lo) (f := apart) (B := []) w [] ?_
    · rw [List.append_nil] at this
      rw [sub, this, subGo, List.append_nil]
    · intro v hv hs b
      cases hmm : m (separatorRe c lo) ⟨b, v ++ [], []⟩ some with
      | none => rfl
      | some t =>
        exfalso
        obtain ⟨x, k, d, e, _, _, hk, _⟩ := separator_match hmm
        apply hn
        obtain ⟨s, es⟩ := hs
        obtain ⟨k, rfl⟩ := Nat.exists_eq_add_of_le hk
        rw [List.append_nil] at e
        refine ⟨s ++ [x], List.replicate k c ++ d :: t.after, ?_⟩
        rw [← es, e, ← List.replicate_append_replicate]
        simp only [List.append_assoc, List.cons_append, List.nil_append]
  unfold clean
  rw [h1, join, h2 '.' 3 (by decide) hw.noDots, h2 '-' 2 (by decide) hw.noDashes]

/-- The tokens of a word in a header. -/
theorem line_word {fuel : Nat} {pre w : Str} (hw : AsciiWord w) (h3 : 3 ≤ w.length) (h15 : w.length ≤ 15) (hn : w ∉ sayNothing) :
    tokeniseLine fuel w pre 0 = some [.text (pre ++ w)] := by
  have h0 : w ≠ [] := by rintro rfl; simp at h3
  have hk : keep pre 0 w = [.text (pre ++ w)] := by
    unfold keep
    have : decide (w.length > maxLength) = false := by simp [maxLength, h15]
    simp only [this, Bool.false_and]
    simp
  have hwt : wordTokens fuel pre 0 w = some [.text (pre ++ w)] := by
    unfold wordTokens
    simp only
    rw [show rstripBy (fun c => edgeChars.contains c) (lstripChars edgeChars w) = w from trim_same hw.start hw.stop,
      if_neg (by omega), if_neg (by rw [stopWords_eq]; exact hn), if_neg (by simp), if_neg (by simp), hk]
  rw [tokeniseLine, clean_word hw h0, splitWs_word w (asciiWord_word h0 hw.chars), List.mapM_cons, hwt]
  rfl

theorem rstrip_word {w : Str} (hw : Word w) : rstripBy isSpace w = w := by
  unfold rstripBy
  cases e : w.reverse with
  | nil => rw [List.reverse_eq_nil_iff] at e; rw [e]; rfl
  | cons c r =>
    have hc : c ∈ w := by rw [← List.mem_reverse, e]; simp
    rw [List.dropWhile_cons, if_neg (by rw [hw.2 c hc]; simp), ← e, List.reverse_reverse]

/-- The tokens depend on the order in which the names of the headers are enumerated: of In-Reply-To and References the one that
comes last counts. -/
theorem C131_order_violated (C : Chew) (ui : List Str) (fuel : Nat) (u v : Str) (hu : AsciiWord u) (hv : AsciiWord v)
    (hu3 : 3 ≤ u.length) (hu15 : u.length ≤ 15) (hv3 : 3 ≤ v.length) (hv15 : v.length ≤ 15) (hun : u ∉ sayNothing)
    (hvn : v ∉ sayNothing) (hne : u ≠ v) (hi : c!"in-reply-to" ∉ ui.map lower ∧ c!"references" ∉ ui.map lower) :
    ∃ l l', tokenise C ui fuel ⟨none, [], [(c!"in-reply-to", [u]), (c!"references", [v])]⟩ = .tokens l ∧
      tokenise C ui fuel ⟨none, [], [(c!"references", [v]), (c!"in-reply-to", [u])]⟩ = .tokens l' ∧
      c!"H*MI:" ++ v ∈ l ∧ c!"H*MI:" ++ v ∉ l' := by
  have hu0 : u ≠ [] := by rintro rfl; simp at hu3
  have hv0 : v ≠ [] := by rintro rfl; simp at hv3
  have ru := rstrip_word (asciiWord_word hu0 hu.chars)
  have rv := rstrip_word (asciiWord_word hv0 hv.chars)
  have hi1 : (ui.map lower).contains c!"in-reply-to" = false := by simpa using hi.1
  have hi2 : (ui.map lower).contains c!"references" = false := by simpa using hi.2
  have g1 : ignoredHeaders.contains c!"in-reply-to" = false := by decide +kernel
  have g2 : ignoredHeaders.contains c!"references" = false := by decide +kernel
  have l1 : lower c!"in-reply-to" = c!"in-reply-to" := by decide
  have l2 : lower c!"references" = c!"references" := by decide
  have c1 : ∀ x, chew C c!"in-reply-to" x = x := fun x => rfl
  have c2 : ∀ x, chew C c!"references" x = x := fun x => rfl
  have p1 : tokeniseHeaders C ui [(c!"in-reply-to", [u]), (c!"references", [v])] =
      [(c!"*MI", v), (c!"in-reply-to", u), (c!"references", v)] := by
    simp only [tokeniseHeaders, List.filter_cons, List.filter_nil, g1, g2, Bool.not_false, if_true, List.foldl_cons, List.foldl_nil,
      if_neg (show c!"in-reply-to" ≠ c!"received" by decide), if_neg (show c!"references" ≠ c!"received" by decide),
      headerValues, l1, l2, hi1, hi2, Bool.false_eq_true, if_false, parseSpecial, c1, c2, ru, rv]
    rfl
  have p2 : tokeniseHeaders C ui [(c!"references", [v]), (c!"in-reply-to", [u])] =
      [(c!"*MI", u), (c!"references", v), (c!"in-reply-to", u)] := by
    simp only [tokeniseHeaders, List.filter_cons, List.filter_nil, g1, g2, Bool.not_false, if_true, List.foldl_cons, List.foldl_nil,
      if_neg (show c!"in-reply-to" ≠ c!"received" by decide), if_neg (show c!"references" ≠ c!"received" by decide),
      headerValues, l1, l2, hi1, hi2, Bool.false_eq_true, if_false, parseSpecial, c1, c2, ru, rv]
    rfl
  have tu : ∀ pre, tokeniseLine fuel u pre 0 = some [.text (pre ++ u)] := fun pre => line_word hu hu3 hu15 hun
  have tv : ∀ pre, tokeniseLine fuel v pre 0 = some [.text (pre ++ v)] := fun pre => line_word hv hv3 hv15 hvn
  have hb : ∀ hs, textLines (rendered ⟨none, [], hs⟩) = [[]] := fun hs => by
    show textLines c!"\n" = [[]]
    decide +kernel
  have hi' : ∀ hs, textLines (invisible ⟨none, [], hs⟩) = [] := fun hs => rfl
  have t0 : tokeniseLine fuel [] [] 1 = some [] := rfl
  refine ⟨[c!"H*MI:" ++ v, c!"Hin-reply-to:" ++ u, c!"Hreferences:" ++ v].eraseDups,
    [c!"H*MI:" ++ u, c!"Hreferences:" ++ v, c!"Hin-reply-to:" ++ u].eraseDups, ?_, ?_, ?_, ?_⟩
  · unfold tokenise sources
    rw [p1, hb, hi']
    simp only [List.map_cons, List.map_nil, List.append_nil, List.cons_append, List.nil_append, List.mapM_cons, List.mapM_nil, t0, tu, tv]
    rfl
  · unfold tokenise sources
    rw [p2, hb, hi']
    simp only [List.map_cons, List.map_nil, List.append_nil, List.cons_append, List.nil_append, List.mapM_cons, List.mapM_nil, t0, tu, tv]
    rfl
  · rw [List.mem_eraseDups]
    simp
  · rw [List.mem_eraseDups]
    simp [Ne.symm hne]

/-! ### C132: headers without influence -/

theorem values_ignored {C : Chew} {ig : List Str} {h : Str} (hi : ig.contains (lower h) = true) : ∀ (vs : List Str) (parsed : Dict Str Str),
    headerValues C ig h vs parsed = parsed
  | [], _ => rfl
  | _ :: vs, parsed => by
    rw [headerValues, if_pos hi]
    exact values_ignored hi vs parsed

/-- A header that is to be ignored, by the built-in list or by the user's, has no influence. -/
theorem C132_ignored_partial (C : Chew) (ui : List Str) (fuel : Nat) (msg : Mail) (a b : List (Str × List Str)) (h : Str) (vs : List Str)
    (hi : h ∈ neverUsed ∨ lower h ∈ ui.map lower) :
    tokenise C ui fuel { msg with headers := a ++ (h, vs) :: b } = tokenise C ui fuel { msg with headers := a ++ b } := by
  refine tokenise_headers (msg := { msg with headers := a ++ b }) ?_
  unfold tokeniseHeaders
  rw [List.filter_append, List.filter_append, List.foldl_append, List.foldl_append, List.filter_cons]
  rcases hi with hi | hi
  · rw [if_neg (by rw [ignored_eq]; simpa using hi)]
  · split
    · rw [List.foldl_cons]
      simp only
      rw [values_ignored (by simpa using hi)]
    · rfl

/-- Of headers whose values are different in every message only the presence counts. -/
theorem C132_presence (C : Chew) (ui : List Str) (fuel : Nat) (msg : Mail) (hs : List (Str × List Str))
    (h : SameBut signatureHeaders msg.headers hs) :
    tokenise C ui fuel { msg with headers := hs } = tokenise C ui fuel msg := by
  refine tokenise_headers (headers_same ?_ h)
  have ht : ∀ h ∈ signatureHeaders, lower h = h ∧ compress h = h ∧ h ≠ c!"received" ∧
      [c!"message-id", c!"x-message-id", c!"resent-message-id"].contains h = false ∧ addrHeaders.contains h = false ∧
      h ≠ c!"content-type" ∧ h ≠ c!"mime-version" ∧ presenceHeaders.contains h = true := by
    decide +kernel
  intro h hm
  obtain ⟨h1, h2, h3, h4, h5, h6, h7, h8⟩ := ht h hm
  refine ⟨h1, h2, h3, fun v u => ?_⟩
  have : ∀ v, chew C h v = c!"1" := fun v => by
    unfold chew
    rw [if_neg (by rw [h4]; simp), if_neg (by rw [h5]; simp), if_neg h3, if_neg h6, if_neg h7, if_pos h8]
  rw [this, this]

/-! ### Concrete cases -/

theorem ordinary_mailer : OrdinaryHeader c!"x-mailer" :=
  ⟨by decide, by decide +kernel, by decide +kernel, by decide +kernel, by decide, by decide⟩

-- C127: a word of a header
example : c!"Hx-mailer:Express" ∈ offerTokens :=
  C127_header_partial plainChew [] 3 offer _ offer_tokens c!"x-mailer" [c!"Outlook Express"] c!"Outlook Express" c!"Express" ordinary_mailer (by simp)
    (by simp [offer]) (by simp) ⟨c!"Outlook ", [], by decide, by simp; decide, by simp⟩ (asciiWord_of (by decide)) (by decide)
    (by decide) (by decide +kernel)

-- C127: under the name for all programs
example : c!"H*UA:Express" ∈ offerTokens :=
  C127_common_partial plainChew [] 3 offer _ offer_tokens c!"*UA" _ (.inr rfl) c!"x-mailer" (by decide) (by decide) [] _ c!"Outlook Express"
    c!"Express" (by simp) rfl (by decide) ⟨c!"Outlook ", [], by decide, by simp; decide, by simp⟩ (asciiWord_of (by decide)) (by decide)
    (by decide) (by decide +kernel)

/-- A message with a list of relays. -/
def relayed : Mail := ⟨none, [], [(c!"x-spam-relays-untrusted", [c!"rdns spam.example"]), (c!"mime-version", [c!"1.1 (produced by exim)"])]⟩

/-- Its tokens. -/
def relayedTokens : List Str :=
  [c!"H*RU:rdns", c!"H*RU:spam.example", c!"Hmime-version:1.1", c!"Hmime-version:produced", c!"Hmime-version:exim"]

set_option maxRecDepth 8000 in
theorem relayed_tokens : tokenise plainChew [] 3 relayed = .tokens relayedTokens := by decide +kernel

-- C127: words of a list of relays, and of an unusual version of MIME
example : c!"H*RU:rdns" ∈ relayedTokens :=
  C127_relays_partial plainChew [] 3 relayed _ relayed_tokens _ c!"*RU" (.inr rfl) [] c!"rdns spam.example" c!"rdns" (by simp)
    (by simp [relayed]) ⟨[], c!" spam.example", by decide, by simp, by simp; decide⟩ (asciiWord_of (by decide)) (by decide) (by decide) (by decide +kernel)

example : c!"Hmime-version:produced" ∈ relayedTokens := by decide

-- C132: the result of an earlier scan
example : c!"Hx-spam-status:score" ∈ offerTokens :=
  C132_markup_violated plainChew 3 offer _ offer_tokens c!"x-spam-status" (by decide) [c!"Yes, score"] c!"Yes, score" c!"score"
    (by simp [offer]) (by simp) ⟨c!"Yes, ", [], by decide, by simp; decide, by simp⟩ (asciiWord_of (by decide)) (by decide)
    (by decide) (by decide +kernel)

-- C130: the same offer from another sender
example : tokenise plainChew [] 3
    { offer with headers := [(c!"x-mailer", [c!"Outlook Express"]), (c!"from", [c!"Eve <eve@spam.example>"]), (c!"x-spam-status", [c!"Yes, score"])] } =
    .tokens offerTokens := by
  rw [← offer_tokens]
  exact C130_addresses_violated _ _ _ offer _ (.same _ (.other _ _ _ (by decide +kernel) rfl (.same _ .nil)))

-- C131: the identifiers of two messages
example : ∃ l l', tokenise plainChew [] 3 ⟨none, [], [(c!"in-reply-to", [c!"abc1"]), (c!"references", [c!"xyz2"])]⟩ = .tokens l ∧
    tokenise plainChew [] 3 ⟨none, [], [(c!"references", [c!"xyz2"]), (c!"in-reply-to", [c!"abc1"])]⟩ = .tokens l' ∧
    c!"H*MI:xyz2" ∈ l ∧ c!"H*MI:xyz2" ∉ l' :=
  C131_order_violated _ _ _ _ _ (asciiWord_of (by decide)) (asciiWord_of (by decide)) (by decide) (by decide) (by decide) (by decide)
    (by decide +kernel) (by decide +kernel) (by decide) (by decide)

-- C132: a header that is always ignored, and one that the user does not want
example : c!"list-id" ∈ neverUsed ∧ lower c!"x-mailer" ∈ [c!"X-Mailer"].map lower := by decide +kernel

-- C132: two signatures
example : SameBut signatureHeaders [(c!"dkim-signature", [c!"v=1; b=abc"])] [(c!"dkim-signature", [c!"v=1; b=xyz"])] :=
  .other _ _ _ (by decide +kernel) rfl .nil

end Verif.Props
