import Verif.Spec.Content
import Verif.Lemmas.Py
import Verif.Lemmas.Strip
import Verif.Lemmas.Headers

/-!
# C71-C74: text, links, identifier and date of a message
-/

namespace Verif.Props
open Verif Py Content

variable {β : Type}

/-! ## Text -/

theorem replace_lf (s : Str) : replace c!"\n" c!" " s = s.map (fun c => if c = '\n' then ' ' else c) := by
  induction s with
  | nil => rfl
  | cons c cs ih =>
    rw [replace_cons _ _ (by simp)]
    by_cases h : c = '\n'
    · subst h; simp [List.isPrefixOf, ih]
    · simp [List.isPrefixOf, h, ih, Ne.symm h]

theorem pageText_append (a b : List HtmlEvent) : pageText (a ++ b) = pageText a ++ pageText b :=
  List.filterMap_append

theorem foldl_handleEvent (ev : List HtmlEvent) : ∀ acc, ev.foldl handleEvent acc = acc ++ pageText ev := by
  induction ev with
  | nil => intro acc; simp [pageText]
  | cons e es ih =>
    intro acc
    rw [List.foldl_cons, ih]
    cases e with
    | data s =>
      by_cases h : strip s = [] <;> simp [handleEvent, pageText, h]
    | _ => simp [handleEvent, pageText]

theorem normalizeHtml_ok {L : Lib β} {s : Str} {l : List Str} (h : normalizeHtml L s = .ok l) :
    l = pageText (L.html s).1 := by
  unfold normalizeHtml at h
  split at h
  · rename_i ev he
    injection h with h; rw [foldl_handleEvent] at h; simpa [he] using h.symm
  · rename_i ev e he
    split at h
    · exact absurd h (by simp)
    · split at h
      · injection h with h; rw [foldl_handleEvent] at h; simpa [he] using h.symm
      · exact absurd h (by simp)

theorem replace_underscore (s : Str) : replace c!"_" c!"-" s = s.map (fun c => if c = '_' then '-' else c) := by
  induction s with
  | nil => rfl
  | cons c cs ih =>
    rw [replace_cons _ _ (by simp)]
    by_cases h : c = '_'
    · subst h; simp [List.isPrefixOf, ih]
    · simp [List.isPrefixOf, h, ih, Ne.symm h]

theorem charsetOf_eq (p : Part β) : charsetOf p = (namedCharset p, isStrict (namedCharset p)) := by
  unfold charsetOf namedCharset
  cases hc : p.charset with
  | none => rfl
  | some c =>
    by_cases h : c = []
    · subst h; rfl
    · simp only [Option.getD_some, h, if_false, isStrict, replace_underscore, strictCharsets, List.contains_eq_mem]

/-- A part that is not left out: text that can be decoded, or no text. -/
def keptPart (L : Lib β) (p : Part β) : Bool := decide (p.maintype ≠ c!"text") || (partText L p).isSome

theorem iterPart_some {L : Lib β} {p : Part β} {x : Option Str} (h : iterPart L p = .ok (some x)) :
    x = partText L p ∧ keptPart L p = true := by
  unfold iterPart at h
  rw [charsetOf_eq] at h
  unfold keptPart partText
  by_cases ht : p.maintype = c!"text"
  · rw [if_pos ht] at h
    simp only [ht, ne_eq, not_true_eq_false, if_false, decide_false, Bool.false_or]
    cases hp : p.payload with
    | none => rw [hp] at h; exact absurd h (by simp)
    | some b =>
      rw [hp] at h
      cases h1 : L.decode (namedCharset p) (isStrict (namedCharset p)) b with
      | ok s => simp [h1] at h; simp [h1, ← h]
      | error e =>
        simp only [h1] at h
        split at h
        · cases h2 : L.decode c!"ascii" false b with
          | ok s => simp [h2] at h; simp [h1, h2, ← h]
          | error e2 =>
            simp only [h2] at h
            split at h <;> simp at h
        · simp at h
  · rw [if_neg ht] at h
    simp at h
    simp [ht, ← h]

theorem iterPart_none {L : Lib β} {p : Part β} (h : iterPart L p = .ok none) :
    partText L p = none ∧ keptPart L p = false := by
  unfold iterPart at h
  rw [charsetOf_eq] at h
  unfold keptPart partText
  by_cases ht : p.maintype = c!"text"
  · rw [if_pos ht] at h
    simp only [ht, ne_eq, not_true_eq_false, if_false, decide_false, Bool.false_or]
    cases hp : p.payload with
    | none => rw [hp] at h; exact absurd h (by simp)
    | some b =>
      rw [hp] at h
      cases h1 : L.decode (namedCharset p) (isStrict (namedCharset p)) b with
      | ok s => simp [h1] at h
      | error e =>
        simp only [h1] at h
        split at h
        · cases h2 : L.decode c!"ascii" false b with
          | ok s => simp [h2] at h
          | error e2 => simp [h1, h2]
        · simp at h
  · rw [if_neg ht] at h
    simp at h

/-- What one part adds. -/
structure Adds (L : Lib β) (ps : List (Part β)) (c d : Content β) : Prop where
  mime : d.mimeHeaders = c.mimeHeaders ++ (ps.filter (keptPart L)).flatMap (·.headers)
  uris : d.uris = c.uris ++ (ps.filterMap (partText L)).flatMap (findUrls L.word 0 false)
  body : d.body = c.body ++ (ps.filterMap (shown L)).map some
  raw : d.rawBody = c.rawBody ++ ps.filterMap (partText L)
  miss : d.missingBoundary = (c.missingBoundary || (ps.filter (keptPart L)).any (fun p => decide (p.headers = [])))
  hooks : d.hooks = c.hooks ++ (ps.filter (keptPart L)).map (fun p => (partText L p, shown L p, p))

theorem addPart_adds {L : Lib β} {p : Part β} {c d : Content β} (hk : keptPart L p = true)
    (h : addPart L p (partText L p) c = .ok d) : Adds L [p] c d := by
  unfold addPart at h
  cases hs : partText L p with
  | none =>
    simp only [hs] at h
    injection h with h
    subst h
    constructor <;> simp [hk, hs, shown]
  | some s =>
    simp only [hs] at h
    by_cases ht : p.subtype = c!"html"
    · rw [if_pos ht] at h
      split at h
      · exact absurd h (by simp)
      · rename_i l hl
        injection h with h
        subst h
        have := normalizeHtml_ok hl
        rw [replace_lf] at this
        constructor <;> simp [hk, hs, shown, ht, this]
    · rw [if_neg ht] at h
      injection h with h
      subst h
      constructor <;> simp [hk, hs, shown, ht, replace_lf]

theorem Adds.trans {L : Lib β} {p : Part β} {ps : List (Part β)} {c d e : Content β} (h1 : Adds L [p] c d)
    (h2 : Adds L ps d e) : Adds L (p :: ps) c e := by
  have hp : p :: ps = [p] ++ ps := rfl
  constructor
  · rw [h2.mime, h1.mime, hp, List.filter_append, List.flatMap_append, List.append_assoc]
  · rw [h2.uris, h1.uris, hp, List.filterMap_append, List.flatMap_append, List.append_assoc]
  · rw [h2.body, h1.body, hp, List.filterMap_append, List.map_append, List.append_assoc]
  · rw [h2.raw, h1.raw, hp, List.filterMap_append, List.append_assoc]
  · rw [h2.miss, h1.miss, hp, List.filter_append, List.any_append, Bool.or_assoc]
  · rw [h2.hooks, h1.hooks, hp, List.filter_append, List.map_append, List.append_assoc]

theorem addParts_adds {L : Lib β} : ∀ (ps : List (Part β)) (c d : Content β), addParts L ps c = .ok d → Adds L ps c d
  | [], c, d, h => by
    injection h with h
    subst h
    constructor <;> simp
  | p :: ps, c, d, h => by
    unfold addParts at h
    cases hi : iterPart L p with
    | error e => simp [hi] at h
    | ok o =>
      cases o with
      | none =>
        simp only [hi] at h
        obtain ⟨h1, h2⟩ := iterPart_none hi
        have ih := addParts_adds ps c d h
        have hs : shown L p = none := by simp [shown, h1]
        constructor
        · simpa [h2] using ih.mime
        · simpa [h1] using ih.uris
        · simpa [hs] using ih.body
        · simpa [h1] using ih.raw
        · simpa [h2] using ih.miss
        · simpa [h2] using ih.hooks
      | some x =>
        simp only [hi] at h
        obtain ⟨h1, h2⟩ := iterPart_some hi
        subst h1
        cases ha : addPart L p (partText L p) c with
        | error e => simp [ha] at h
        | ok c1 =>
          simp only [ha] at h
          exact (addPart_adds h2 ha).trans (addParts_adds ps c1 d h)

theorem joinBody_ok {b : List (Option Str)} {t : Str} (h : joinBody b = .ok t) :
    (∀ x ∈ b, x.isSome) ∧ t = join c!" " (b.map (fun x => x.getD [])) := by
  unfold joinBody at h
  split at h
  · exact absurd h (by simp)
  · rename_i hc
    injection h with h
    refine ⟨fun x hx => ?_, h.symm⟩
    cases x with
    | none => exact absurd (List.contains_iff_mem.2 hx) hc
    | some _ => rfl

theorem parseContent_adds {L : Lib β} {subjects : List Str} {parts : List (Part β)} {v : View β}
    (h : parseContent L subjects parts = .ok v) :
    ∃ c, Adds L parts ⟨[], [], subjects.map L.decodeHeader, [], false, []⟩ c ∧ joinBody c.body = .ok v.text ∧
      v.rawText = join c!"\n" c.rawBody ∧ v.uris = c.uris ∧ v.mimeHeaders = c.mimeHeaders ∧
      v.missingBoundary = c.missingBoundary ∧ v.hooks = c.hooks := by
  unfold parseContent at h
  split at h
  · exact absurd h (by simp)
  · rename_i c hc
    split at h
    · exact absurd h (by simp)
    · rename_i t ht
      injection h with h
      subst h
      exact ⟨c, addParts_adds _ _ _ hc, ht, rfl, rfl, rfl, rfl, rfl⟩

theorem map_getD_some (l : List Str) : (l.map some).map (fun x => x.getD []) = l := by
  induction l with
  | nil => rfl
  | cons a as ih => simp [ih]

theorem map_decode {f : Str → Option Str} {l : List Str} (h : ∀ s ∈ l, (f s).isSome) :
    (l.map f).map (fun x => x.getD []) = l.filterMap f := by
  induction l with
  | nil => rfl
  | cons a as ih =>
    have ha := h a (by simp)
    obtain ⟨t, ht⟩ := Option.isSome_iff_exists.1 ha
    have := ih (fun s hs => h s (by simp [hs]))
    simp only [List.map_cons, ht, Option.getD_some, this]
    rw [List.filterMap_cons_some ht]

/-- **C71** (partial).  Of a message that is parsed, the body rules see the subjects and after them
what is shown of each text part, in their order and separated by a space.  The raw body is the text of the
text parts, in their order and on lines of their own. -/
theorem C71_text_partial (L : Lib β) (subjects : List Str) (parts : List (Part β)) (v : View β)
    (h : parseContent L subjects parts = .ok v) :
    v.text = join c!" " (subjects.filterMap L.decodeHeader ++ parts.filterMap (shown L)) ∧
    v.rawText = join c!"\n" (parts.filterMap (partText L)) := by
  obtain ⟨c, hc, ht, hr, -⟩ := parseContent_adds h
  obtain ⟨hs, ht⟩ := joinBody_ok ht
  have hb := hc.body
  simp only at hb
  have hd : ∀ s ∈ subjects, (L.decodeHeader s).isSome := fun s hs' =>
    hs _ (by rw [hb]; exact List.mem_append_left _ (List.mem_map_of_mem hs'))
  refine ⟨?_, by rw [hr, hc.raw]; rfl⟩
  rw [ht, hb, List.map_append, map_getD_some, map_decode hd]

/-- **C71** (partial).  Plugins are given every part once, in their order, with its text and with what is
shown of it; parts that are text and cannot be decoded are left out.  The headers of the parts are the MIME
headers of the message, and a part without headers is noted. -/
theorem C71_parts_partial (L : Lib β) (subjects : List Str) (parts : List (Part β)) (v : View β)
    (h : parseContent L subjects parts = .ok v) :
    let kept := parts.filter (fun p => decide (p.maintype ≠ c!"text" ∨ partText L p ≠ none))
    v.hooks = kept.map (fun p => (partText L p, shown L p, p)) ∧
    v.mimeHeaders = kept.flatMap (·.headers) ∧
    (v.missingBoundary = true ↔ ∃ p ∈ kept, p.headers = []) := by
  obtain ⟨c, hc, -, -, -, hm, hmb, hh⟩ := parseContent_adds h
  have hk : parts.filter (keptPart L) = parts.filter (fun p => decide (p.maintype ≠ c!"text" ∨ partText L p ≠ none)) := by
    congr 1
    funext p
    unfold keptPart
    cases partText L p <;> simp
  refine ⟨?_, ?_, ?_⟩
  · rw [hh, hc.hooks, hk]; rfl
  · rw [hm, hc.mime, hk]; rfl
  · rw [hmb, hc.miss, hk]
    simp only [Bool.false_or, List.any_eq_true, decide_eq_true_eq]

/-- **C71** (partial).  A message whose subjects can be decoded and whose parts can be read is parsed. -/
theorem C71_readable_partial (L : Lib β) (subjects : List Str) (parts : List (Part β))
    (hs : ∀ s ∈ subjects, L.decodeHeader s ≠ none) (hp : ∀ p ∈ parts, Readable L p) :
    ∃ v, parseContent L subjects parts = .ok v := by
  have key : ∀ (ps : List (Part β)) (c : Content β), (∀ p ∈ ps, Readable L p) →
      ∃ d, addParts L ps c = .ok d := by
    intro ps
    induction ps with
    | nil => intro c _; exact ⟨c, rfl⟩
    | cons p ps ih =>
      intro c hps
      unfold addParts
      have hi : ∃ x, iterPart L p = .ok (some x) ∧
          (x ≠ none → p.subtype = c!"html" → ∀ s, (L.html s).2 = none) := by
        unfold iterPart
        rw [charsetOf_eq]
        by_cases ht : p.maintype = c!"text"
        · obtain ⟨b, hb, hd, hh⟩ := hps p (by simp) ht
          rw [if_pos ht, hb]
          rcases hd with ⟨s, h1⟩ | ⟨⟨e, h1, he⟩, s, h2⟩
          · exact ⟨some s, by simp [h1], fun _ => hh⟩
          · exact ⟨some s, by simp [h1, h2, he], fun _ => hh⟩
        · rw [if_neg ht]
          exact ⟨none, rfl, fun h => absurd rfl h⟩
      obtain ⟨x, hx, hh⟩ := hi
      have ha : ∃ d, addPart L p x c = .ok d := by
        unfold addPart
        cases x with
        | none => exact ⟨_, rfl⟩
        | some s =>
          by_cases ht : p.subtype = c!"html"
          · have := hh (by simp) ht (replace c!"\n" c!" " s)
            have hn : ∃ l, normalizeHtml L (replace c!"\n" c!" " s) = .ok l := by
              unfold normalizeHtml
              split
              · exact ⟨_, rfl⟩
              · rename_i ev e he; simp [he] at this
            obtain ⟨l, hl⟩ := hn
            simp [ht, hl]
          · simp [ht]
      obtain ⟨d, hd⟩ := ha
      simp only [hx, hd]
      exact ih d (fun q hq => hps q (by simp [hq]))
  obtain ⟨d, hd⟩ := key parts ⟨[], [], subjects.map L.decodeHeader, [], false, []⟩ hp
  have hb := (addParts_adds _ _ _ hd).body
  unfold parseContent
  rw [hd]
  have hj : joinBody d.body = .ok (join c!" " (d.body.map (fun x => x.getD []))) := by
    unfold joinBody
    rw [if_neg]
    intro hc
    have := List.contains_iff_mem.1 hc
    rw [hb] at this
    simp only [List.mem_append, List.mem_map] at this
    rcases this with ⟨s, hs', he⟩ | ⟨s, _, he⟩
    · exact hs s hs' he
    · simp at he
  simp [hj]

/-- **C71** is violated: a message with a `Subject` that cannot be decoded cannot be parsed, whatever the
rest of it is. -/
theorem C71_subject_violated (L : Lib β) (subjects : List Str) (parts : List (Part β)) (s : Str)
    (hs : s ∈ subjects) (hd : L.decodeHeader s = none) : ∃ e, parseContent L subjects parts = .error e := by
  cases h : parseContent L subjects parts with
  | error e => exact ⟨e, rfl⟩
  | ok v =>
    obtain ⟨c, hc, ht, -⟩ := parseContent_adds h
    have := (joinBody_ok ht).1 (L.decodeHeader s)
      (by rw [hc.body]; exact List.mem_append_left _ (List.mem_map_of_mem hs))
    simp [hd] at this

/-- **C71** is violated: with a version of Python that has no `HTMLParseError`, a message with an HTML
part on which the tokenizer gives up cannot be parsed, although the code means to ignore the error. -/
theorem C71_html_error_violated (L : Lib β) (subjects : List Str) (before after : List (Part β)) (p : Part β)
    (s : Str) (hv : L.oldHtml = false) (hp : p.subtype = c!"html") (hs : partText L p = some s)
    (he : (L.html (s.map (fun c => if c = '\n' then ' ' else c))).2 ≠ none) :
    ∃ e, parseContent L subjects (before ++ p :: after) = .error e := by
  have key : ∀ (ps : List (Part β)) (c : Content β), ∃ e, addParts L (ps ++ p :: after) c = .error e := by
    intro ps
    induction ps with
    | nil =>
      intro c
      rw [List.nil_append]
      unfold addParts
      cases hi : iterPart L p with
      | error e => exact ⟨e, rfl⟩
      | ok o =>
        cases o with
        | none => have := (iterPart_none hi).1; simp [hs] at this
        | some x =>
          obtain ⟨h1, -⟩ := iterPart_some hi
          have ha : addPart L p x c = .error .attribute := by
            unfold addPart
            rw [h1, hs]
            simp only
            rw [if_pos hp, replace_lf]
            have hn : normalizeHtml L (s.map (fun c => if c = '\n' then ' ' else c)) = .error .attribute := by
              unfold normalizeHtml
              split
              · rename_i ev hev; simp [hev] at he
              · simp [hv]
            simp only [hn]
          simp [ha]
    | cons q qs ih =>
      intro c
      rw [List.cons_append]
      unfold addParts
      cases hi : iterPart L q with
      | error e => exact ⟨e, rfl⟩
      | ok o =>
        cases o with
        | none => exact ih c
        | some x =>
          cases ha : addPart L q x c with
          | error e => simp [ha]
          | ok d => simpa [ha] using ih d
  obtain ⟨e, h⟩ := key before ⟨[], [], subjects.map L.decodeHeader, [], false, []⟩
  exact ⟨e, by simp [parseContent, h]⟩

/-- The text of a page in which nothing but markup stands between two pieces of a word. -/
theorem strip_word {w : Str} (h : ∀ c ∈ w, isSpace c = false) : strip w = w := by
  unfold strip stripBy lstripBy rstripBy
  have h1 : w.dropWhile isSpace = w := by
    cases w with
    | nil => rfl
    | cons c cs => exact dropWhile_head _ (h c (by simp))
  have h2 : w.reverse.dropWhile isSpace = w.reverse := by
    cases hr : w.reverse with
    | nil => rfl
    | cons c cs =>
      have : c ∈ w := List.mem_reverse.1 (by rw [hr]; simp)
      exact dropWhile_head _ (h c this)
  rw [h1, h2, List.reverse_reverse]

/-- **C71** is violated: a word in which a character is written as a reference, or which has markup in it,
is not shown as that word.  It is shown as two words, and without the character: `V&#105;agra` and
`V<b></b>agra` both give `V agra`. -/
theorem C71_html_violated (L : Lib β) (p : Part β) (s a b : Str) (mid : List HtmlEvent)
    (hp : p.subtype = c!"html") (hs : partText L p = some s)
    (ha : a ≠ [] ∧ ∀ c ∈ a, isSpace c = false) (hb : b ≠ [] ∧ ∀ c ∈ b, isSpace c = false)
    (hm : ∀ e ∈ mid, ∀ t, e ≠ .data t)
    (he : (L.html (s.map (fun c => if c = '\n' then ' ' else c))).1 = .data a :: mid ++ [.data b]) :
    shown L p = some (a ++ ' ' :: b) := by
  have hmid : pageText mid = [] := by
    unfold pageText
    rw [List.filterMap_eq_nil_iff]
    intro e hem
    cases e with
    | data t => exact absurd rfl (hm _ hem t)
    | _ => rfl
  unfold shown
  rw [hs]
  simp only [Option.map_some, hp, if_true]
  rw [he]
  have e1 : HtmlEvent.data a :: mid ++ [HtmlEvent.data b] = [.data a] ++ (mid ++ [.data b]) := by simp
  rw [e1, pageText_append, pageText_append, hmid]
  simp [pageText, strip_word ha.2, strip_word hb.2, ha.1, hb.1, join]

/-- A library that knows UTF-8 as Latin-1, and the tokens of one page. -/
def exLib : Lib Str where
  word := fun _ => false
  decodeHeader := fun s => if s = c!"=?bad" then none else some s
  decode := fun cs _ b => if cs = c!"x-none" then .error .lookup else .ok b
  html := fun s =>
    if s = c!"V&#105;agra" then ([.data c!"V", .charref c!"105", .data c!"agra"], none)
    else if s = c!"<![x[" then ([], some .assertion)
    else ([.data s], none)
  oldHtml := false
  htmlCaught := fun e => e = .unicode

/-- The main part of a message with two parts, one of them HTML. -/
def exParts : List (Part Str) :=
  [⟨[(c!"Subject", c!"hello")], c!"multipart", c!"mixed", none, none⟩,
   ⟨[(c!"Content-Type", c!"text/plain")], c!"text", c!"plain", some c!"see\nhttp://a.b/", some c!"x-none"⟩,
   ⟨[], c!"text", c!"html", some c!"V&#105;agra", none⟩]

example : (parseContent exLib [c!"hello"] exParts).toOption.map (fun v => (v.text, v.rawText, v.uris, v.missingBoundary)) =
    some (c!"hello see http://a.b/ V agra", c!"see\nhttp://a.b/\nV&#105;agra", [c!"http://a.b/"], true) := by
  decide +kernel

example : (parseContent exLib [c!"=?bad"] exParts).toOption.isSome = false := by decide +kernel

example : (parseContent exLib [] [⟨[], c!"text", c!"html", some c!"<![x[", none⟩]).toOption.isSome = false := by
  decide +kernel

/-! ## Links -/

theorem isGuts_iff (c : Char) : isGuts c = true ↔ LinkChar c := by
  unfold isGuts LinkChar EndsLink
  simp [List.contains_iff_mem]
  cases isSpace c <;> simp
  intros; omega

theorem takeWhile_guts_append {a : Str} (b : Str) (h : ∀ c ∈ a, isGuts c = true) :
    (a ++ b).takeWhile isGuts = a ++ b.takeWhile isGuts := by
  induction a with
  | nil => rfl
  | cons c cs ih =>
    rw [List.cons_append, List.takeWhile_cons_of_pos (h c (by simp)), List.cons_append,
      ih (fun x hx => h x (by simp [hx]))]

theorem takeWhile_guts_stop {a b : Str} (h : b = [] ∨ ∃ c cs, b = c :: cs ∧ isGuts c = false) :
    (b).takeWhile isGuts = [] := by
  rcases h with rfl | ⟨c, cs, rfl, hc⟩
  · rfl
  · rw [List.takeWhile_cons_of_neg (by simp [hc])]

theorem protocol_guts {p : Str} (hp : p ∈ protocols) : ∀ c ∈ p, isGuts c = true := by
  have : ∀ q ∈ protocols, ∀ c ∈ q, isGuts c = true := by decide
  exact this p hp

theorem startsWith_iff (p s : Str) : startsWith p s = true ↔ ∃ r, s = p ++ r := by
  unfold startsWith
  rw [List.isPrefixOf_iff_prefix]
  constructor
  · rintro ⟨r, h⟩; exact ⟨r, h.symm⟩
  · rintro ⟨r, h⟩; exact ⟨r, h.symm⟩

theorem takeWhile_mem {p : Char → Bool} {s : Str} {c : Char} (h : c ∈ s.takeWhile p) : p c = true := by
  induction s with
  | nil => simp at h
  | cons a as ih =>
    by_cases ha : p a = true
    · rw [List.takeWhile_cons_of_pos ha] at h
      rcases List.mem_cons.1 h with rfl | h
      · exact ha
      · exact ih h
    · rw [List.takeWhile_cons_of_neg ha] at h; simp at h

theorem bareHost_iff (p s : Str) : bareHost p s = true ↔ ∃ c r, s = p ++ c :: r ∧ isGuts c = true ∧ c ≠ '.' := by
  unfold bareHost
  rw [Bool.and_eq_true, startsWith_iff]
  constructor
  · rintro ⟨⟨r, rfl⟩, h⟩
    rw [List.drop_left] at h
    cases r with
    | nil => simp at h
    | cons c r => exact ⟨c, r, rfl, by simpa using h⟩
  · rintro ⟨c, r, rfl, h⟩
    exact ⟨⟨c :: r, rfl⟩, by rw [List.drop_left]; simpa using h⟩

/-- A link that is found is the longest run of link characters, and has the form of a link. -/
theorem urlLen_link {s : Str} (h : urlLen s ≠ 0) :
    urlLen s = (s.takeWhile isGuts).length ∧ IsLink (s.takeWhile isGuts) := by
  have hg : ∀ c ∈ s.takeWhile isGuts, LinkChar c := fun c hc => (isGuts_iff c).1 (takeWhile_mem hc)
  unfold urlLen at h ⊢
  cases hf : protocols.find? (fun p => startsWith p s) with
  | some p =>
    have hp := List.mem_of_find?_eq_some hf
    have hs := List.find?_some hf
    obtain ⟨r, rfl⟩ := (startsWith_iff _ _).1 hs
    simp only [hf, List.drop_left] at h ⊢
    rw [takeWhile_guts_append _ (protocol_guts hp)] at hg ⊢
    by_cases he : r.takeWhile isGuts = []
    · simp [he] at h
    · rw [if_neg he]
      exact ⟨by simp, hg, Or.inl ⟨p, hp, _, he, rfl⟩⟩
  | none =>
    simp only [hf] at h ⊢
    split
    · rename_i hb
      refine ⟨rfl, hg, Or.inr ?_⟩
      rcases Bool.or_eq_true_iff.1 hb with hb | hb
      · obtain ⟨c, r, rfl, hc, hd⟩ := (bareHost_iff _ _).1 hb
        refine ⟨c!"ftp.", by simp, c, r.takeWhile isGuts, hd, ?_⟩
        rw [takeWhile_guts_append _ (by decide), List.takeWhile_cons_of_pos hc]
      · obtain ⟨c, r, rfl, hc, hd⟩ := (bareHost_iff _ _).1 hb
        refine ⟨c!"www.", by simp, c, r.takeWhile isGuts, hd, ?_⟩
        rw [takeWhile_guts_append _ (by decide), List.takeWhile_cons_of_pos hc]
    · rename_i hb; simp [hb] at h

/-- Where a link stands, it is found. -/
theorem urlLen_pos {u post : Str} (hu : IsLink u) : urlLen (u ++ post) ≠ 0 := by
  unfold urlLen
  obtain ⟨hg, ⟨p, hp, g, hne, rfl⟩ | ⟨p, hp, c, g, hc, rfl⟩⟩ := hu
  · cases hf : protocols.find? (fun q => startsWith q (p ++ g ++ post)) with
    | none =>
      have := List.find?_eq_none.1 hf p hp
      rw [startsWith_iff] at this
      exact absurd ⟨g ++ post, by simp⟩ this
    | some q =>
      have hq := List.mem_of_find?_eq_some hf
      have hs := List.find?_some hf
      obtain ⟨r, hr⟩ := (startsWith_iff _ _).1 hs
      have hpq : q = p := by
        have hq' : q ∈ [c!"http://", c!"https://", c!"ftp://"] := hq
        simp only [List.mem_cons, List.not_mem_nil, or_false] at hp hq'
        rcases hp with rfl | rfl | rfl <;> rcases hq' with rfl | rfl | rfl <;> first | rfl | simp at hr
      subst hpq
      simp only
      rw [List.append_assoc, List.drop_left]
      cases g with
      | nil => exact absurd rfl hne
      | cons a as =>
        have ha : isGuts a = true := (isGuts_iff a).2 (hg a (by simp))
        rw [List.cons_append, List.takeWhile_cons_of_pos ha]
        simp
  · have hcg : isGuts c = true := (isGuts_iff c).2 (hg c (by simp))
    have hb : (bareHost c!"ftp." (p ++ c :: g ++ post) || bareHost c!"www." (p ++ c :: g ++ post)) = true := by
      rw [Bool.or_eq_true, bareHost_iff, bareHost_iff]
      simp only [List.mem_cons, List.not_mem_nil, or_false] at hp
      rcases hp with rfl | rfl
      · exact Or.inr ⟨c, g ++ post, by simp, hcg, hc⟩
      · exact Or.inl ⟨c, g ++ post, by simp, hcg, hc⟩
    cases hf : protocols.find? (fun q => startsWith q (p ++ c :: g ++ post)) with
    | some q =>
      have hq := List.mem_of_find?_eq_some hf
      have hs := List.find?_some hf
      obtain ⟨r, hr⟩ := (startsWith_iff _ _).1 hs
      have hq' : q ∈ [c!"http://", c!"https://", c!"ftp://"] := hq
      simp only [List.mem_cons, List.not_mem_nil, or_false] at hp hq'
      rcases hp with rfl | rfl <;> rcases hq' with rfl | rfl | rfl <;> simp at hr
    | none =>
      simp only [hb, if_true]
      simp only [List.mem_cons, List.not_mem_nil, or_false] at hp
      rcases hp with rfl | rfl
      · rw [List.append_assoc, takeWhile_guts_append _ (by decide)]; simp
      · rw [List.append_assoc, takeWhile_guts_append _ (by decide)]; simp

theorem findUrls_sound (u : Char → Bool) : ∀ (s : Str) (k : Nat) (prev : Bool), ∀ l ∈ findUrls u k prev s,
    IsLink l ∧ l <:+: s
  | [], _, _, l, h => by simp [findUrls] at h
  | c :: cs, k + 1, _, l, h => by
    obtain ⟨h1, h2⟩ := findUrls_sound u cs _ _ l (by simpa [findUrls] using h)
    exact ⟨h1, h2.trans (List.suffix_cons c cs).isInfix⟩
  | c :: cs, 0, prev, l, h => by
    unfold findUrls at h
    split at h
    · rename_i hc
      have hn : urlLen (c :: cs) ≠ 0 := by
        rw [Bool.and_eq_true] at hc; simpa using hc.2
      rcases List.mem_cons.1 h with rfl | h
      · obtain ⟨h1, h2⟩ := urlLen_link hn
        have ht : (c :: cs).take (urlLen (c :: cs)) = (c :: cs).takeWhile isGuts := by
          rw [h1]
          exact List.prefix_iff_eq_take.1 (List.takeWhile_prefix _) |>.symm
        rw [ht]
        exact ⟨h2, (List.takeWhile_prefix _).isInfix⟩
      · obtain ⟨h1, h2⟩ := findUrls_sound u cs _ _ l h
        exact ⟨h1, h2.trans (List.suffix_cons c cs).isInfix⟩
    · obtain ⟨h1, h2⟩ := findUrls_sound u cs _ _ l h
      exact ⟨h1, h2.trans (List.suffix_cons c cs).isInfix⟩

theorem endsLink_not_guts {c : Char} (h : EndsLink c) : isGuts c = false := by
  cases hg : isGuts c
  · rfl
  · exact absurd h ((isGuts_iff c).1 hg).1

theorem endsLink_not_word {u : Char → Bool} (hu : ∀ c, isSpace c = true → u c = false) {c : Char}
    (h : EndsLink c) : isWord u c = false := by
  rcases h with h | rfl | rfl | rfl | rfl
  · have hw := hu c h
    unfold isWord
    rw [hw]
    simp only [Bool.and_false, Bool.or_false]
    unfold isSpace at h
    have hsp : ∀ n : Nat, c.toNat = n → (n < 48 ∨ 122 < n) → (c.isAlphanum || c == '_') = false := by
      intro n hn hr
      have h1 : c.isAlphanum = false := by
        unfold Char.isAlphanum Char.isAlpha Char.isUpper Char.isLower Char.isDigit
        have e : c.val.toNat = n := hn
        simp only [Bool.or_eq_false_iff, Bool.and_eq_false_iff, decide_eq_false_iff_not, ge_iff_le, UInt32.le_iff_toNat_le, e]
        have e1 : ('A'.val).toNat = 65 := rfl
        have e2 : ('Z'.val).toNat = 90 := rfl
        have e3 : ('a'.val).toNat = 97 := rfl
        have e4 : ('z'.val).toNat = 122 := rfl
        have e5 : ('0'.val).toNat = 48 := rfl
        have e6 : ('9'.val).toNat = 57 := rfl
        refine ⟨⟨?_, ?_⟩, ?_⟩ <;> omega
      have h2 : (c == '_') = false := by
        rw [beq_eq_false_iff_ne]
        rintro rfl
        have : ('_').toNat = 95 := rfl
        omega
      rw [h1, h2]; rfl
    simp only [Bool.or_eq_true, Bool.and_eq_true, decide_eq_true_eq, beq_iff_eq] at h
    exact hsp c.toNat rfl (by omega)
  all_goals simp [isWord]

theorem findUrls_complete (u : Char → Bool) (hu : ∀ c, isSpace c = true → u c = false) (l post : Str) (hl : IsLink l)
    (hpost : post.takeWhile isGuts = []) : ∀ (pre : Str) (k : Nat) (prev : Bool),
      k ≤ (pre.takeWhile isGuts).length → (pre = [] → prev = false) →
      (∀ c ∈ pre.getLast?, EndsLink c) → l ∈ findUrls u k prev (pre ++ (l ++ post))
  | [], k, prev, hk, hp, _ => by
    have hk : k = 0 := by simpa using hk
    subst hk
    have hn := urlLen_pos (post := post) hl
    obtain ⟨h1, -⟩ := urlLen_link hn
    have hlg : ∀ c ∈ l, isGuts c = true := fun c hc => (isGuts_iff c).2 (hl.1 c hc)
    have ht : (l ++ post).take (urlLen (l ++ post)) = l := by
      rw [h1, takeWhile_guts_append _ hlg, hpost]
      simp
    have hne : l ≠ [] := by
      rintro rfl
      rw [h1, takeWhile_guts_append _ hlg, hpost] at hn
      simp at hn
    cases l with
    | nil => exact absurd rfl hne
    | cons c cs =>
      rw [List.nil_append, List.cons_append, findUrls, hp rfl]
      rw [List.cons_append] at hn ht
      simp only [Bool.not_false, Bool.true_and, decide_eq_true_eq, hn, ne_eq, not_false_eq_true, if_true, ht]
      simp
  | c :: cs, k, prev, hk, _, hlast => by
    have hcs : cs = [] → EndsLink c := by
      rintro rfl; exact hlast c (by simp)
    have hlast' : ∀ d ∈ cs.getLast?, EndsLink d := by
      intro d hd
      cases cs with
      | nil => simp at hd
      | cons e es => exact hlast d (by simpa [List.getLast?_cons_cons] using hd)
    have tail0 : cs = [] → isWord u c = false := fun h => endsLink_not_word hu (hcs h)
    cases k with
    | succ k =>
      rw [List.cons_append, findUrls]
      have hg : isGuts c = true := by
        cases hg : isGuts c
        · rw [List.takeWhile_cons_of_neg (by simp [hg])] at hk; simp at hk
        · rfl
      rw [List.takeWhile_cons_of_pos hg] at hk
      exact findUrls_complete u hu l post hl hpost cs k _ (by simpa using hk) tail0 hlast'
    | zero =>
      rw [List.cons_append, findUrls]
      split
      · rename_i hc
        have hn : urlLen (c :: (cs ++ (l ++ post))) ≠ 0 := by
          rw [Bool.and_eq_true] at hc; simpa using hc.2
        obtain ⟨h1, -⟩ := urlLen_link hn
        apply List.mem_cons_of_mem
        have hg : isGuts c = true := by
          cases hg : isGuts c
          · rw [h1, List.takeWhile_cons_of_neg (by simp [hg])] at hn; simp at hn
          · rfl
        refine findUrls_complete u hu l post hl hpost cs _ _ ?_ tail0 hlast'
        rw [h1, List.takeWhile_cons_of_pos hg]
        simp only [List.length_cons, Nat.add_sub_cancel]
        have hstop : ∀ (a b : Str), (∃ d, d ∈ a ∧ isGuts d = false) → (a ++ b).takeWhile isGuts = a.takeWhile isGuts := by
          intro a b
          induction a with
          | nil => rintro ⟨d, hd, _⟩; simp at hd
          | cons x xs ih =>
            rintro ⟨d, hd, hdg⟩
            cases hx : isGuts x
            · rw [List.cons_append, List.takeWhile_cons_of_neg (by simp [hx]), List.takeWhile_cons_of_neg (by simp [hx])]
            · rw [List.cons_append, List.takeWhile_cons_of_pos hx, List.takeWhile_cons_of_pos hx, ih]
              rcases List.mem_cons.1 hd with rfl | hd
              · rw [hx] at hdg; simp at hdg
              · exact ⟨d, hd, hdg⟩
        rw [hstop]
        · exact Nat.le_refl _
        · cases cs with
          | nil => exact absurd (endsLink_not_guts (hcs rfl)) (by simp [hg])
          | cons e es =>
            obtain ⟨d, hd⟩ : ∃ d, (e :: es).getLast? = some d := ⟨_, List.getLast?_eq_some_getLast (by simp)⟩
            exact ⟨d, List.mem_of_getLast? hd, endsLink_not_guts (hlast' d hd)⟩
      · exact findUrls_complete u hu l post hl hpost cs 0 _ (Nat.zero_le _) tail0 hlast'

/-- **C72** (partial).  Every URI that rules see is a link that stands in the text of a text part. -/
theorem C72_sound (L : Lib β) (subjects : List Str) (parts : List (Part β)) (v : View β)
    (h : parseContent L subjects parts = .ok v) (l : Str) (hl : l ∈ v.uris) :
    IsLink l ∧ ∃ p ∈ parts, ∃ s, partText L p = some s ∧ l <:+: s := by
  obtain ⟨c, hc, -, -, hu, -⟩ := parseContent_adds h
  rw [hu, hc.uris] at hl
  simp only [List.nil_append, List.mem_flatMap, List.mem_filterMap] at hl
  obtain ⟨s, ⟨p, hp, hs⟩, hl⟩ := hl
  obtain ⟨h1, h2⟩ := findUrls_sound _ _ _ _ _ hl
  exact ⟨h1, p, hp, s, hs, h2⟩

/-- **C72** (partial).  A link in the text of a text part is among the URIs that rules see, if the text
begins with it or it follows white space, a quote or an angle bracket, and if the text ends with it or a
character follows that cannot be part of a link. -/
theorem C72_complete_partial (L : Lib β) (hw : ∀ c, isSpace c = true → L.word c = false) (subjects : List Str)
    (parts : List (Part β)) (v : View β) (h : parseContent L subjects parts = .ok v) (p : Part β) (hp : p ∈ parts)
    (pre l post : Str) (hs : partText L p = some (pre ++ l ++ post)) (hl : IsLink l)
    (hpre : pre = [] ∨ ∃ a c, pre = a ++ [c] ∧ EndsLink c)
    (hpost : post = [] ∨ ∃ c b, post = c :: b ∧ ¬ LinkChar c) : l ∈ v.uris := by
  obtain ⟨c, hc, -, -, hu, -⟩ := parseContent_adds h
  rw [hu, hc.uris]
  simp only [List.nil_append, List.mem_flatMap, List.mem_filterMap]
  refine ⟨_, ⟨p, hp, hs⟩, ?_⟩
  rw [List.append_assoc]
  refine findUrls_complete _ hw l post hl ?_ pre 0 false (Nat.zero_le _) (fun _ => rfl) ?_
  · refine takeWhile_guts_stop (a := []) ?_
    rcases hpost with h | ⟨c, b, rfl, hc⟩
    · exact Or.inl h
    · refine Or.inr ⟨c, b, rfl, ?_⟩
      cases hg : isGuts c
      · rfl
      · exact absurd ((isGuts_iff c).1 hg) hc
  · intro d hd
    rcases hpre with rfl | ⟨a, c, rfl, hc⟩
    · simp at hd
    · simp at hd; exact hd ▸ hc

/-- **C72** is violated: protocols are not recognised in another case.  A text without the letters `h`, `f`
and `w` in lower case has no links, even if it is `HTTP://EXAMPLE.COM/`. -/
theorem C72_case_violated (L : Lib β) (subjects : List Str) (parts : List (Part β)) (v : View β)
    (h : parseContent L subjects parts = .ok v)
    (hp : ∀ p ∈ parts, ∀ s, partText L p = some s → 'h' ∉ s ∧ 'f' ∉ s ∧ 'w' ∉ s) : v.uris = [] := by
  cases hv : v.uris with
  | nil => rfl
  | cons l ls =>
    obtain ⟨h1, p, hpp, s, hs, h2⟩ := C72_sound L subjects parts v h l (by rw [hv]; simp)
    obtain ⟨n1, n2, n3⟩ := hp p hpp s hs
    obtain ⟨-, ⟨q, hq, g, -, rfl⟩ | ⟨q, hq, c, g, -, rfl⟩⟩ := h1
    · simp only [List.mem_cons, List.not_mem_nil, or_false] at hq
      rcases hq with rfl | rfl | rfl
      · exact absurd (h2.subset (by simp)) n1
      · exact absurd (h2.subset (by simp)) n1
      · exact absurd (h2.subset (by simp)) n2
    · simp only [List.mem_cons, List.not_mem_nil, or_false] at hq
      rcases hq with rfl | rfl
      · exact absurd (h2.subset (by simp)) n3
      · exact absurd (h2.subset (by simp)) n2

/-- **C72** is violated: a link ends at the first letter with an accent, so that a rule is shown
`http://caf` for the link `http://café.example/`. -/
theorem C72_accent_violated (L : Lib β) (hw : ∀ c, isSpace c = true → L.word c = false) (subjects : List Str)
    (parts : List (Part β)) (v : View β) (h : parseContent L subjects parts = .ok v) (p : Part β) (hp : p ∈ parts)
    (g rest : Str) (c : Char) (hg : g ≠ []) (hgc : ∀ x ∈ g, LinkChar x) (hc : 0x7f ≤ c.toNat ∧ c.toNat ≤ 0xff)
    (hs : partText L p = some (c!"http://" ++ g ++ c :: rest)) :
    c!"http://" ++ g ∈ v.uris ∧ c!"http://" ++ g ++ c :: rest ∉ v.uris := by
  have hlink : IsLink (c!"http://" ++ g) := by
    refine ⟨?_, Or.inl ⟨c!"http://", by simp, g, hg, rfl⟩⟩
    intro x hx
    rcases List.mem_append.1 hx with hx | hx
    · exact (isGuts_iff x).1 (protocol_guts (p := c!"http://") (by decide) x hx)
    · exact hgc x hx
  refine ⟨C72_complete_partial L hw subjects parts v h p hp [] _ (c :: rest) (by simpa using hs) hlink (Or.inl rfl)
    (Or.inr ⟨c, rest, rfl, fun hl => hl.2 hc⟩), fun hm => ?_⟩
  have := (C72_sound L subjects parts v h _ hm).1.1 c (by simp)
  exact this.2 hc

example : IsLink c!"http://a.b/" := by
  refine ⟨fun c hc => (isGuts_iff c).1 ?_, Or.inl ⟨c!"http://", by simp, c!"a.b/", by simp, rfl⟩⟩
  revert c; decide

example : findUrls (fun _ => true) 0 false c!"<a href=\"http://a.b/c?d\">HTTP://X.Y www.x.y ftp.z, xhttp://q" =
    [c!"http://a.b/c?d", c!"www.x.y", c!"ftp.z,"] := by decide +kernel

example : findUrls (fun _ => true) 0 false c!"http://café.example/" = [c!"http://caf"] := by decide +kernel

/-! ## Identifier -/

theorem replace_char_nil (a : Char) (s : Str) : replace [a] [] s = s.filter (fun c => c ≠ a) := by
  induction s with
  | nil => rfl
  | cons c cs ih =>
    rw [replace_cons _ _ (by simp)]
    by_cases h : c = a
    · subst h; simp [List.isPrefixOf, ih]
    · simp [List.isPrefixOf, h, ih, Ne.symm h]

theorem keepBody_eq (b : Str) : keepBody b = idPart b := by
  unfold keepBody idPart
  by_cases h : b.length ≤ 64
  · rw [if_neg (by omega), if_pos h]
  · rw [if_pos (by omega), if_neg h]
    congr 1
    split <;> omega

theorem unbroken_eq (b : Str) : replace c!"\r" [] (replace c!"\n" [] b) = unbroken b := by
  rw [replace_char_nil, replace_char_nil, List.filter_filter]
  unfold unbroken
  congr 1
  funext c
  by_cases h1 : c = '\n' <;> by_cases h2 : c = '\r' <;> simp [h1, h2]

theorem restOfLine_iff (s : Str) : restOfLine s = true ↔ ∃ t, '\n' ∉ t ∧ (s = t ∨ s = t ++ c!"\n") := by
  unfold restOfLine
  simp only [Bool.or_eq_true, Bool.not_eq_true', Bool.and_eq_true, beq_iff_eq]
  have hc : ∀ l : Str, l.contains '\n' = false ↔ '\n' ∉ l := by
    intro l; simp
  rw [hc, hc]
  constructor
  · rintro (h | ⟨h1, h2⟩)
    · exact ⟨s, h, Or.inl rfl⟩
    · refine ⟨s.dropLast, h2, Or.inr ?_⟩
      obtain ⟨ys, hy⟩ := List.getLast?_eq_some_iff.1 h1
      rw [hy]; simp
  · rintro ⟨t, h, rfl | rfl⟩
    · exact Or.inl h
    · refine Or.inr ⟨by simp, by simpa using h⟩

theorem emptyId_iff (i : Str) : emptyId i = true ↔ BlankId i := by
  have hsplit : ∀ s : Str, ∃ l r, s = l ++ r ∧ (∀ c ∈ l, isSpace c = true) ∧ lstripBy isSpace s = r :=
    fun s => ⟨s.takeWhile isSpace, s.dropWhile isSpace, (List.takeWhile_append_dropWhile).symm,
      fun c hc => takeWhile_mem hc, rfl⟩
  constructor
  · intro h
    unfold emptyId at h
    obtain ⟨lead, r, rfl, hl, he⟩ := hsplit i
    rw [he] at h
    split at h
    · rename_i t
      obtain ⟨space, r2, rfl, hs, he2⟩ := hsplit t
      simp only [he2] at h
      by_cases hg : startsWith c!"@sa_generated" r2 = true
      · obtain ⟨r3, rfl⟩ := (startsWith_iff _ _).1 hg
        rw [if_pos hg] at h
        have hd : List.drop 13 (c!"@sa_generated" ++ r3) = r3 := rfl
        rw [hd] at h
        split at h
        · rename_i tail
          exact ⟨lead, space, c!"@sa_generated", tail, hl, hs, Or.inr rfl, (restOfLine_iff _).1 h, by simp⟩
        · exact absurd h (by simp)
      · rw [if_neg hg] at h
        split at h
        · rename_i tail
          exact ⟨lead, space, [], tail, hl, hs, Or.inl rfl, (restOfLine_iff _).1 h, by simp⟩
        · exact absurd h (by simp)
    · exact absurd h (by simp)
  · rintro ⟨lead, space, mid, tail, hl, hs, hm, ht, rfl⟩
    unfold emptyId lstripBy
    have e1 : lead ++ c!"<" ++ space ++ mid ++ c!">" ++ tail = lead ++ ('<' :: (space ++ (mid ++ '>' :: tail))) := by simp
    rw [e1, dropWhile_all _ hl, dropWhile_head _ (by decide)]
    simp only
    rw [dropWhile_all _ hs]
    rcases hm with rfl | rfl
    · rw [List.nil_append, dropWhile_head _ (by decide)]
      have : startsWith c!"@sa_generated" ('>' :: tail) = false := by simp [startsWith, List.isPrefixOf]
      simp only [this, Bool.false_eq_true, if_false]
      exact (restOfLine_iff _).2 ht
    · have h1 : (c!"@sa_generated" ++ '>' :: tail).dropWhile isSpace = c!"@sa_generated" ++ '>' :: tail :=
        dropWhile_head _ (by decide)
      have h2 : startsWith c!"@sa_generated" (c!"@sa_generated" ++ '>' :: tail) = true := (startsWith_iff _ _).2 ⟨_, rfl⟩
      have h3 : (c!"@sa_generated" ++ '>' :: tail).drop 13 = '>' :: tail := rfl
      rw [h1]
      simp only [h2, if_true, h3]
      exact (restOfLine_iff _).2 ht

theorem msgId_generated (sha : Str → Str) {m : IdInput} (hn : noId m) {hd body : Str}
    (hb : split1 c!"\n\n" m.text = some (hd, body)) :
    msgId sha m = some (sha ((match m.date with
      | some d => if d = [] then c!"None" else d
      | none => c!"None") ++ Char.ofNat 0 :: unbroken (idPart body)) ++ c!"@sa_generated") := by
  have hg : ∀ b : Str, replace c!"\r" [] (replace c!"\n" [] (keepBody b)) = unbroken (idPart b) := fun b => by
    rw [keepBody_eq, unbroken_eq]
  unfold msgId
  rw [hb]
  simp only [hg]
  cases hm : m.messageId with
  | none => rfl
  | some i =>
    have := hn i hm
    have hc : ¬ (i ≠ [] ∧ emptyId i = false) := by
      rintro ⟨h1, h2⟩
      rcases this with h | h
      · exact h1 h
      · rw [(emptyId_iff i).2 h] at h2; simp at h2
    simp only
    rw [if_neg hc]
    rfl

/-- **C73** (partial).  A message with an identifier `<x>` has the identifier `x`, whatever white space
is around it. -/
theorem C73_own (sha : Str → Str) (m : IdInput) (lead trail x : Str) (hl : ∀ c ∈ lead, isSpace c = true)
    (ht : ∀ c ∈ trail, isSpace c = true) (h1 : ∃ c cs, x = c :: cs ∧ c ≠ '<' ∧ c ≠ '>' ∧ c ≠ '@' ∧ isSpace c = false)
    (h2 : ∃ cs c, x = cs ++ [c] ∧ c ≠ '<' ∧ c ≠ '>')
    (hm : m.messageId = some (lead ++ c!"<" ++ x ++ c!">" ++ trail)) : msgId sha m = some x := by
  obtain ⟨c, cs, hx, hc1, hc2, hc3, hc4⟩ := h1
  obtain ⟨ds, d, hx', hd1, hd2⟩ := h2
  have hne : lead ++ c!"<" ++ x ++ c!">" ++ trail ≠ [] := by simp
  have he : emptyId (lead ++ c!"<" ++ x ++ c!">" ++ trail) = false := by
    unfold emptyId lstripBy
    have : lead ++ c!"<" ++ x ++ c!">" ++ trail = lead ++ ('<' :: (x ++ c!">" ++ trail)) := by simp
    rw [this, dropWhile_all _ hl, dropWhile_head _ (by decide)]
    simp only
    have h3 : (x ++ c!">" ++ trail).dropWhile isSpace = x ++ c!">" ++ trail := by
      rw [hx]; exact dropWhile_head _ hc4
    rw [h3]
    have h4 : startsWith c!"@sa_generated" (x ++ c!">" ++ trail) = false := by
      rw [hx]; simp [startsWith, List.isPrefixOf, Ne.symm hc3]
    simp only [h4, Bool.false_eq_true, if_false]
    rw [hx]
    simp only [List.cons_append]
    split
    · rename_i heq; injection heq with h; exact absurd h hc2
    · rfl
  have hs : strip (lead ++ c!"<" ++ x ++ c!">" ++ trail) = c!"<" ++ x ++ c!">" := by
    have := strip_around (core := c!"<" ++ x ++ c!">") hl ht ⟨'<', x ++ c!">", by simp, by decide⟩
      ⟨c!"<" ++ x, '>', by simp, by decide⟩
    simpa [List.append_assoc] using this
  unfold msgId
  rw [hm]
  simp only
  rw [if_pos ⟨hne, he⟩, hs]
  congr 1
  have s1 : stripChars c!"<" (c!"<" ++ x ++ c!">") = x ++ c!">" := by
    unfold stripChars stripBy lstripBy
    rw [List.append_assoc, dropWhile_all _ (by decide), hx, List.cons_append, dropWhile_head _ (by simp [hc1])]
    rw [← List.cons_append, ← hx]
    exact rstripBy_last _ (by decide)
  rw [s1]
  unfold stripChars stripBy lstripBy
  rw [hx, List.cons_append, dropWhile_head _ (by simp [hc2]), ← List.cons_append, ← hx,
    rstripBy_all _ (by decide), hx']
  exact rstripBy_last _ (by simp [hd2])

/-- **C73** (partial).  Two messages without an identifier of their own, and with a body, get the same
one exactly if they have the same date and their bodies agree on the part used, line breaks aside.  This
supposes that the digest does not collide and that dates have no NUL character. -/
theorem C73_generated_partial (sha : Str → Str) (hsha : ∀ a b, sha a = sha b → a = b) (m n : IdInput) (d e : Str)
    (hm : noId m) (hn : noId n) (hmd : m.date = some d ∧ d ≠ [] ∧ Char.ofNat 0 ∉ d)
    (hnd : n.date = some e ∧ e ≠ [] ∧ Char.ofNat 0 ∉ e) (h1 b1 h2 b2 : Str)
    (hb1 : split1 c!"\n\n" m.text = some (h1, b1)) (hb2 : split1 c!"\n\n" n.text = some (h2, b2)) :
    (msgId sha m ≠ none) ∧
    (msgId sha m = msgId sha n ↔ d = e ∧ unbroken (idPart b1) = unbroken (idPart b2)) := by
  rw [msgId_generated sha hm hb1, msgId_generated sha hn hb2, hmd.1, hnd.1]
  simp only [hmd.2.1, hnd.2.1, if_false]
  refine ⟨by simp, ?_, ?_⟩
  · intro h
    injection h with h
    have h := hsha _ _ (List.append_cancel_right h)
    have key : ∀ (a b x y : Str) (z : Char), z ∉ a → z ∉ b → a ++ z :: x = b ++ z :: y → a = b ∧ x = y := by
      intro a
      induction a with
      | nil =>
        intro b x y z _ hb h
        cases b with
        | nil => simp at h; exact ⟨rfl, h⟩
        | cons c cs => simp at h; exact absurd h.1 (fun hc => hb (by simp [hc]))
      | cons c cs ih =>
        intro b x y z ha hb h
        cases b with
        | nil => simp at h; exact absurd h.1 (fun hc => ha (by simp [hc]))
        | cons f fs =>
          simp only [List.cons_append, List.cons.injEq] at h
          obtain ⟨h3, h4⟩ := ih fs x y z (fun hz => ha (by simp [hz])) (fun hz => hb (by simp [hz])) h.2
          exact ⟨by rw [h.1, h3], h4⟩
    exact key _ _ _ _ _ hmd.2.2 hnd.2.2 h
  · rintro ⟨rfl, h⟩
    rw [h]

/-- **C73** is violated: a message without an identifier and without an empty line in it has no
identifier; asking for it raises an exception. -/
theorem C73_missing_violated (sha : Str → Str) (m : IdInput) (hm : noId m) (hb : ¬ c!"\n\n" <:+: m.text) :
    msgId sha m = none := by
  have hs := (split1_none_iff c!"\n\n" m.text).2 hb
  unfold msgId
  rw [hs]
  cases hi : m.messageId with
  | none => rfl
  | some i =>
    have hc : ¬ (i ≠ [] ∧ emptyId i = false) := by
      rintro ⟨h1, h2⟩
      rcases hm i hi with h | h
      · exact h1 h
      · rw [(emptyId_iff i).2 h] at h2; simp at h2
    simp only
    rw [if_neg hc]

/-- **C73** is violated: an identifier can be chosen by the sender so that the message passes for another
one that has none. -/
theorem C73_chosen_violated (sha : Str → Str) (m n : IdInput) (x : Str) (hn : msgId sha n = some x)
    (h1 : ∃ c cs, x = c :: cs ∧ c ≠ '<' ∧ c ≠ '>' ∧ c ≠ '@' ∧ isSpace c = false)
    (h2 : ∃ cs c, x = cs ++ [c] ∧ c ≠ '<' ∧ c ≠ '>') (hm : m.messageId = some (c!"<" ++ x ++ c!">")) :
    msgId sha m = msgId sha n := by
  rw [hn]
  exact C73_own sha m [] [] x (by simp) (by simp) h1 h2 (by simpa using hm)

example : msgId (fun _ => c!"ab12") ⟨some c!" <x@y> ", none, c!"\n\n"⟩ = some c!"x@y" := by decide +kernel
example : msgId (fun s => s) ⟨some c!"< >", some c!"Mon", c!"A: b\n\nhi\nyou"⟩ =
    some (c!"Mon" ++ Char.ofNat 0 :: c!"hiyou@sa_generated") := by decide +kernel
example : noId ⟨some c!"<@sa_generated>", none, []⟩ := by
  intro i hi
  injection hi with hi
  subst hi
  exact Or.inr ((emptyId_iff _).1 (by decide))
example : msgId (fun s => s) ⟨none, none, c!"\nhello"⟩ = none := by decide +kernel

/-! ## Date -/

/-- **C74** (partial).  The date is read from the first `Received` header with a semicolon, behind its
last one; without such a header it is the current time. -/
theorem C74_first_partial (parse : Str → Option Int) (now : Int) (hs : List Str) :
    receiveDate parse now hs =
      match hs.find? (fun h => h.contains ';') with
      | none => .ok now
      | some h => match parse ((h.reverse.takeWhile (· ≠ ';')).reverse) with
        | some t => .ok t
        | none => .error .type := by
  have key : ∀ h : Str, rsplit1 ';' h = if h.contains ';' then
      some (((h.reverse.dropWhile (· ≠ ';')).drop 1).reverse, (h.reverse.takeWhile (· ≠ ';')).reverse) else none := by
    intro h
    have k2 : ∀ s : Str, split1 [';'] s = if s.contains ';' then
        some (s.takeWhile (· ≠ ';'), (s.dropWhile (· ≠ ';')).drop 1) else none := by
      intro s
      induction s with
      | nil => rfl
      | cons c cs ih =>
        by_cases hc : c = ';'
        · subst hc; simp [split1, List.isPrefixOf]
        · simp only [split1, List.isPrefixOf, ih]
          have : (';' == c) = false := by simp [Ne.symm hc]
          simp only [this, Bool.false_and, Bool.false_eq_true, if_false, List.contains_cons]
          by_cases hm : cs.contains ';' = true
          · have hm : ';' ∈ cs := by simpa using hm
            simp [hm, hc]
          · have hm : ';' ∉ cs := by simpa using hm
            simp [hm, Ne.symm hc]
    unfold rsplit1
    rw [k2]
    have : h.reverse.contains ';' = h.contains ';' := by simp [List.contains_eq_mem]
    rw [this]
    by_cases hc : h.contains ';' = true
    · simp only [hc, if_true]
    · have hc : h.contains ';' = false := by simpa using hc
      simp only [hc, Bool.false_eq_true, if_false]
  induction hs with
  | nil => rfl
  | cons h hs ih =>
    unfold receiveDate
    rw [key]
    by_cases hc : h.contains ';' = true
    · simp only [hc, if_true, List.find?_cons]
      rfl
    · have hc : h.contains ';' = false := by simpa using hc
      simp only [hc, Bool.false_eq_true, if_false, List.find?_cons]
      exact ih

/-- **C74** is violated: if the first `Received` header with a semicolon ends with something that is no
date, the date cannot be read at all, even if the headers below have one. -/
theorem C74_bad_date_violated (parse : Str → Option Int) (now : Int) (before after : List Str) (a b : Str)
    (hb : ∀ h ∈ before, ';' ∉ h) (hn : ';' ∉ b) (hp : parse b = none) :
    receiveDate parse now (before ++ (a ++ ';' :: b) :: after) = .error .type := by
  rw [C74_first_partial]
  have hf : (before ++ (a ++ ';' :: b) :: after).find? (fun h => h.contains ';') = some (a ++ ';' :: b) := by
    rw [List.find?_append]
    have : before.find? (fun h => h.contains ';') = none := by
      rw [List.find?_eq_none]; intro h hh; simpa using hb h hh
    rw [this]
    simp
  rw [hf]
  have hr : ((a ++ ';' :: b).reverse.takeWhile (· ≠ ';')).reverse = b := by
    have : (a ++ ';' :: b).reverse = b.reverse ++ ';' :: a.reverse := by simp
    rw [this]
    have h2 : (b.reverse ++ ';' :: a.reverse).takeWhile (· ≠ ';') = b.reverse := by
      have h3 : ∀ (x y : Str), ';' ∉ x → (x ++ ';' :: y).takeWhile (· ≠ ';') = x := by
        intro x
        induction x with
        | nil => intro y _; simp
        | cons c cs ih =>
          intro y hx
          simp only [List.mem_cons, not_or] at hx
          rw [List.cons_append, List.takeWhile_cons_of_pos (by simpa using Ne.symm hx.1), ih y hx.2]
      exact h3 _ _ (by simpa using hn)
    rw [h2, List.reverse_reverse]
  simp only [hr, hp]

example : receiveDate (fun s => if s = c!" Mon" then some 7 else none) 9 [c!"from a", c!"by b; x; Mon"] = .ok 7 := by
  decide +kernel
example : receiveDate (fun s => if s = c!" Mon" then some 7 else none) 9 [c!"from a; never", c!"by b; x; Mon"] =
    .error .type := by decide +kernel

end Verif.Props
