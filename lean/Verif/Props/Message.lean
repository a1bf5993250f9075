import Verif.Lemmas.Headers

/-!
# C34 line breaks, C35 header access, C36 author and recipient addresses
-/

namespace Verif.Props
open Verif Py Mail Spec

/-- **C34**.  The normalised text contains no carriage return. -/
theorem C34_no_cr (s : Str) : '\r' ∉ translateLineBreaks s := by
  rw [translate_norm]
  induction s using normEol.induct with
  | case1 => simp [normEol]
  | case2 cs ih => rw [normEol]; simp [ih]
  | case3 cs hne ih => rw [normEol]; simp [ih]; exact hne
  | case4 c cs h1 h2 ih =>
    rw [normEol]
    · simp only [List.mem_cons, not_or]; exact ⟨fun e => h2 e.symm, ih⟩
    · exact h1
    · exact h2

theorem norm_id (s : Str) (h : '\r' ∉ s) : normEol s = s := by
  induction s with
  | nil => rfl
  | cons c cs ih =>
    simp only [List.mem_cons, not_or] at h
    rw [normEol, ih h.2]
    · intro cs' e; exact absurd e.symm h.1
    · intro e; exact absurd e.symm h.1

/-- **C34**.  Normalising twice changes nothing; a text without carriage returns is unchanged. -/
theorem C34_idempotent (s : Str) :
    translateLineBreaks (translateLineBreaks s) = translateLineBreaks s ∧
    ('\r' ∉ s → translateLineBreaks s = s) := by
  have h2 : ∀ s, '\r' ∉ s → translateLineBreaks s = s := by
    intro s h; rw [translate_norm, norm_id s h]
  exact ⟨h2 _ (C34_no_cr s), h2 s⟩

theorem norm_pass (l s : Str) (h : '\r' ∉ l) : normEol (l ++ s) = l ++ normEol s := by
  induction l with
  | nil => rfl
  | cons c cs ih =>
    simp only [List.mem_cons, not_or] at h
    rw [List.cons_append, normEol, ih h.2, List.cons_append]
    · intro cs' e; exact absurd e.symm h.1
    · intro e; exact absurd e.symm h.1

/-- **C34**.  Whatever mixture of line break styles a text uses, it normalises to the same lines
separated by `\n`. -/
theorem C34_styles (ls : List (Str × Eol)) (rest : Str) (h : Unambiguous ls rest) :
    translateLineBreaks (renderLines ls rest) =
      renderLines (ls.map (fun p => (p.1, Eol.lf))) rest := by
  rw [translate_norm]
  induction ls with
  | nil => exact norm_id _ h.1
  | cons p ls ih =>
    obtain ⟨l, e⟩ := p
    obtain ⟨h1, _, h3, h4⟩ := h
    have ih := ih h4
    simp only [renderLines, List.map_cons, List.append_assoc]
    rw [norm_pass _ _ h1]
    congr 1
    cases e with
    | lf =>
      show normEol ('\n' :: renderLines ls rest) = '\n' :: renderLines _ rest
      rw [normEol, ih]
      · intro cs e; simp at e
      · intro e; simp at e
    | crlf =>
      show normEol ('\r' :: '\n' :: renderLines ls rest) = '\n' :: renderLines _ rest
      rw [normEol, ih]
    | cr =>
      show normEol ('\r' :: renderLines ls rest) = '\n' :: renderLines _ rest
      rw [normEol, ih]
      intro cs hcs
      cases ls with
      | nil =>
        simp only [renderLines] at hcs
        exact h4.2 (by rw [hcs]; simp)
      | cons q qs =>
        obtain ⟨l', e'⟩ := q
        simp only [renderLines] at hcs
        cases l' with
        | nil =>
          cases e' with
          | lf => exact h3 rfl qs rfl
          | crlf => simp [Eol.text] at hcs
          | cr => simp [Eol.text] at hcs
        | cons x xs =>
          simp only [List.cons_append, List.cons.injEq] at hcs
          exact h4.2.1 (by simp [hcs.1])

example : Unambiguous [(c!"a", .crlf), ([], .cr), (c!"b", .cr), ([], .crlf)] c!"c" ∧
    translateLineBreaks c!"a\r\n\rb\r\r\nc" = c!"a\n\nb\n\nc" := by
  refine ⟨?_, by decide⟩
  simp [Unambiguous]

/-! ## C35 -/

/-- A library that decodes every header to itself and reads a value as one address. -/
def plainMail (lazy : Bool) : MailLib where
  decode := fun v => some v
  addresses := fun v => v.map (fun t => [([], t)])
  lazy := lazy

/-- **C35**.  However the message was accessed before, the raw header accessor returns the values
of all headers with that name, ignoring case, in message order, and nothing else. -/
theorem C35_raw (L : MailLib) (hs mhs : List (Str × Str)) (ops : List Access) (n : Str) :
    getRaw (accessed L hs mhs ops) n = rawValues hs n ∧
    getRawMime (accessed L hs mhs ops) n = rawValues mhs n := by
  have g := accessed_good L hs mhs ops
  refine ⟨getRaw_eq g.raw n, ?_⟩
  unfold getRawMime
  rw [g.rawMime, collect_find]
  split <;> simp_all

/-- **C35**.  A header is present exactly if some header of the message has its name, ignoring
case. -/
theorem C35_presence (L : MailLib) (hs mhs : List (Str × Str)) (ops : List Access) (n : Str) :
    (accessed L hs mhs ops).raw.mem n = true ↔ ∃ p ∈ hs, lower p.1 = lower n := by
  have g := accessed_good L hs mhs ops
  unfold Headers.mem Dict.has
  rw [g.raw]
  have := collect_find hs n
  unfold Headers.find at this
  rw [this]
  by_cases h : rawValues hs n = []
  · simp only [h, if_true, Option.isSome_none, Bool.false_eq_true, false_iff]
    rintro ⟨p, hp, e⟩
    have : p.2 ∈ rawValues hs n := by
      unfold rawValues
      exact List.mem_map_of_mem (List.mem_filter.2 ⟨hp, by simpa using e⟩)
    rw [h] at this; cases this
  · simp only [h, if_false, Option.isSome_some, true_iff]
    obtain ⟨v, hv⟩ := List.exists_mem_of_ne_nil _ h
    obtain ⟨p, hp, _, e⟩ := rawValues_mem hv
    exact ⟨p, hp, e⟩

/-- **C35**.  However the message was accessed before, and with or without caching, the decoding
accessors return the decoded values of all headers with that name, in message order. -/
theorem C35_decoded (L : MailLib) (hs mhs : List (Str × Str)) (ops : List Access) (n : Str) :
    (getDecoded L n (accessed L hs mhs ops)).1 = (rawValues hs n).map L.decode ∧
    (getMime L n (accessed L hs mhs ops)).1 = (rawValues mhs n).map L.decode := by
  have g := accessed_good L hs mhs ops
  exact ⟨(getDecoded_good g n).1, (getMime_good g n).1⟩

/-- **C35**.  The address (and name) accessors return, of every header with that name, the first
address (name) that is not empty. -/
theorem C35_first_address {L : MailLib} {hs : List (Str × Str)} {dec : Str → Str}
    {A : Str → List (Str × Str)} (r : Reads L hs dec A) (mhs : List (Str × Str)) (ops : List Access)
    (n : Str) :
    (getAddr L n (accessed L hs mhs ops)).1 = some (viewTexts dec A hs n .addr) ∧
    (getName L n (accessed L hs mhs ops)).1 = some (viewTexts dec A hs n .name) := by
  have g := accessed_good L hs mhs ops
  rw [(getAddr_good g n).1, (getName_good g n).1, decoded_reads r.decodes, firstOf_reads r.parses,
    firstOf_reads r.parses]
  simp [viewTexts, List.filterMap_map, Function.comp_def]

/-- **C35**.  Iterating over all headers yields every header once as `name: value`, with the name
in lower case, grouped by name in the order of first appearance. -/
theorem C35_all {L : MailLib} {hs : List (Str × Str)} {dec : Str → Str}
    (hd : ∀ p ∈ hs, L.decode p.2 = some (dec p.2)) (mhs : List (Str × Str)) (ops : List Access) :
    ∃ names : List Str, names.Nodup ∧
      (∀ n, n ∈ names ↔ ∃ p ∈ hs, lower p.1 = n) ∧
      (iterDecoded L (accessed L hs mhs ops)).1 =
        names.flatMap (fun n => (rawValues hs n).map (fun v => n ++ c!": " ++ dec v)) := by
  have g := accessed_good L hs mhs ops
  refine ⟨Dict.keys (accessed L hs mhs ops).raw, ?_, ?_, ?_⟩
  · rw [g.raw]
    unfold collect
    have gen : ∀ (hs : List (Str × Str)) (h : Headers Str), (Dict.keys h).Nodup →
        (Dict.keys (hs.foldl (fun (h : Headers Str) (p : Str × Str) => h.append p.1 p.2) h)).Nodup := by
      intro hs
      induction hs with
      | nil => intro h hn; exact hn
      | cons p ps ih => intro h hn; exact ih _ (Dict.nodup_set _ _ _ hn)
    exact gen hs [] (by simp [Dict.keys])
  · intro n
    rw [g.raw]
    unfold collect
    have gen : ∀ (hs : List (Str × Str)) (h : Headers Str),
        (n ∈ Dict.keys (hs.foldl (fun (h : Headers Str) (p : Str × Str) => h.append p.1 p.2) h)) ↔
          n ∈ Dict.keys h ∨ ∃ p ∈ hs, lower p.1 = n := by
      intro hs
      induction hs with
      | nil => intro h; simp
      | cons p ps ih =>
        intro h
        rw [List.foldl_cons, ih]
        have : n ∈ Dict.keys (Headers.append h p.1 p.2) ↔ n ∈ Dict.keys h ∨ lower p.1 = n := by
          unfold Headers.append Headers.put
          by_cases hm : lower p.1 ∈ Dict.keys h
          · rw [Dict.keys_set_of_mem _ _ hm]
            constructor
            · exact Or.inl
            · rintro (h | rfl)
              · exact h
              · exact hm
          · rw [Dict.keys_set_of_not_mem _ _ hm]
            simp [eq_comm]
        rw [this]
        simp only [List.mem_cons, exists_eq_or_imp, or_assoc]
    rw [gen]
    simp [Dict.keys]
  · unfold iterDecoded
    rw [(iterFrom_good g _).1]
    congr 1
    funext n
    rw [decoded_reads hd]
    simp

/-- The message used in the examples. -/
def demoHeaders : List (Str × Str) :=
  [(c!"Subject", c!"a"), (c!"To", c!"x"), (c!"SUBJECT", c!"b"), (c!"x-mailer", c!"m")]

example : Reads (plainMail false) demoHeaders id (fun t => [([], t)]) ∧
    (getDecoded (plainMail false) c!"subject" (accessed (plainMail false) demoHeaders []
      [.addr c!"To", .decoded c!"sUbject", .all])).1 = [some c!"a", some c!"b"] ∧
    (getAddr (plainMail true) c!"to" (accessed (plainMail true) demoHeaders [] [.addr c!"To"])).1 =
      some [c!"x"] ∧
    (iterDecoded (plainMail false) (accessed (plainMail false) demoHeaders [] [])).1 =
      [c!"subject: a", c!"subject: b", c!"to: x", c!"x-mailer: m"] :=
  ⟨⟨fun _ _ => rfl, fun _ => rfl⟩, by decide, by decide, by decide⟩

/-- The pseudo headers made from the headers named in `originating_ip_headers`. -/
def pseudoHeaders (L : MailLib) (hs : List (Str × Str)) (orig : List Str) : List (Option Str) :=
  orig.flatMap (fun o => (rawValues hs o).map
    (fun v => some (c!"X-ORIGINATING-IP: " ++ (L.decode v).getD c!"None")))

/-- **C35** (partial).  After `_parse_message` has looked for originating addresses, every header
except `Received` still reads as written.  `Received` reads as written if caching is off or none
of the configured `originating_ip_headers` occurs, and otherwise shows in addition the pseudo
headers made from them.  Missing: that `Received`, too, always reads as written, which is false
(`C35_received_violated`). -/
theorem C35_after_parsing_partial (L : MailLib) (hs mhs : List (Str × Str)) (orig : List Str)
    (ho : ∀ o ∈ orig, lower o ≠ c!"received") (n : Str) :
    (getDecoded L n (receivedHeaders L orig (Msg.ofHeaders hs mhs)).2).1 =
      (rawValues hs n).map L.decode ++
        (if L.lazy = false ∧ lower n = c!"received" then pseudoHeaders L hs orig else []) ∧
    (receivedHeaders L orig (Msg.ofHeaders hs mhs)).1 =
      (rawValues hs c!"Received").map L.decode ++ pseudoHeaders L hs orig := by
  have h0 := getDecoded_except (Readable.ofGood (Good.init L hs mhs)) c!"Received"
  have hcase : L.lazy = false → (getDecoded L c!"Received" (Msg.ofHeaders hs mhs)).2.headers.find c!"Received" =
      some (getDecoded L c!"Received" (Msg.ofHeaders hs mhs)).1 := by
    intro hl
    unfold getDecoded
    simp [hl, Msg.ofHeaders, Headers.find, Headers.put, Dict.get?_set]
  have hv := (getDecoded_good (Good.init L hs mhs) c!"Received").1
  unfold receivedHeaders
  have gen : ∀ (orig : List Str) (acc : List (Option Str) × Msg), (∀ o ∈ orig, lower o ≠ c!"received") →
      Readable L hs acc.2 → (L.lazy = false → acc.2.headers.find c!"Received" = some acc.1) →
      (orig.foldl (origStep L) acc).1 = acc.1 ++ pseudoHeaders L hs orig ∧
      Readable L hs (orig.foldl (origStep L) acc).2 ∧
      (L.lazy = false → (orig.foldl (origStep L) acc).2.headers.find c!"Received" =
        some (orig.foldl (origStep L) acc).1) := by
    intro orig
    induction orig with
    | nil => intro acc _ g hc; exact ⟨by simp [pseudoHeaders], g, hc⟩
    | cons o os ih =>
      intro acc ho g hc
      obtain ⟨h1, h2, h3⟩ := getDecoded_except g o
      have h1 := h1 (ho o (by simp))
      have e : pseudoHeaders L hs (o :: os) =
          (decodedValues L hs o).map (fun x => some (c!"X-ORIGINATING-IP: " ++ x.getD c!"None")) ++
            pseudoHeaders L hs os := by
        simp [pseudoHeaders, decodedValues, Function.comp_def]
      have e2 : (origStep L acc o).1 =
          acc.1 ++ (decodedValues L hs o).map (fun x => some (c!"X-ORIGINATING-IP: " ++ x.getD c!"None")) := by
        simp only [origStep, h1]
      rw [e, ← List.append_assoc, ← e2, List.foldl_cons]
      apply ih _ (fun o' ho' => ho o' (List.mem_cons_of_mem _ ho'))
      · unfold origStep
        by_cases hl : L.lazy = true
        · simp only [hl, if_true]; exact h2
        · simp only [hl, Bool.false_eq_true, if_false]
          exact Readable.put h2 _ (by simpa using hl)
      · intro hl
        simp only [origStep, hl, Bool.false_eq_true, if_false, find_put, if_true]
  obtain ⟨r1, r2, r3⟩ := gen orig _ ho h0.2.1 hcase
  refine ⟨?_, by rw [r1, hv]; rfl⟩
  generalize orig.foldl (origStep L) (getDecoded L c!"Received" (Msg.ofHeaders hs mhs)) = r at *
  by_cases hn : lower n = c!"received"
  · by_cases hl : L.lazy = true
    · have := (getDecoded_except r2 n).2.2 hl
      simp only [hl, Bool.true_eq_false, false_and, if_false, List.append_nil]
      exact this
    · have hl : L.lazy = false := by simpa using hl
      have := r3 hl
      have e : r.2.headers.find n = some r.1 := by
        rw [← this]; exact find_congr _ (by rw [hn]; decide)
      simp only [getDecoded, hl, e, hn, and_self, if_true, Bool.false_eq_true, if_false]
      rw [r1, hv, decodedValues_congr L hs (show lower c!"Received" = lower n by rw [hn]; decide)]
      rfl
  · simp only [hn, and_false, if_false, List.append_nil]
    exact (getDecoded_except r2 n).1 hn

example : (getDecoded (plainMail false) c!"to" (receivedHeaders (plainMail false) [c!"x-mailer"]
    (Msg.ofHeaders demoHeaders [])).2).1 = [some c!"x"] := by decide

/-- A message without any `Received` header, with `originating_ip_headers X-Orig`: after parsing,
the accessor for `Received` returns a value. -/
theorem C35_received_violated :
    rawValues [(c!"X-Orig", c!"1.2.3.4")] c!"Received" = [] ∧
    (getDecoded (plainMail false) c!"Received" (receivedHeaders (plainMail false) [c!"X-Orig"]
      (Msg.ofHeaders [(c!"X-Orig", c!"1.2.3.4")] [])).2).1 = [some c!"X-ORIGINATING-IP: 1.2.3.4"] := by
  decide

/-- What plugins have added under a name. -/
def addedUnder (added : List (Str × Str)) (n : Str) : List (Option Str) :=
  (added.filter (fun p => decide (lower p.1 = lower n))).map (fun p => some p.2)

theorem find_append (h : Headers V) (n n' : Str) (v : V) :
    (h.append n v).find n' = if lower n = lower n' then some ((h.find n).getD [] ++ [v]) else h.find n' := by
  unfold Headers.append
  rw [find_put]

theorem added_find (added : List (Str × Str)) (n : Str) (m : Msg) :
    let m' := added.foldl (fun m p => pluginHeader p.1 p.2 m) m
    m'.raw = m.raw ∧
    m'.headers.find n = if addedUnder added n = [] then m.headers.find n else some ((m.headers.find n).getD [] ++ addedUnder added n) := by
  induction added generalizing m with
  | nil => simp [addedUnder]
  | cons p ps ih =>
    intro m'
    obtain ⟨h1, h2⟩ := ih (pluginHeader p.1 p.2 m)
    refine ⟨h1, ?_⟩
    show (ps.foldl (fun m p => pluginHeader p.1 p.2 m) (pluginHeader p.1 p.2 m)).headers.find n = _
    rw [h2]
    by_cases he : lower p.1 = lower n
    · have e : addedUnder (p :: ps) n = some p.2 :: addedUnder ps n := by simp [addedUnder, he]
      have e2 : (pluginHeader p.1 p.2 m).headers.find n = some ((m.headers.find n).getD [] ++ [some p.2]) := by
        simp only [pluginHeader, find_append, he, if_true]
        rw [find_congr _ he]
      rw [e, e2]
      by_cases hn : addedUnder ps n = [] <;> simp [hn]
    · have e : addedUnder (p :: ps) n = addedUnder ps n := by simp [addedUnder, he]
      have e2 : (pluginHeader p.1 p.2 m).headers.find n = m.headers.find n := by
        simp only [pluginHeader, find_append, he, if_false]
      rw [e, e2]

theorem decoded_keeps (L : MailLib) (n k : Str) (m : Msg) (h : (m.headers.find k).isSome) :
    ((getDecoded L n m).2.headers.find k).isSome := by
  unfold getDecoded
  simp only []
  split
  · exact h
  · split
    · exact h
    · simp only [find_put]
      split
      · rfl
      · exact h

theorem iter_keeps (L : MailLib) (k : Str) (ns : List Str) (m : Msg) (h : (m.headers.find k).isSome) :
    ((iterFrom L ns m).2.headers.find k).isSome := by
  induction ns generalizing m with
  | nil => exact h
  | cons n ns ih => exact ih _ (decoded_keeps L n k m h)

theorem access_keeps (L : MailLib) (k : Str) (a : Access) (m : Msg) (h : (m.headers.find k).isSome) :
    ((a.run L m).headers.find k).isSome := by
  cases a with
  | decoded n => exact decoded_keeps L n k m h
  | addr n =>
    have := decoded_keeps L n k m h
    simp only [Access.run, getAddr]
    repeat' split
    all_goals first | exact this | exact h
  | name n =>
    have := decoded_keeps L n k m h
    simp only [Access.run, getName]
    repeat' split
    all_goals first | exact this | exact h
  | mime n =>
    simp only [Access.run, getMime]
    repeat' split
    all_goals exact h
  | all => exact iter_keeps L k _ m h

/-- **C35** for names under which plugins add headers: their values come last and in the order in which they were added, and
headers of other names read as written.  The headers of the message with that name are there if caching is off, if they were looked
at before, or if nothing was added. -/
theorem C35_added_partial (L : MailLib) (hs mhs : List (Str × Str)) (ops : List Access) (added : List (Str × Str)) (n : Str) :
    ∃ own, (getDecoded L n (added.foldl (fun m p => pluginHeader p.1 p.2 m) (accessed L hs mhs ops))).1 = own ++ addedUnder added n ∧
      (own = (rawValues hs n).map L.decode ∨ own = []) ∧
      ((L.lazy = true ∨ (∃ k, lower k = lower n ∧ .decoded k ∈ ops) ∨ addedUnder added n = []) → own = (rawValues hs n).map L.decode) ∧
      (L.lazy = false → ops = [] → addedUnder added n ≠ [] → own = []) := by
  have g := accessed_good L hs mhs ops
  obtain ⟨hraw, hfind⟩ := added_find added n (accessed L hs mhs ops)
  have hseen : L.lazy = false → (∃ k, lower k = lower n ∧ .decoded k ∈ ops) → ((accessed L hs mhs ops).headers.find n).isSome := by
    rintro hl ⟨k, hk, hm⟩
    rw [find_congr _ hk.symm]
    clear hfind hk
    revert k
    intro n hm
    unfold accessed
    have gen : ∀ (ops : List Access) (m : Msg), (.decoded n ∈ ops ∨ (m.headers.find n).isSome) →
        ((ops.foldl (fun (m : Msg) (a : Access) => a.run L m) m).headers.find n).isSome := by
      intro ops
      induction ops with
      | nil => intro m h; simpa using h
      | cons a as ih =>
        intro m h
        apply ih
        by_cases ha : .decoded n ∈ as
        · exact .inl ha
        · right
          rcases h with h | h
          · have : a = .decoded n := by
              rcases List.mem_cons.1 h with h | h
              · exact h.symm
              · exact absurd h ha
            subst this
            simp only [Access.run, getDecoded, hl, Bool.false_eq_true, if_false]
            split
            · rename_i e; rw [e]; rfl
            · simp [find_put]
          · exact access_keeps L n a m h
    exact gen ops _ (.inl hm)
  have hgr : getRaw (added.foldl (fun m p => pluginHeader p.1 p.2 m) (accessed L hs mhs ops)) n = rawValues hs n :=
    getRaw_eq (hraw.trans g.raw) n
  by_cases hl : L.lazy = true
  · refine ⟨_, ?_, .inl rfl, fun _ => rfl, fun h => absurd hl (by simp [h])⟩
    simp only [getDecoded, hl, if_true, hgr, hfind, g.empty hl]
    by_cases ha : addedUnder added n = [] <;> simp [ha, Headers.find]
  have hl : L.lazy = false := by simpa using hl
  by_cases ha : addedUnder added n = []
  · refine ⟨_, ?_, .inl rfl, fun _ => rfl, fun _ _ h => absurd ha h⟩
    simp only [getDecoded, hl, Bool.false_eq_true, if_false, hgr, hfind, ha, if_true, List.append_nil]
    rcases e : (accessed L hs mhs ops).headers.find n with _ | vs
    · simp
    · exact g.headers n vs e
  · have hv : (getDecoded L n (added.foldl (fun m p => pluginHeader p.1 p.2 m) (accessed L hs mhs ops))).1 =
        ((accessed L hs mhs ops).headers.find n).getD [] ++ addedUnder added n := by
      simp only [getDecoded, hl, Bool.false_eq_true, if_false, hfind, ha]
    refine ⟨_, hv, ?_, ?_, ?_⟩
    · rcases e : (accessed L hs mhs ops).headers.find n with _ | vs
      · exact .inr rfl
      · exact .inl (g.headers n vs e)
    · rintro (h | h | h)
      · rw [hl] at h; cases h
      · have := hseen hl h
        rcases e : (accessed L hs mhs ops).headers.find n with _ | vs
        · rw [e] at this; cases this
        · exact g.headers n vs e
      · exact absurd h ha
    · rintro - rfl -
      rfl

example : (getDecoded (plainMail false) c!"subject" ([(c!"SUBJECT", c!"c"), (c!"X", c!"d"), (c!"subject", c!"e")].foldl
    (fun m p => pluginHeader p.1 p.2 m) (accessed (plainMail false) demoHeaders [] [.decoded c!"Subject"]))).1 =
      [some c!"a", some c!"b", some c!"c", some c!"e"] := by decide

/-- A plugin that adds a header hides the message's own headers of that name (unless they were
looked at before, or caching is off). -/
theorem C35_plugin_header_violated :
    (getDecoded (plainMail false) c!"X-Relay-Countries" (pluginHeader c!"X-Relay-Countries" c!"NL"
      (Msg.ofHeaders [(c!"X-Relay-Countries", c!"RO")] []))).1 = [some c!"NL"] ∧
    (getDecoded (plainMail true) c!"X-Relay-Countries" (pluginHeader c!"X-Relay-Countries" c!"NL"
      (Msg.ofHeaders [(c!"X-Relay-Countries", c!"RO")] []))).1 = [some c!"RO", some c!"NL"] := by
  decide

/-! ## C36 -/

/-- **C36**.  The author addresses are all addresses of the `Resent-From` headers if there are
any, otherwise those of the documented author headers in the documented order. -/
theorem C36_author {L : MailLib} {hs : List (Str × Str)} {dec : Str → Str}
    {A : Str → List (Str × Str)} (r : Reads L hs dec A) (mhs : List (Str × Str)) (ops : List Access) :
    (fromAddresses L (accessed L hs mhs ops)).1 = some
      (if addressesOf dec A hs c!"Resent-From" ≠ [] then addressesOf dec A hs c!"Resent-From"
       else [c!"From", c!"Envelope-Sender", c!"Resent-From", c!"X-Envelope-From",
         c!"EnvelopeFrom"].flatMap (addressesOf dec A hs)) := by
  have g := accessed_good L hs mhs ops
  obtain ⟨h1, h2⟩ := getAllAddr_good g c!"Resent-From"
  rw [allAddrs_of r] at h1
  unfold fromAddresses
  rcases hg : getAllAddr L c!"Resent-From" (accessed L hs mhs ops) with ⟨a, m1⟩
  rw [hg] at h1 h2
  simp only at h1 h2
  subst h1
  cases ha : addressesOf dec A hs c!"Resent-From" with
  | nil => simp only [ne_eq, not_true, if_false]; exact (addrsOfKeys_good r _ h2).1
  | cons x xs => simp

/-- **C36**.  The recipient addresses are all addresses of the `Resent-To` and `Resent-Cc` headers
if there are any, otherwise those of the documented recipient headers in the documented order. -/
theorem C36_recipients {L : MailLib} {hs : List (Str × Str)} {dec : Str → Str}
    {A : Str → List (Str × Str)} (r : Reads L hs dec A) (mhs : List (Str × Str)) (ops : List Access) :
    (toAddresses L (accessed L hs mhs ops)).1 = some
      (if addressesOf dec A hs c!"Resent-To" ++ addressesOf dec A hs c!"Resent-Cc" ≠ []
       then addressesOf dec A hs c!"Resent-To" ++ addressesOf dec A hs c!"Resent-Cc"
       else [c!"To", c!"Resent-To", c!"Resent-Cc", c!"Apparently-To", c!"Delivered-To",
         c!"Envelope-Recipients", c!"Apparently-Resent-To", c!"X-Envelope-To", c!"Envelope-To",
         c!"X-Delivered-To", c!"X-Original-To", c!"X-Rcpt-To", c!"X-Real-To",
         c!"Cc"].flatMap (addressesOf dec A hs)) := by
  have g := accessed_good L hs mhs ops
  obtain ⟨h1, h2⟩ := addrsOfKeys_good r [c!"Resent-To", c!"Resent-Cc"] g
  unfold toAddresses
  rcases hg : addrsOfKeys L [c!"Resent-To", c!"Resent-Cc"] (accessed L hs mhs ops) with ⟨a, m1⟩
  rw [hg] at h1 h2
  simp only [List.flatMap_cons, List.flatMap_nil, List.append_nil] at h1 h2
  subst h1
  cases ha : addressesOf dec A hs c!"Resent-To" ++ addressesOf dec A hs c!"Resent-Cc" with
  | nil => simp only [ne_eq, not_true, if_false]; exact (addrsOfKeys_good r _ h2).1
  | cons x xs => simp

example : Reads (plainMail false) [(c!"Cc", c!"b"), (c!"To", c!"a"), (c!"From", c!"c"),
      (c!"resent-from", c!"d")] id (fun t => [([], t)]) ∧
    (toAddresses (plainMail false) (accessed (plainMail false) [(c!"Cc", c!"b"), (c!"To", c!"a"),
      (c!"From", c!"c"), (c!"resent-from", c!"d")] [] [])).1 = some [c!"a", c!"b"] ∧
    (fromAddresses (plainMail false) (accessed (plainMail false) [(c!"Cc", c!"b"), (c!"To", c!"a"),
      (c!"From", c!"c"), (c!"resent-from", c!"d")] [] [])).1 = some [c!"d"] :=
  ⟨⟨fun _ _ => rfl, fun _ => rfl⟩, by decide, by decide⟩

end Verif.Props
