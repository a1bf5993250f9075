import Verif.Lemmas.ParserAssign
import Verif.Model.ParserEnv
import Verif.Lemmas.Context
import Verif.Props.Conf

/-!
# C11 to C15: the meaning of a configuration file
-/

namespace Verif.Props
open Verif Py Parser

variable {C : Type}

/-! ## C11 -/

/-- **C11**: a file whose include chains are at most ten deep (so that the text with everything
pasted in place exists) is read as that text.  An included file that is inside a disabled section
is skipped as a whole, so the included files may not contain `else` or `endif` of their own. -/
theorem C11_pasted (E : Env C) (f : Str) (text : List Str) (s : State C)
    (hp : paste E 11 f = some text)
    (hc : ∀ g lines, Reaches E f g → E.files g = some lines → ∀ l ∈ lines, ¬ Closer l) :
    parse E f s = readText E text s := parseFile_paste E 11 f text s hp hc

/-- **C11**: a chain of more than ten includes is reported as a recursion error, and nothing else
is: without conditional sections the outcome is decided by the include graph alone. -/
theorem C11_depth (E : Env C) (I : C → Prop) (opt : Str → Str → Prop) (plug : Str → Option Str → Prop) (hE : Harmless E I opt plug)
    (f : Str) (s : State C) (hI : I s.ctx) (hi : s.ignore = false)
    (hc : ∀ g lines, (g = f ∨ Reaches E f g) → E.files g = some lines → ∀ l ∈ lines,
      ¬ Closer l ∧ (Skipped l ∨ keyword l ≠ c!"ifplugin") ∧ Clean E opt plug l) :
    (Chain E 11 f → (parse E f s).2 = some .maxRec) ∧ (¬ Chain E 11 f → (parse E f s).2 = none) := by
  have := parseFile_depth E hE 11 f s hI hi hc
  constructor
  · intro h; exact this.1 ((paste_none_iff E 11 f).2 h)
  · intro h; exact (this.2 (fun hn => h ((paste_none_iff E 11 f).1 hn))).1

/-- **C11**: a file that includes itself, directly or through others, is always reported. -/
theorem C11_cycle (E : Env C) (I : C → Prop) (opt : Str → Str → Prop) (plug : Str → Option Str → Prop) (hE : Harmless E I opt plug)
    (f : Str) (s : State C) (hI : I s.ctx) (hi : s.ignore = false)
    (hc : ∀ g lines, (g = f ∨ Reaches E f g) → E.files g = some lines → ∀ l ∈ lines,
      ¬ Closer l ∧ (Skipped l ∨ keyword l ≠ c!"ifplugin") ∧ Clean E opt plug l)
    (hcyc : Reaches E f f) : (parse E f s).2 = some .maxRec :=
  (C11_depth E I opt plug hE f s hI hi hc).1 (chain_of_reaches_self E hcyc 11)

theorem dropWhile_ne_append (base pre : Str) (h : '/' ∉ base) :
    (base ++ '/' :: pre).dropWhile (· ≠ '/') = '/' :: pre := by
  induction base with
  | nil => simp
  | cons c cs ih =>
    simp only [List.mem_cons, not_or] at h
    rw [List.cons_append, List.dropWhile_cons, if_pos (by simpa using Ne.symm h.1)]
    exact ih h.2

/-- **C11**: the file an include line names.  An absolute name means that file; a relative name is
looked up next to the including file, if the latter has an absolute name. -/
theorem C11_include_path (dir base value : Str) (hb : '/' ∉ base) (hd : ∃ d, dir = '/' :: d)
    (hend : dir.getLast? ≠ some '/') :
    (¬ c!"/" <+: strip value → includePath (dir ++ '/' :: base) value = dir ++ '/' :: strip value) ∧
    (c!"/" <+: strip value → ∀ file, includePath file value = strip value) ∧
    (∀ file, ¬ c!"/" <+: file → includePath file value = strip value) := by
  have habs : ∀ p : Str, isAbs p = true ↔ c!"/" <+: p := fun p => startsWith_iff _ _
  refine ⟨?_, ?_, ?_⟩
  · intro hv
    obtain ⟨d, rfl⟩ := hd
    have h1 : isAbs (strip value) = false := by
      cases hx : isAbs (strip value) with
      | false => rfl
      | true => exact absurd ((habs _).1 hx) hv
    have h2 : isAbs (('/' :: d) ++ '/' :: base) = true := (habs _).2 ⟨d ++ '/' :: base, rfl⟩
    have hdir : dirname (('/' :: d) ++ '/' :: base) = '/' :: d := by
      unfold dirname
      simp only
      have e1 : (('/' :: d) ++ '/' :: base).reverse = base.reverse ++ '/' :: ('/' :: d).reverse := by simp
      rw [e1, dropWhile_ne_append _ _ (by simpa using hb)]
      have e2 : ('/' :: ('/' :: d).reverse).reverse = ('/' :: d) ++ ['/'] := by simp
      rw [e2, rstripBy_append_ws _ _ _ (by simp)]
      have e3 : rstripBy (· == '/') ('/' :: d) = '/' :: d := by
        unfold rstripBy
        cases hr : ('/' :: d).reverse with
        | nil => simp at hr
        | cons x xs =>
          have hx : ('/' :: d).getLast? = some x := by
            rw [← List.head?_reverse, hr]; rfl
          rw [hx] at hend
          have hxx : x ≠ '/' := by intro he; exact hend (by rw [he])
          rw [List.dropWhile_cons, if_neg (by simpa using hxx), ← hr, List.reverse_reverse]
      rw [e3]
      simp
    unfold includePath
    simp only [h1, h2, Bool.not_false, Bool.and_self, if_true]
    rw [hdir]
    unfold joinPath
    rw [if_neg (by simp [h1]), if_neg]
    · simp
    · rintro (h | h)
      · cases h
      · unfold endsWith at h
        rw [List.isSuffixOf_iff_suffix] at h
        obtain ⟨t, ht⟩ := h
        rw [← ht] at hend
        simp at hend
  · intro hv file
    unfold includePath
    simp [(habs _).2 hv]
  · intro file hf
    have : isAbs file = false := by
      cases hx : isAbs file with
      | false => rfl
      | true => exact absurd ((habs _).1 hx) hf
    unfold includePath
    simp [this]

example : includePath c!"/etc/mail/local.cf" c!" sub/x.cf " = c!"/etc/mail/sub/x.cf" := by decide

/-! ## C12 -/

/-- Full statement of C12: for any nesting of sections, the lines of a section count exactly if every `ifplugin` around them holds.  It
fails for all nested sections: the `endif` of the inner section ends the outer one as well, so that the lines after it are read although
their section is disabled. -/
theorem C12_nested_violated (E : Env C) (inc : Str → State C → State C × Option Err) (f : Str) (outer inner close : Str) (rest : List Str)
    (s : State C) (hi : s.ignore = false) (h1 : ¬ Closer outer) (h2 : ¬ Skipped outer) (h3 : keyword outer = c!"ifplugin")
    (hout : E.hasPlugin s.ctx (pluginClass E (argument outer)) = false) (h4 : ¬ Closer inner) (_ : keyword inner = c!"ifplugin")
    (h6 : beginsWith c!"endif" close) :
    parseLines E inc f (outer :: inner :: close :: rest) s = parseLines E inc f rest s := by
  rw [parseLines_cons, hl_ifplugin _ _ _ _ _ h1 h2 h3 hi, if_neg (by rw [hout]; simp)]
  show parseLines E inc f (inner :: close :: rest) { s with ignore := true } = _
  rw [parseLines_cons, hl_skipped _ _ _ _ _ h4 (Or.inr rfl)]
  show parseLines E inc f (close :: rest) { s with ignore := true } = _
  rw [parseLines_cons, hl_endif _ _ _ _ _ h6]
  show parseLines E inc f rest { s with ignore := false } = _
  rw [← hi]

example :
    ∃ (lines : List Str) (s' : State (GCtx Int)),
      lines = [c!"ifplugin Mail::SpamAssassin::Plugin::SPF",
               c!"ifplugin Mail::SpamAssassin::Plugin::DKIM", c!"endif", c!"body R /x/", c!"endif"] ∧
      readText (realEnv demoFloats (fun _ _ => .missing) (fun _ => none) false none) lines
        (newState demoCls) = (s', none) ∧
      s'.ctx.reg.plugins = [] ∧ State.attr s' c!"R" c!"type" = some (.str c!"body") := by
  refine ⟨_, _, rfl, rfl, ?_, ?_⟩ <;> decide

/-- **C12** for sections that are not nested: a file is read as the lines of each section that
count, where an `ifplugin` section counts exactly if the plugin is loaded at that point, and the
`else` part exactly if it is not. -/
theorem C12_sections_partial (E : Env C) (inc : Str → State C → State C × Option Err) (f : Str)
    (bs : List Block) (hw : ∀ b ∈ bs, b.WellFormed) (s : State C) (hi : s.ignore = false) :
    parseLines E inc f (bs.flatMap Block.text) s = readBlocks E inc f bs s := by
  induction bs generalizing s with
  | nil => rfl
  | cons b bs ih =>
    obtain ⟨h1, h2, h3⟩ := block_text E inc f b (hw b (by simp)) s hi
    rw [List.flatMap_cons, parseLines_append]
    simp only [readBlocks]
    cases hx : parseLines E inc f b.text s with
    | mk s1 e1 =>
      cases hy : parseLines E inc f (b.chosen E s.ctx) s with
      | mk s2 e2 =>
        rw [hx, hy] at h1 h2
        rw [hy] at h3
        simp only at h1 h2 h3
        subst h1 h2
        cases e1 with
        | none => exact ih (fun x hx => hw x (List.mem_cons_of_mem _ hx)) s1 h3
        | some e => rfl

/-- **C12**: after `loadplugin NAME` has succeeded, a section for the same name is enabled (a name
in the style of SpamAssassin must be a known one, otherwise the line loads nothing). -/
theorem C12_loaded_enabled {F : Type} (fe : Conf.FloatEnv F) (imp : Str → Option Str → Context.Import Unit)
    (files : Str → Option (List Str)) (par : Bool) (lang : Option Str) (value : Str)
    (s s' : State (GCtx F)) (hone : splitNone 1 value = [value])
    (hknown : hasSub c!"::" value = true → ∃ p ∈ perlPlugins, value = c!"Mail::SpamAssassin::Plugin::" ++ p)
    (h : handleLoadplugin (realEnv fe imp files par lang) value s = (s', none)) :
    handleIfplugin (realEnv fe imp files par lang) value s' = s' := by
  have hv : value ≠ [] := by rintro rfl; cases hone
  have hcol : ∀ n, Dict.get? reimplemented value = some n → hasSub c!"::" value = true ∧ n ≠ [] := by
    intro n hn
    have hall : ∀ kv ∈ reimplemented, hasSub c!"::" kv.1 = true ∧ kv.2 ≠ [] := by decide
    exact hall _ (Dict.mem_of_get? _ hn)
  have hs' : s'.ctx.reg.plugins = (Context.load s.ctx.reg ((Dict.get? reimplemented value).getD value) false
      (imp ((Dict.get? reimplemented value).getD value) none)).1.plugins ∧
      (Context.load s.ctx.reg ((Dict.get? reimplemented value).getD value) false
      (imp ((Dict.get? reimplemented value).getD value) none)).2 = none := by
    unfold handleLoadplugin at h
    rw [hone] at h
    cases hr : Dict.get? reimplemented value with
    | some n =>
      have hr' : (realEnv fe imp files par lang).reimpl value = some n := hr
      simp only [(hcol n hr).1, if_true, hr', (hcol n hr).2, if_false] at h
      have h1 := congrArg (fun x => x.1.ctx.reg.plugins) h
      have h2 := congrArg Prod.snd h
      simp only [Option.getD_some]
      simp only [realEnv, Option.map_eq_none_iff] at h1 h2
      exact ⟨h1.symm, h2⟩
    | none =>
      have hns : ¬ hasSub c!"::" value = true := by
        intro hh
        obtain ⟨p, hp, rfl⟩ := hknown hh
        have hall : ∀ p ∈ perlPlugins, c!"Mail::SpamAssassin::Plugin::" ++ p ∈ Dict.keys reimplemented := by decide
        exact (Dict.get?_eq_none_iff _ _).1 hr (hall p hp)
      simp only [hns, if_false, hv, Bool.false_eq_true] at h
      have h1 := congrArg (fun x => x.1.ctx.reg.plugins) h
      have h2 := congrArg Prod.snd h
      simp only [Option.getD_none]
      simp only [realEnv, Option.map_eq_none_iff] at h1 h2
      exact ⟨h1.symm, h2⟩
  have hreg := Context.load_registers s.ctx.reg _ _ _ hs'.2
  rw [← hs'.1] at hreg
  unfold handleIfplugin
  exact if_pos hreg

/-! ## C13 -/

/-- **C13** for lines that define rules or set options (no `lang`, which is treated below): after
the lines have been read, every attribute of every rule has the value that the last line about it
gave, and the rules are in the order of their first mention. -/
theorem C13_last_line_wins_partial (E : Env C) (inc : Str → State C → State C × Option Err) (f : Str)
    (hcmd : ∀ c k v t, E.isCmd (E.parseConfig c k v).1 t = E.isCmd c t)
    (lines : List Str) (hd : ∀ l ∈ lines, Defining l) (s : State C) (hi : s.ignore = false)
    (hs : s.results = []) (hok : (parseLines E inc f lines s).2 = none) :
    (∀ name attr, (parseLines E inc f lines s).1.attr name attr =
      lastValue (lines.flatMap (assigns (E.isCmd s.ctx))) name attr) ∧
    Dict.keys (parseLines E inc f lines s).1.results =
      firstMentions ((lines.flatMap (assigns (E.isCmd s.ctx))).map (fun a => a.1)) := by
  have h := lines_assigns E inc f hcmd lines hd s hi hok
  constructor
  · intro name attr
    unfold State.attr
    rw [h, attr_foldl, hs]
    cases lastValue (lines.flatMap (assigns (E.isCmd s.ctx))) name attr <;> rfl
  · rw [h, keys_foldl, hs]
    have hnil : Dict.keys ([] : Dict Str (Dict Str PVal)) = [] := rfl
    rw [hnil]
    simp

/-- **C13**, lines for one language: if the locale is of that language the line means what the
rest of it means on its own, otherwise it means nothing. -/
theorem C13_lang_partial (E : Env C) (inc : Str → State C → State C × Option Err) (f : Str)
    (raw raw' lang : Str) (l t n v rest : Str) (s : State C) (hl : E.lang = some l)
    (h1 : ¬ Skipped raw) (h2 : ¬ Closer raw) (h3 : splitNone 2 (logical raw) = [c!"lang", lang, rest])
    (h1' : ¬ Skipped raw') (h2' : ¬ Closer raw') (h3' : splitNone 2 (logical raw') = [t, n, v])
    (hrest : splitNone 2 rest = [t, n, v]) (hrep : hasSub c!"report" rest = false)
    (ht : t ∈ known2) (ht1 : t ≠ c!"lang") (ht2 : t ≠ c!"tflags") :
    handleLine E inc f raw s = if lang <+: l then handleLine E inc f raw' s else (s, none) := by
  by_cases hi : s.ignore = true
  · rw [hl_skipped _ _ _ _ _ h2 (Or.inr hi), hl_skipped _ _ _ _ _ h2' (Or.inr hi)]
    simp
  · have hi' : s.ignore = false := by simpa using hi
    rw [hl_main _ _ _ _ _ h2 h1 hi', hl_main _ _ _ _ _ h2' h1' hi']
    have hk := keyword_of_three h3
    have hk' := keyword_of_three h3'
    unfold dispatch
    rw [hk, hk']
    have hne : ∀ w, w ∉ known2 → t ≠ w := by
      intro w hw he; rw [he] at ht; exact hw ht
    rw [if_neg (hne _ (by decide)), if_neg (hne _ (by decide)), if_neg (hne _ (by decide)),
      if_pos (Or.inl ht), if_neg (by decide), if_neg (by decide), if_neg (by decide),
      if_pos (Or.inl (by decide))]
    unfold handleTwo
    rw [h3, h3', hl]
    simp only [if_true, if_neg ht1, if_neg ht2, hrep, hrest]
    by_cases hp : lang <+: l
    · have := (startsWith_iff lang l).2 hp
      simp [this, hp]
    · have : startsWith lang l = false := by
        cases hx : startsWith lang l with
        | false => rfl
        | true => exact absurd ((startsWith_iff lang l).1 hx) hp
      simp [this, hp]

/-- C13 fails for everything in the reader's language that contains the word `report`, like a description: the line is taken for an option, and
nothing is said about any rule. -/
theorem C13_lang_report_violated (E : Env C) (inc : Str → State C → State C × Option Err) (f : Str) (raw lang rest l : Str) (s : State C)
    (h1 : ¬ Skipped raw) (h2 : ¬ Closer raw) (h3 : splitNone 2 (logical raw) = [c!"lang", lang, rest]) (hl : E.lang = some l)
    (hp : lang <+: l) (hrep : c!"report" <:+: rest) (hi : s.ignore = false) : (handleLine E inc f raw s).1.results = s.results := by
  rw [hl_main _ _ _ _ _ h2 h1 hi]
  unfold dispatch
  rw [keyword_of_three h3, if_neg (by decide), if_neg (by decide), if_neg (by decide), if_pos (Or.inl (by decide))]
  unfold handleTwo
  rw [h3, hl]
  simp only [if_true, (startsWith_iff lang l).2 hp, (hasSub_iff _ _).2 hrep, Bool.not_true, Bool.false_eq_true, if_false]
  split
  · unfold handleConfig
    split <;> rfl
  · rfl

example :
    ∃ s' : State (GCtx Int),
      readText (realEnv demoFloats (fun _ _ => .missing) (fun _ => none) false (some c!"en_US"))
        [c!"body R /x/", c!"lang en describe R Please report this"] (newState demoCls) = (s', none) ∧
      State.attr s' c!"R" c!"describe" = none := by
  refine ⟨_, rfl, ?_⟩
  decide

/-- C13 fails for all rules that are redefined as evaluated rules: what the first definition said about the part of the message to test
stays in force. -/
theorem C13_redefinition_violated (E : Env C) (inc : Str → State C → State C × Option Err) (f : Str) (raw n v : Str) (s : State C)
    (h1 : ¬ Skipped raw) (h2 : ¬ Closer raw) (h3 : splitNone 2 (logical raw) = [c!"eval", n, v]) (h4 : ¬ c!"eval:" <+: v)
    (hi : s.ignore = false) (old : PVal) (ht : State.attr s n c!"target" = some old) :
    State.attr (handleLine E inc f raw s).1 n c!"value" = some (.str v) ∧ State.attr (handleLine E inc f raw s).1 n c!"target" = some old := by
  rw [hl_main _ _ _ _ _ h2 h1 hi]
  unfold dispatch
  rw [keyword_of_three h3, if_neg (by decide), if_neg (by decide), if_neg (by decide), if_pos (Or.inl (by decide))]
  unfold handleTwo
  rw [h3]
  simp only
  rw [if_neg (by decide), if_neg (by decide)]
  unfold State.attr at ht ⊢
  cases hg : Dict.get? s.results n with
  | none => rw [hg] at ht; cases ht
  | some d =>
    rw [hg] at ht
    have ht' : Dict.get? d c!"target" = some old := ht
    have hh : Dict.has s.results n = true := by
      unfold Dict.has
      rw [hg]
      rfl
    have he : startsWith c!"eval:" v = false := by
      cases hx : startsWith c!"eval:" v with
      | false => rfl
      | true => exact absurd ((startsWith_iff _ _).1 hx) h4
    unfold store
    simp only [hh, if_true, hg, Option.getD_some, he, Bool.false_eq_true, if_false]
    rw [if_pos (Or.inl (by decide))]
    simp only [Dict.get?_set_self, Option.bind_some]
    refine ⟨trivial, ?_⟩
    rw [Dict.get?_set_ne _ _ (by decide), Dict.get?_set_ne _ _ (by decide), ht']

example :
    ∃ s' s'' : State (GCtx Int),
      readText (realEnv demoFloats (fun _ _ => .missing) (fun _ => none) false none)
        [c!"rawbody R eval:check_a()", c!"eval R check_b()"] (newState demoCls) = (s', none) ∧
      readText (realEnv demoFloats (fun _ _ => .missing) (fun _ => none) false none)
        [c!"eval R check_b()"] (newState demoCls) = (s'', none) ∧
      State.attr s' c!"R" c!"value" = State.attr s'' c!"R" c!"value" ∧
      State.attr s' c!"R" c!"target" = some (.str c!"rawbody") ∧ State.attr s'' c!"R" c!"target" = none := by
  refine ⟨_, _, rfl, rfl, ?_, ?_, ?_⟩ <;> decide

/-! ## C14 -/

/-- **C14**: a blank line or a comment line can be removed without changing anything. -/
theorem C14_line_removed (E : Env C) (inc : Str → State C → State C × Option Err) (f : Str)
    (before after : List Str) (l : Str) (s : State C) (h : strip l = [] ∨ c!"#" <+: strip l) :
    parseLines E inc f (before ++ l :: after) s = parseLines E inc f (before ++ after) s := by
  have hl : ∀ s, handleLine E inc f l s = (s, none) := by
    intro s
    apply hl_skipped
    · rintro (hc | hc)
      · rcases h with h | h
        · unfold beginsWith at hc; rw [h] at hc; simp at hc
        · exact absurd (prefix_head h hc) (by decide)
      · rcases h with h | h
        · unfold beginsWith at hc; rw [h] at hc; simp at hc
        · exact absurd (prefix_head h hc) (by decide)
    · left
      rcases h with h | h
      · exact Or.inl h
      · exact Or.inr (Or.inl h)
  rw [parseLines_append, parseLines_append]
  cases parseLines E inc f before s with
  | mk s' e =>
    cases e with
    | some e => rfl
    | none => simp only; rw [parseLines_cons, hl]; rfl

/-- **C14**: text after a `#` that does not follow a backslash can be removed. -/
theorem C14_comment_removed (E : Env C) (inc : Str → State C → State C × Option Err) (f : Str)
    (before after : List Str) (l junk : Str) (s : State C) (hne : strip l ≠ [])
    (hesc : l.getLast? ≠ some '\\') :
    parseLines E inc f (before ++ (l ++ '#' :: junk) :: after) s =
      parseLines E inc f (before ++ l :: after) s := by
  rw [parseLines_append, parseLines_append]
  cases parseLines E inc f before s with
  | mk s' e =>
    cases e with
    | some e => rfl
    | none => simp only; rw [parseLines_cons, parseLines_cons, hl_comment _ _ _ _ _ _ hne hesc]

/-! ## C15 -/

/-- What follows a line that raises is lost. -/
theorem lost_after (E : Env C) (inc : Str → State C → State C × Option Err) (f : Str) (l : Str) (s s' : State C) (e : Err)
    (h : handleLine E inc f l s = (s', some e)) (he : e ≠ .syntax) (he' : e ≠ .pluginLoad) (after : List Str) :
    parseLines E inc f (l :: after) s = (s', some e) := by
  unfold parseLines
  rw [h]
  cases e with
  | «syntax» => exact absurd rfl he
  | pluginLoad => exact absurd rfl he'
  | _ => rfl

/-- C15 fails for all options with unusable values: in tolerant mode as well they stop the parsing, so that the lines after them are lost. -/
theorem C15_option_violated (E : Env C) (inc : Str → State C → State C × Option Err) (f : Str) (l : Str) (s : State C) (c' : C) (e : Err)
    (h1 : ¬ Skipped l) (h2 : ¬ Closer l) (hi : s.ignore = false) (h3 : keyword l ∉ [c!"include", c!"ifplugin", c!"loadplugin"])
    (h4 : keyword l ∉ known2) (h5 : E.isCmd s.ctx (keyword l) = false) (hr : E.parseConfig s.ctx (keyword l) (argument l) = (c', .raised e))
    (he : e ≠ .syntax) (he' : e ≠ .pluginLoad) (after : List Str) :
    parseLines E inc f (l :: after) s = ({ s with ctx := c' }, some e) := by
  refine lost_after E inc f l s _ e ?_ he he' after
  rw [hl_main _ _ _ _ _ h2 h1 hi]
  simp only [List.mem_cons, List.not_mem_nil, or_false, not_or] at h3
  unfold dispatch
  rw [if_neg h3.1, if_neg h3.2.1, if_neg h3.2.2, if_neg (by rw [h5]; simpa using h4)]
  unfold handleConfig
  rw [hr]

/-- C15 fails for all plugins whose loading raises another exception than that for plugins that are not there. -/
theorem C15_loadplugin_violated (E : Env C) (inc : Str → State C → State C × Option Err) (f : Str) (l n : Str) (p : Option Str) (s : State C)
    (c' : C) (e : Err) (h1 : ¬ Skipped l) (h2 : ¬ Closer l) (hi : s.ignore = false) (h3 : keyword l = c!"loadplugin")
    (h4 : (∃ path, splitNone 1 (argument l) = [n, path] ∧ p = some path) ∨ splitNone 1 (argument l) = [argument l] ∧ n = argument l ∧ p = none)
    (h5 : ¬ c!"::" <:+: n) (h6 : n ≠ []) (hr : E.loadPlugin s.ctx n p = (c', some e)) (he : e ≠ .syntax) (he' : e ≠ .pluginLoad)
    (after : List Str) : parseLines E inc f (l :: after) s = ({ s with ctx := c' }, some e) := by
  refine lost_after E inc f l s _ e ?_ he he' after
  rw [hl_main _ _ _ _ _ h2 h1 hi]
  unfold dispatch
  rw [h3, if_neg (by decide), if_neg (by decide), if_pos rfl]
  have hs : hasSub c!"::" n = false := by
    cases hx : hasSub c!"::" n with
    | false => rfl
    | true => exact absurd ((hasSub_iff _ _).1 hx) h5
  unfold handleLoadplugin
  rcases h4 with ⟨path, h4, rfl⟩ | ⟨h4, rfl, rfl⟩
  · rw [h4]
    simp only [hs, Bool.false_eq_true, if_false, if_neg h6]
    show (({ s with ctx := (E.loadPlugin _ _ _).1 } : State C), (E.loadPlugin _ _ _).2) = _
    rw [hr]
  · rw [h4]
    simp only [hs, Bool.false_eq_true, if_false, if_neg h6]
    show (({ s with ctx := (E.loadPlugin _ _ _).1 } : State C), (E.loadPlugin _ _ _).2) = _
    rw [hr]

/-- C15 fails for all `lang` lines when the process has no locale. -/
theorem C15_lang_violated (E : Env C) (inc : Str → State C → State C × Option Err) (f : Str) (l lang rest : Str) (s : State C)
    (h1 : ¬ Skipped l) (h2 : ¬ Closer l) (hi : s.ignore = false) (h3 : splitNone 2 (logical l) = [c!"lang", lang, rest]) (hl : E.lang = none)
    (after : List Str) : parseLines E inc f (l :: after) s = (s, some .other) := by
  refine lost_after E inc f l s _ .other ?_ (by simp) (by simp) after
  rw [hl_main _ _ _ _ _ h2 h1 hi]
  unfold dispatch
  rw [keyword_of_three h3, if_neg (by decide), if_neg (by decide), if_neg (by decide), if_pos (Or.inl (by decide))]
  unfold handleTwo
  rw [h3, hl]
  rfl

example :
    ∃ s' : State (GCtx Int),
      readText (realEnv demoFloats (fun _ _ => .missing) (fun _ => none) false none)
        [c!"required_score abc", c!"body R /x/"] (newState demoCls) = (s', some .plugin) ∧
      s'.results = [] := by
  refine ⟨_, rfl, ?_⟩
  decide

example :
    ∃ s' : State (GCtx Int),
      readText (realEnv demoFloats (fun _ _ => .missing) (fun _ => none) false none)
        [c!"loadplugin Foo", c!"body R /x/"] (newState demoCls) = (s', some .other) ∧
      s'.results = [] := by
  refine ⟨_, rfl, ?_⟩
  decide

example :
    ∃ s' : State (GCtx Int),
      readText (realEnv demoFloats (fun _ _ => .missing) (fun _ => none) false none)
        [c!"lang en describe R text", c!"body R /x/"] (newState demoCls) = (s', some .other) ∧
      s'.results = [] := by
  refine ⟨_, rfl, ?_⟩
  decide

/-- **C15**: when neither options nor plugins nor the locale raise, nothing in a file stops the
parsing in tolerant mode, except too deep a chain of includes. -/
theorem C15_never_aborts_partial (E : Env C) (I : C → Prop) (opt : Str → Str → Prop) (plug : Str → Option Str → Prop)
    (hE : Harmless E I opt plug) (f : Str) (s : State C) (hI : I s.ctx)
    (hc : ∀ g lines, (g = f ∨ Reaches E f g) → E.files g = some lines → ∀ l ∈ lines, Clean E opt plug l) :
    (parse E f s).2 = none ∨ (parse E f s).2 = some .maxRec := (parseFile_fine E hE 11 f s hI hc).1

/-- **C15**: in tolerant mode a line with missing arguments can be removed without changing
anything. -/
theorem C15_malformed_ignored_partial (E : Env C) (hE : E.paranoid = false)
    (inc : Str → State C → State C × Option Err) (f : Str) (before after : List Str) (l : Str)
    (h : Malformed l) (s : State C) :
    parseLines E inc f (before ++ l :: after) s = parseLines E inc f (before ++ after) s := by
  rw [parseLines_append, parseLines_append]
  cases parseLines E inc f before s with
  | mk s' e =>
    cases e with
    | some e => rfl
    | none =>
      simp only
      rw [parseLines_cons]
      by_cases hi : s'.ignore = true
      · rw [hl_skipped _ _ _ _ _ h.2.1 (Or.inr hi)]; rfl
      · rw [hl_malformed _ _ _ _ _ h (by simpa using hi)]
        simp [andThen, hE]

/-- **C15**: in paranoid mode the first line with missing arguments (outside disabled sections) is
reported, and what the lines before it defined is kept. -/
theorem C15_malformed_reported_partial (E : Env C) (hE : E.paranoid = true)
    (inc : Str → State C → State C × Option Err) (f : Str) (before after : List Str) (l : Str)
    (h : Malformed l) (s s' : State C) (hb : parseLines E inc f before s = (s', none))
    (hi : s'.ignore = false) :
    parseLines E inc f (before ++ l :: after) s = (s', some .syntax) := by
  rw [parseLines_append, hb]
  simp only
  rw [parseLines_cons, hl_malformed _ _ _ _ _ h hi]
  simp [andThen, hE]

/-! ## The hypotheses are met -/

/-- Two files, the second included in the first. -/
def demoFiles (f : Str) : Option (List Str) :=
  if f = c!"/etc/a.cf" then
    some [c!"# first", c!"include b.cf", c!"score R 2", c!"ifplugin Foo", c!"score R 9", c!"endif"]
  else if f = c!"/etc/b.cf" then some [c!"body R /x/  # comment", c!"score", c!"report_safe 0"]
  else if f = c!"/etc/loop.cf" then some [c!"include loop.cf"]
  else none

def demoEnv : Env (GCtx Int) := realEnv demoFloats (fun _ _ => .missing) demoFiles false (some c!"C")

/-- An environment that ignores options and plugins. -/
def quietEnv : Env Unit where
  files := demoFiles
  paranoid := false
  isCmd := fun _ _ => false
  hasPlugin := fun _ _ => false
  loadPlugin := fun c _ _ => (c, none)
  parseConfig := fun c _ _ => (c, .done true)
  reimpl := fun _ => none
  lang := some c!"C"

example : Harmless quietEnv (fun _ => True) (fun _ _ => True) (fun _ _ => True) :=
  ⟨rfl, fun _ _ _ _ _ => ⟨Or.inl rfl, trivial⟩, fun _ _ _ _ _ => ⟨⟨true, rfl⟩, trivial⟩, rfl, fun _ _ => rfl⟩

example : paste demoEnv 11 c!"/etc/a.cf" = some [c!"# first", c!"body R /x/  # comment", c!"score",
    c!"report_safe 0", c!"score R 2", c!"ifplugin Foo", c!"score R 9", c!"endif"] := by decide

example : State.attr (parse demoEnv c!"/etc/a.cf" (newState demoCls)).1 c!"R" c!"score" =
    some (.str c!"2") := by decide

example : Includes quietEnv c!"/etc/loop.cf" c!"/etc/loop.cf" :=
  ⟨[c!"include loop.cf"], c!"include loop.cf", by decide, by decide, by decide⟩

example : (parse quietEnv c!"/etc/loop.cf" ⟨[], false, ()⟩).2 = some .maxRec := by decide

example : ∀ l ∈ [c!"include loop.cf"], ¬ Closer l ∧ (Skipped l ∨ keyword l ≠ c!"ifplugin") := by decide

example : (Block.cond c!"ifplugin Foo" [c!"score R 9"] (some (c!"else", [c!"score R 1"])) c!"endif").WellFormed :=
  ⟨by decide, by decide, by decide, by decide, by unfold beginsWith; decide, by decide,
    by unfold beginsWith; decide⟩

example : ∀ l ∈ [c!"body R /x/ # c", c!"score R 1 2 3 4", c!"tflags R nice", c!"required_score 3", c!"  "],
    Defining l := by decide

example : Malformed c!"score R" ∧ Malformed c!"meta" := by decide

example : c!"SPF" ∈ perlPlugins ∧ hasSub c!"::" c!"Mail::SpamAssassin::Plugin::SPF" = true ∧
    splitNone 1 c!"Mail::SpamAssassin::Plugin::SPF" = [c!"Mail::SpamAssassin::Plugin::SPF"] := by decide

example : splitNone 2 (logical c!" lang en describe R text ") = [c!"lang", c!"en", c!"describe R text"] ∧
    splitNone 2 c!"describe R text" = [c!"describe", c!"R", c!"text"] ∧
    hasSub c!"report" c!"describe R text" = false := by decide

end Verif.Props
