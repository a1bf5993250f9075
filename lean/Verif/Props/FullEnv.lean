import Verif.Spec.FullEnv
import Verif.Props.PluginConf
import Verif.Props.ParserReal
import Verif.Props.ScanScore

/-!
# C170 for configuration files
-/

namespace Verif.Props
open Verif Py Spec Parser PluginConf

variable {F : Type}

theorem register_good (p : Context.Plugin) (rs : List (Str × Bool)) (d : Dict Str Context.Plugin) (h : ∀ r ∈ rs, r.2 = true) :
    (Context.register p rs d).2 = true := by
  induction rs generalizing d with
  | nil => rfl
  | cons x xs ih =>
    obtain ⟨x, g⟩ := x
    have : g = true := h (x, g) (by simp)
    subst this
    unfold Context.register
    rw [if_pos rfl]
    exact ih _ (fun r hr => h r (by simp [hr]))

/-- Loading on options and registry does to options what loading does. -/
theorem loadFull_world (plug : Str → Context.Plugin) (bad : Str → Context.Err) (words : List Str) (hp : Registers plug words) (c : FCtx F)
    (n : Str) : (loadFull plug bad c n none).1.world = (PluginConf.load c.world n).1 := by
  unfold loadFull
  simp only [Option.isNone_none, Bool.and_true, Option.isSome_none]
  split
  · rfl
  · rename_i hr
    unfold PluginConf.load
    simp only []
    by_cases hd : (rsplit1 '.' n).isNone = true
    · rw [if_pos hd]
      rfl
    · rw [if_neg hd]
      cases hc : Dict.get? c.world.classes n with
      | none => rfl
      | some cls =>
        exfalso
        apply hr
        have hi : importOf plug bad c.world n = .ok (plug n) [] := by
          unfold importOf Dict.has
          rw [hc]
          rfl
        rw [Bool.not_eq_true] at hd
        unfold Context.load
        simp only [hi, hd, Bool.and_false, Bool.false_eq_true, if_false, List.foldl_nil]
        generalize (if Dict.has c.reg.plugins (Context.className n) = true then (Context.unload c.reg (Context.className n)).1 else c.reg) = c1
        have h1 := register_good (plug n) (plug n).cmds c1.cmds (fun r hr => ((hp n).1 r hr).1)
        cases hx : Context.register (plug n) (plug n).cmds c1.cmds with
        | mk a b =>
          rw [hx] at h1
          simp only at h1
          subst h1
          simp only
          have h2 := register_good (plug n) (plug n).evalRules c1.evalRules (hp n).2
          cases hy : Context.register (plug n) (plug n).evalRules c1.evalRules with
          | mk a b =>
            rw [hy] at h2
            simp only at h2
            subst h2
            rfl

/-- Only these words become commands. -/
theorem loadFull_cmds (plug : Str → Context.Plugin) (bad : Str → Context.Err) (words : List Str) (hp : Registers plug words) (c : FCtx F)
    (n : Str) (p : Option Str) (k : Str) (hk : k ∉ words) (h : Dict.get? c.reg.cmds k = none) :
    Dict.get? (loadFull plug bad c n p).1.reg.cmds k = none := by
  show Dict.get? (Context.load c.reg n p.isSome (importOf plug bad c.world n)).1.cmds k = none
  unfold Context.load
  simp only []
  have h1 : Dict.get? (if Dict.has c.reg.plugins (Context.className n) = true then (Context.unload c.reg (Context.className n)).1 else c.reg).cmds k = none := by
    split
    · exact unload_none _ _ _ h
    · exact h
  generalize (if Dict.has c.reg.plugins (Context.className n) = true then (Context.unload c.reg (Context.className n)).1 else c.reg) = c1 at h1
  split
  · exact h1
  · unfold importOf
    split
    · exact h1
    · exact h1
    · exact h1
    · rename_i heq
      split at heq
      · injection heq with e1 e2
        subst e1 e2
        simp only [List.foldl_nil]
        have h2 := register_other (plug n) (plug n).cmds c1.cmds k (fun hm => by
          obtain ⟨r, hr, rfl⟩ := List.mem_map.1 hm
          exact hk ((hp n).1 r hr).2)
        rw [h1] at h2
        cases hx : Context.register (plug n) (plug n).cmds c1.cmds with
        | mk a b =>
          rw [hx] at h2
          cases b with
          | false => exact h2
          | true =>
            simp only
            cases hy : Context.register (plug n) (plug n).evalRules c1.evalRules with
            | mk a' b' => cases b' <;> exact h2
      · cases heq

theorem configFull_world (fe : Conf.FloatEnv F) (c : FCtx F) (k v : Str) :
    (configFull fe c k v).1 = { c with world := (PluginConf.line fe c.world k v).1 } := by
  unfold configFull
  cases PluginConf.line fe c.world k v with
  | mk w h => cases h <;> rfl

/-- What a line that loads this does. -/
def called (plug : Str → Context.Plugin) (bad : Str → Context.Err) (m : Option Str) (s : State (FCtx F)) : State (FCtx F) × Option Err :=
  match m with
  | some n => ({ s with ctx := (loadFull plug bad s.ctx n none).1 }, (loadFull plug bad s.ctx n none).2)
  | none => (s, none)

theorem called_as (plug : Str → Context.Plugin) (bad : Str → Context.Err) (fe : Conf.FloatEnv F) (files : Str → Option (List Str)) (paranoid : Bool)
    (lang : Option Str) (s : State (FCtx F)) {v : Str} (hname : ∀ n, pluginNamed v = some n → n ≠ [])
    (hsame : ∀ (m : Option Str), (if hasSub c!"::" v = true then Dict.get? reimplemented v else some v) = m →
      (m = pluginNamed v ∨ (m = some [] ∧ pluginNamed v = none))) :
    (match (if hasSub c!"::" v = true then (fullEnv fe plug bad files paranoid lang).reimpl v else some v : Option Str) with
      | none => (s, none)
      | some n =>
        if n = [] then (s, none)
        else
          let (c, e) := (fullEnv fe plug bad files paranoid lang).loadPlugin s.ctx n none
          ({ s with ctx := c }, e)) = called plug bad (pluginNamed v) s := by
  show (match (if hasSub c!"::" v = true then Dict.get? reimplemented v else some v : Option Str) with
      | none => (s, none)
      | some n =>
        if n = [] then (s, none)
        else
          let (c, e) := (fullEnv fe plug bad files paranoid lang).loadPlugin s.ctx n none
          ({ s with ctx := c }, e)) = called plug bad (pluginNamed v) s
  generalize hm : (if hasSub c!"::" v = true then Dict.get? reimplemented v else some v : Option Str) = m
  rcases hsame m hm with h | ⟨h, h'⟩
  · rw [h]
    cases hn : pluginNamed v with
    | none => rfl
    | some n =>
      simp only
      rw [if_neg (hname n hn)]
      rfl
  · rw [h, h']
    rfl

/-- One line. -/
theorem line_world (fe : Conf.FloatEnv F) (plug : Str → Context.Plugin) (bad : Str → Context.Err) (files : Str → Option (List Str)) (paranoid : Bool)
    (lang : Option Str) (words : List Str) (hp : Registers plug words) (inc : Inc (FCtx F)) (f l : Str) (hl : OptionLine words l)
    (s : State (FCtx F)) (hi : s.ignore = false) (hc : ∀ k, k ∉ words → Dict.get? s.ctx.reg.cmds k = none) :
    let r := handleLine (fullEnv fe plug bad files paranoid lang) inc f l s
    r.1.ignore = false ∧ (∀ k, k ∉ words → Dict.get? r.1.ctx.reg.cmds k = none) ∧
      r.1.ctx.world = PluginConf.run fe s.ctx.world (eventsOf l) ∧
      (¬ Skipped l → (keyword l = c!"loadplugin" → ∀ n, pluginNamed (argument l) = some n → r.2 = (loadFull plug bad s.ctx n none).2) ∧
        (keyword l ∉ known2 → keyword l ≠ c!"loadplugin" → (PluginConf.line fe s.ctx.world (keyword l) (argument l)).2 = .raised →
          r.2 = some .other)) := by
  intro r
  show (handleLine (fullEnv fe plug bad files paranoid lang) inc f l s).1.ignore = false ∧
    (∀ k, k ∉ words → Dict.get? (handleLine (fullEnv fe plug bad files paranoid lang) inc f l s).1.ctx.reg.cmds k = none) ∧
    (handleLine (fullEnv fe plug bad files paranoid lang) inc f l s).1.ctx.world = _ ∧
      (¬ Skipped l → (keyword l = c!"loadplugin" → ∀ n, pluginNamed (argument l) = some n → (handleLine (fullEnv fe plug bad files paranoid lang) inc f l s).2 = (loadFull plug bad s.ctx n none).2) ∧
        (keyword l ∉ known2 → keyword l ≠ c!"loadplugin" → (PluginConf.line fe s.ctx.world (keyword l) (argument l)).2 = .raised →
          (handleLine (fullEnv fe plug bad files paranoid lang) inc f l s).2 = some .other))
  obtain ⟨⟨hcl, hpl⟩, hrest⟩ := hl
  by_cases hs : Skipped l
  · rw [hl_skipped _ _ _ _ _ hcl (Or.inl hs)]
    refine ⟨hi, hc, ?_, fun h => absurd hs h⟩
    unfold eventsOf
    rw [if_pos (Or.inl hs)]
    rfl
  · obtain ⟨h1, h2, h3⟩ := hrest hs
    obtain ⟨h4, h5⟩ := hpl hs
    rw [hl_main _ _ _ _ _ hcl hs hi]
    unfold dispatch
    rw [if_neg h4, if_neg h5]
    by_cases hlp : keyword l = c!"loadplugin"
    · rw [if_pos hlp]
      have hk2 : keyword l ∉ known2 := by rw [hlp]; decide
      have hev : eventsOf l = (pluginNamed (argument l)).toList.map .load := by
        unfold eventsOf
        rw [if_neg (by simp [hs, hk2]), if_pos hlp]
      have hlen := h3 hlp
      have hload : ∀ n, (loadFull plug bad s.ctx n none).1.world = (PluginConf.load s.ctx.world n).1 := loadFull_world plug bad words hp s.ctx
      have hcm : ∀ n k, k ∉ words → Dict.get? (loadFull plug bad s.ctx n none).1.reg.cmds k = none :=
        fun n k hk => loadFull_cmds plug bad words hp s.ctx n none k hk (hc k hk)
      have hre : ∀ n, Dict.get? reimplemented (argument l) = some n → n ≠ [] := by
        intro n hn
        have hall : ∀ kv ∈ reimplemented, kv.2 ≠ [] := by decide
        exact hall _ (Dict.mem_of_get? _ hn)
      have hname : ∀ n, pluginNamed (argument l) = some n → n ≠ [] := by
        intro n hn
        unfold pluginNamed at hn
        split at hn
        · exact hre n hn
        · split at hn
          · cases hn
          · cases hn
            assumption
      have hgoal : handleLoadplugin (fullEnv fe plug bad files paranoid lang) (argument l) s = called plug bad (pluginNamed (argument l)) s := by
        unfold handleLoadplugin
        generalize hx : splitNone 1 (argument l) = x at hlen
        have hsame : ∀ (m : Option Str), (if hasSub c!"::" (argument l) = true then Dict.get? reimplemented (argument l) else some (argument l)) = m →
            (m = pluginNamed (argument l) ∨ (m = some [] ∧ pluginNamed (argument l) = none)) := by
          intro m hm
          subst hm
          unfold pluginNamed
          split
          · exact Or.inl rfl
          · split
            · rename_i h
              rw [h]
              exact Or.inr ⟨rfl, rfl⟩
            · exact Or.inl rfl
        rcases x with _ | ⟨a, _ | ⟨b, _ | ⟨d, x⟩⟩⟩
        · exact called_as plug bad fe files paranoid lang s hname hsame
        · exact called_as plug bad fe files paranoid lang s hname hsame
        · simp at hlen
        · exact called_as plug bad fe files paranoid lang s hname hsame
      rw [hgoal, hev]
      cases pluginNamed (argument l) with
      | none => exact ⟨hi, hc, rfl, fun _ => ⟨fun _ n hn => (by cases hn), fun _ h => absurd hlp h⟩⟩
      | some n => exact ⟨hi, hcm n, hload n, fun _ => ⟨fun _ m hm => (by cases hm; rfl), fun _ h => absurd hlp h⟩⟩
    · rw [if_neg hlp]
      by_cases hk : keyword l ∈ known2
      · rw [if_pos (Or.inl hk)]
        rw [two_ignore, handleTwo_ctx _ _ _ h1]
        refine ⟨hi, hc, ?_, fun _ => ⟨fun h => absurd h hlp, fun h => absurd hk h⟩⟩
        unfold eventsOf
        rw [if_pos (Or.inr hk)]
        rfl
      · have hcmd : (fullEnv fe plug bad files paranoid lang).isCmd s.ctx (keyword l) = false := by
          show Dict.has s.ctx.reg.cmds (keyword l) = false
          unfold Dict.has
          rw [hc _ h2]
          rfl
        rw [if_neg (by simp [hk, hcmd])]
        unfold handleConfig
        have hev : eventsOf l = [.line (keyword l) (argument l)] := by
          unfold eventsOf
          rw [if_neg (by simp [hs, hk]), if_neg hlp]
        have hcf := configFull_world fe s.ctx (keyword l) (argument l)
        rw [hev]
        have herr : (PluginConf.line fe s.ctx.world (keyword l) (argument l)).2 = .raised →
            (configFull fe s.ctx (keyword l) (argument l)).2 = .raised .other := by
          intro h
          unfold configFull
          cases hx : PluginConf.line fe s.ctx.world (keyword l) (argument l) with
          | mk w r =>
            rw [hx] at h
            simp only at h
            subst h
            rfl
        show _ ∧ _ ∧ _ ∧ _
        cases hx : (fullEnv fe plug bad files paranoid lang).parseConfig s.ctx (keyword l) (argument l) with
        | mk c r =>
          have hx' : configFull fe s.ctx (keyword l) (argument l) = (c, r) := hx
          rw [hx'] at hcf herr
          simp only at hcf herr
          subst hcf
          cases r with
          | done b => exact ⟨hi, hc, rfl, fun _ => ⟨fun h => absurd h hlp, fun _ _ h => (by cases herr h)⟩⟩
          | raised e => exact ⟨hi, hc, rfl, fun _ => ⟨fun h => absurd h hlp, fun _ _ h => (by cases herr h; rfl)⟩⟩

theorem andThen_goes {C : Type} {p : Bool} {s' : State C} {e : Option Err} {k : State C → State C × Option Err}
    (h : (andThen p (s', e) k).2 = none) : andThen p (s', e) k = k s' := by
  cases e with
  | none => rfl
  | some e =>
    cases e with
    | «syntax» =>
      cases p with
      | true => simp [andThen] at h
      | false => simp [andThen]
    | pluginLoad => rfl
    | plugin => cases h
    | maxRec => cases h
    | other => cases h

theorem text_world (fe : Conf.FloatEnv F) (plug : Str → Context.Plugin) (bad : Str → Context.Err) (files : Str → Option (List Str)) (paranoid : Bool)
    (lang : Option Str) (words : List Str) (hp : Registers plug words) (lines : List Str) (hl : ∀ l ∈ lines, OptionLine words l)
    (s : State (FCtx F)) (hi : s.ignore = false) (hc : ∀ k, k ∉ words → Dict.get? s.ctx.reg.cmds k = none)
    (hn : (readText (fullEnv fe plug bad files paranoid lang) lines s).2 = none) :
    (readText (fullEnv fe plug bad files paranoid lang) lines s).1.ctx.world = PluginConf.run fe s.ctx.world (lines.flatMap eventsOf) ∧
    (readText (fullEnv fe plug bad files paranoid lang) lines s).1.ignore = false ∧
    ∀ k, k ∉ words → Dict.get? (readText (fullEnv fe plug bad files paranoid lang) lines s).1.ctx.reg.cmds k = none := by
  induction lines generalizing s with
  | nil => exact ⟨rfl, hi, hc⟩
  | cons l ls ih =>
    obtain ⟨h1, h2, h3, _⟩ := line_world fe plug bad files paranoid lang words hp (fun _ s => (s, none)) [] l (hl l (by simp)) s hi hc
    have hrun : PluginConf.run fe s.ctx.world ((l :: ls).flatMap eventsOf) =
        PluginConf.run fe (PluginConf.run fe s.ctx.world (eventsOf l)) (ls.flatMap eventsOf) := by
      unfold PluginConf.run
      rw [List.flatMap_cons, List.foldl_append]
    rw [hrun, ← h3]
    have hcons : readText (fullEnv fe plug bad files paranoid lang) (l :: ls) s = andThen paranoid
        (handleLine (fullEnv fe plug bad files paranoid lang) (fun _ s => (s, none)) [] l s) (readText (fullEnv fe plug bad files paranoid lang) ls) :=
      parseLines_cons _ _ _ _ _ _
    rw [hcons] at hn ⊢
    revert h1 h2 hn
    generalize handleLine (fullEnv fe plug bad files paranoid lang) (fun _ s => (s, none)) [] l s = r
    obtain ⟨s', e⟩ := r
    intro hn h1 h2
    have hgo := andThen_goes hn
    rw [hgo] at hn ⊢
    exact ih (fun x hx => hl x (by simp [hx])) s' h1 h2 hn

/-- Reading files is reading the lines that count. -/
theorem parseFiles_reads {C : Type} (E : Env C) (s0 : State C) {done files lines : List Str} (hf : Lines E s0 done files lines) :
    ∀ (s : State C), readText E done s0 = (s, none) → s.ignore = false → Scan.parseFiles E files s = readText E lines s := by
  induction hf with
  | nil => intro s _ _; rfl
  | @file done f text counted files out hf hc _ ih =>
    intro s hd hi
    obtain ⟨h1, h2⟩ := C12_nested_partial E s0 hc s hd hi
    have hone : parse E f s = readText E counted s := by
      unfold parse parseFile
      rw [hf]
      exact h1
    unfold Scan.parseFiles
    rw [hone, readText_cut]
    cases hr : readText E counted s with
    | mk s1 e =>
      rw [hr] at h2
      cases e with
      | some e => rfl
      | none => exact ih s1 (by rw [readText_cut, hd]; exact hr) h2
  | @missing done f files out hf _ ih =>
    intro s hd hi
    have hone : parse E f s = (s, none) := by
      unfold parse parseFile
      rw [hf]
    unfold Scan.parseFiles
    rw [hone]
    exact ih s hd hi

theorem linesOf_append (a b : List Ev) : linesOf (a ++ b) = linesOf a ++ linesOf b := by
  induction a with
  | nil => rfl
  | cons e a ih => cases e <;> simp [linesOf, ih]

theorem linesOf_events (lines : List Str) : linesOf (lines.flatMap eventsOf) = optionsGiven lines := by
  induction lines with
  | nil => rfl
  | cons l ls ih =>
    rw [List.flatMap_cons, linesOf_append, ih]
    unfold optionsGiven
    rw [List.filter_cons]
    unfold eventsOf
    by_cases h : Skipped l ∨ keyword l ∈ known2
    · rw [if_pos h, if_neg (by simp only [decide_eq_true_eq]; rintro ⟨h1, h2, _⟩; exact h.elim h1 h2)]
      rfl
    · rw [if_neg h]
      by_cases hk : keyword l = c!"loadplugin"
      · rw [if_pos hk, if_neg (by simp only [decide_eq_true_eq]; rintro ⟨_, _, h3⟩; exact h3 hk)]
        cases pluginNamed (argument l) <;> rfl
      · rw [if_neg hk, if_pos (by simp only [decide_eq_true_eq]; exact ⟨fun x => h (Or.inl x), fun x => h (Or.inr x), hk⟩)]
        rfl

section Files

variable (fe : Conf.FloatEnv F) (plug : Str → Context.Plugin) (bad : Str → Context.Err) (files : Str → Option (List Str)) (paranoid : Bool)
  (lang : Option Str) (words : List Str) (hp : Registers plug words) (main : Conf.St F) (classes : Dict Str (Conf.Cls F))

/-- **C170**, for configuration files: what reading them does to all options is what the lines that count do, one after the
other. -/
theorem C170_files {names lines : List Str} (hp : Registers plug words)
    (hf : Lines (fullEnv fe plug bad files paranoid lang) (freshState main classes) [] names lines)
    (hl : ∀ l ∈ lines, OptionLine words l)
    (hn : (Scan.parseFiles (fullEnv fe plug bad files paranoid lang) names (freshState main classes)).2 = none) :
    (Scan.parseFiles (fullEnv fe plug bad files paranoid lang) names (freshState main classes)).1.ctx.world =
      PluginConf.run fe (PluginConf.start main classes) (lines.flatMap eventsOf) := by
  rw [parseFiles_reads _ _ hf _ rfl rfl] at hn ⊢
  exact (text_world fe plug bad files paranoid lang words hp lines hl _ rfl (fun k _ => rfl) hn).1

/-- **C170**, for configuration files: a number, a switch or a text of a plugin is the last well-typed value after the line that
loads the plugin. -/
theorem C170_file_scalar {names before after : List Str} {ld name : Str} (hp : Registers plug words)
    (hf : Lines (fullEnv fe plug bad files paranoid lang) (freshState main classes) [] names (before ++ ld :: after))
    (hl : ∀ l ∈ before ++ ld :: after, OptionLine words l)
    (hn : (Scan.parseFiles (fullEnv fe plug bad files paranoid lang) names (freshState main classes)).2 = none)
    (hld : eventsOf ld = [.load name]) {cls0 : Conf.Cls F} (hdot : (rsplit1 '.' name).isSome) (hcls : Dict.get? classes name = some cls0)
    (hno : NoLoadOf (Dict.keys (PluginConf.run fe (PluginConf.start main classes) ((before ++ [ld]).flatMap eventsOf)).loaded)
      (after.flatMap eventsOf))
    (key : Str) (t : Conf.OptType) (dflt : Conf.OptVal F) (hk : Dict.get? cls0 key = some (t, dflt))
    (ht : t = .int ∨ t = .float ∨ t = .bool ∨ t = .str ∨ t = .list) (hd : ∀ l, dflt ≠ .list l) (ha : dflt ≠ .alias)
    (hclear : ∀ c, ¬ Conf.Clears cls0 c key)
    (hfree : ¬ Taken (PluginConf.run fe (PluginConf.start main classes) ((before ++ [ld]).flatMap eventsOf)) (Context.className name) key) :
    PluginConf.option (Scan.parseFiles (fullEnv fe plug bad files paranoid lang) names (freshState main classes)).1.ctx.world
      (Context.className name) key = some (Conf.lastGood fe t key (optionsGiven after) dflt) := by
  have hstep : PluginConf.run fe (PluginConf.start main classes) ((before ++ [ld]).flatMap eventsOf) =
      (PluginConf.load (PluginConf.run fe (PluginConf.start main classes) (before.flatMap eventsOf)) name).1 := by
    unfold PluginConf.run
    rw [List.flatMap_append, List.foldl_append]
    simp only [List.flatMap_cons, List.flatMap_nil, hld]
    rfl
  rw [C170_files fe plug bad files paranoid lang words main classes hp hf hl hn, List.flatMap_append, List.flatMap_cons, hld]
  rw [hstep] at hno hfree
  rw [← linesOf_events]
  exact C170_scalar fe main classes (before.flatMap eventsOf) (after.flatMap eventsOf) name cls0 hdot hcls hno key t dflt hk ht hd ha hclear hfree

/-- **C170**, for configuration files: a list of a plugin that is loaded once is its defaults and then everything that is given
after the line that loads the plugin. -/
theorem C170_file_append {names before after : List Str} {ld name : Str} (hp : Registers plug words)
    (hf : Lines (fullEnv fe plug bad files paranoid lang) (freshState main classes) [] names (before ++ ld :: after))
    (hl : ∀ l ∈ before ++ ld :: after, OptionLine words l)
    (hn : (Scan.parseFiles (fullEnv fe plug bad files paranoid lang) names (freshState main classes)).2 = none)
    (hld : eventsOf ld = [.load name]) {cls0 : Conf.Cls F} (hdot : (rsplit1 '.' name).isSome) (hcls : Dict.get? classes name = some cls0)
    (hno : NoLoadOf (Dict.keys (PluginConf.run fe (PluginConf.start main classes) ((before ++ [ld]).flatMap eventsOf)).loaded)
      (after.flatMap eventsOf))
    (honce : ∀ l ∈ before, eventsOf l ≠ [.load name])
    (key : Str) (t : Conf.OptType) (dflt : List Str) (hk : Dict.get? cls0 key = some (t, .list dflt))
    (ht : t = .append ∨ t = .appendSplit) (hclear : ∀ l ∈ optionsGiven after, ¬ Conf.Clears cls0 l.1 key)
    (hfree : ¬ Taken (PluginConf.run fe (PluginConf.start main classes) ((before ++ [ld]).flatMap eventsOf)) (Context.className name) key) :
    PluginConf.option (Scan.parseFiles (fullEnv fe plug bad files paranoid lang) names (freshState main classes)).1.ctx.world
      (Context.className name) key = some (.list (dflt ++ Conf.givenValues t key (optionsGiven after))) := by
  have hstep : PluginConf.run fe (PluginConf.start main classes) ((before ++ [ld]).flatMap eventsOf) =
      (PluginConf.load (PluginConf.run fe (PluginConf.start main classes) (before.flatMap eventsOf)) name).1 := by
    unfold PluginConf.run
    rw [List.flatMap_append, List.foldl_append]
    simp only [List.flatMap_cons, List.flatMap_nil, hld]
    rfl
  have honce' : Ev.load name ∉ before.flatMap eventsOf := by
    intro h
    obtain ⟨l, hm, h⟩ := List.mem_flatMap.1 h
    refine honce l hm ?_
    unfold eventsOf at h ⊢
    split at h
    · cases h
    · split at h
      · rw [if_neg (by assumption), if_pos (by assumption)]
        cases hn : pluginNamed (argument l) with
        | none => rw [hn] at h; cases h
        | some n =>
          rw [hn] at h
          simp only [Option.toList_some, List.map_cons, List.map_nil, List.mem_singleton] at h
          rw [h]
          rfl
      · simp at h
  rw [C170_files fe plug bad files paranoid lang words main classes hp hf hl hn, List.flatMap_append, List.flatMap_cons, hld]
  rw [hstep] at hno hfree
  rw [← linesOf_events] at hclear ⊢
  exact C170_append fe main classes (before.flatMap eventsOf) (after.flatMap eventsOf) name cls0 hdot hcls hno honce' key t dflt hk ht hclear
    hfree

theorem unreadable_raises (s : Conf.St F) (key value : Str) (t : Conf.OptType) (d : Conf.OptVal F) (hk : Dict.get? s.cls key = some (t, d))
    (hn : NoNumber fe t value) : ∃ e, (Conf.parseConfig fe s key value).2 = .error e := by
  obtain ⟨h1, ⟨rfl, h2⟩ | ⟨rfl, h2⟩⟩ := hn
  · exact ⟨.plugin, by simp [Conf.parseConfig, hk, Conf.setOption, Conf.setInt, h1, h2]⟩
  · exact ⟨.plugin, by simp [Conf.parseConfig, hk, Conf.setOption, Conf.setFloat, h1, h2]⟩

theorem asked_raises (w : World F) (key value : Str) (t : Conf.OptType) (ha : AskedFor w key t) (hn : NoNumber fe t value) :
    (PluginConf.line fe w key value).2 = .raised := by
  rcases ha with ⟨d, hk⟩ | ⟨hm, x, a, y, s, d, hx, hb, hs, hk⟩
  · obtain ⟨e, he⟩ := unreadable_raises fe w.main key value t d hk hn
    rw [line_main fe w key value ⟨_, hk⟩, he]
    rfl
  · obtain ⟨e, he⟩ := unreadable_raises fe s key value t d hk hn
    obtain ⟨n, hl, hc⟩ := plugin_some hs
    rw [line_passes fe w key value hm, hx, loop_first fe key value w x y a n s (t, d) hb hl hc hk, he]
    rfl

/-- **C170**, for configuration files: a line that cannot be read ends the reading with an exception; what the lines before it have done
stays, and the lines after it do nothing. -/
theorem C170_file_stops {names before after : List Str} {l : Str} (hp : Registers plug words)
    (hf : Lines (fullEnv fe plug bad files paranoid lang) (freshState main classes) [] names (before ++ l :: after))
    (hl : ∀ x ∈ before ++ [l], OptionLine words x)
    (hn : (readText (fullEnv fe plug bad files paranoid lang) before (freshState main classes)).2 = none)
    (hs : Stops fe bad (PluginConf.run fe (PluginConf.start main classes) (before.flatMap eventsOf)) l) :
    (Scan.parseFiles (fullEnv fe plug bad files paranoid lang) names (freshState main classes)).2 = some .other ∧
    (Scan.parseFiles (fullEnv fe plug bad files paranoid lang) names (freshState main classes)).1.ctx.world =
      PluginConf.run fe (PluginConf.start main classes) ((before ++ [l]).flatMap eventsOf) := by
  rw [parseFiles_reads _ _ hf _ rfl rfl]
  obtain ⟨h1, h2, h3⟩ := text_world fe plug bad files paranoid lang words hp before (fun x hx => hl x (by simp [hx])) _ rfl (fun k _ => rfl) hn
  rw [readText_cut]
  revert hn h1 h2 h3
  generalize readText (fullEnv fe plug bad files paranoid lang) before (freshState main classes) = r
  obtain ⟨s, e⟩ := r
  intro he h1 h2 h3
  simp only at he h1 h2 h3
  subst he
  simp only
  change s.ctx.world = PluginConf.run fe (PluginConf.start main classes) _ at h1
  obtain ⟨_, _, g3, g4⟩ := line_world fe plug bad files paranoid lang words hp (fun _ s => (s, none)) [] l (hl l (by simp)) s h2 h3
  rw [← h1] at hs
  have herr : (handleLine (fullEnv fe plug bad files paranoid lang) (fun _ s => (s, none)) [] l s).2 = some .other := by
    obtain ⟨hsk, ⟨hk, n, hpn, hbad⟩ | ⟨hk2, hk, t, ha, hno⟩⟩ := hs
    · rw [(g4 hsk).1 hk n hpn]
      unfold loadFull Context.load
      simp only [Option.isSome_none, Bool.not_false, Bool.true_and]
      by_cases hd : '.' ∈ n
      · obtain hbad | ⟨hc, hb⟩ := hbad
        · exact absurd hd hbad
        · rw [rsplit1_dot n hd]
          have hi : importOf plug bad s.ctx.world n = .failed .other := by
            unfold importOf Dict.has
            rw [hc, hb]
            rfl
          rw [hi]
          rfl
      · have : (rsplit1 '.' n).isNone = true := by
          cases h : rsplit1 '.' n with
          | none => rfl
          | some x => exact absurd ((Context.rsplit1_isSome '.' n).1 (by rw [h]; rfl)) hd
        rw [this]
        rfl
    · exact (g4 hsk).2 hk2 hk (asked_raises fe _ _ _ t ha hno)
  have hcons : readText (fullEnv fe plug bad files paranoid lang) (l :: after) s = andThen paranoid
      (handleLine (fullEnv fe plug bad files paranoid lang) (fun _ s => (s, none)) [] l s) (readText (fullEnv fe plug bad files paranoid lang) after) :=
    parseLines_cons _ _ _ _ _ _
  rw [hcons, show (handleLine (fullEnv fe plug bad files paranoid lang) (fun _ s => (s, none)) [] l s) =
    ((handleLine (fullEnv fe plug bad files paranoid lang) (fun _ s => (s, none)) [] l s).1, some .other) from Prod.ext rfl herr]
  refine ⟨rfl, ?_⟩
  show (handleLine (fullEnv fe plug bad files paranoid lang) (fun _ s => (s, none)) [] l s).1.ctx.world = _
  rw [g3, h1]
  simp only [PluginConf.run, List.flatMap_append, List.foldl_append, List.flatMap_cons, List.flatMap_nil, List.append_nil]

theorem main_run (evs : List Ev) (w : World F) : (PluginConf.run fe w evs).main = Conf.runLines fe w.main (linesOf evs) := by
  induction evs generalizing w with
  | nil => rfl
  | cons e evs ih =>
    show (PluginConf.run fe (PluginConf.step fe w e) evs).main = _
    rw [ih]
    cases e with
    | load n =>
      show Conf.runLines fe (PluginConf.load w n).1.main _ = _
      rw [(load_classes w n).2]
      rfl
    | line k v =>
      show Conf.runLines fe (PluginConf.line fe w k v).1.main _ = Conf.runLines fe (Conf.parseConfig fe w.main k v).1 _
      have hpass : ¬ MainDeclares w k → (Conf.parseConfig fe w.main k v).1 = w.main := by
        intro h
        rw [parse_passes fe w.main k v (by
          cases hk : Dict.get? w.main.cls k with
          | none => rfl
          | some t => exact absurd ⟨t, hk⟩ h)]
      rcases line_cases fe w k v with ⟨_, h⟩ | ⟨hm, _, h⟩ | ⟨hm, x, a, y, n, s, t, _, _, _, _, hl, h⟩
      · rw [h]
      · rw [h, hpass hm]
      · rw [h, hpass hm]
        rfl

/-- **C170**, for configuration files: an option of the main configuration of type int, float, bool or str is the last well-typed value
anywhere in the files, whatever plugins there are. -/
theorem C170_file_main {names lines : List Str} (cls : Conf.Cls F) (hp : Registers plug words)
    (hf : Lines (fullEnv fe plug bad files paranoid lang) (freshState (Conf.fresh cls) classes) [] names lines)
    (hl : ∀ l ∈ lines, OptionLine words l)
    (hn : (Scan.parseFiles (fullEnv fe plug bad files paranoid lang) names (freshState (Conf.fresh cls) classes)).2 = none)
    (key : Str) (t : Conf.OptType) (dflt : Conf.OptVal F) (hk : Dict.get? cls key = some (t, dflt))
    (ht : t = .int ∨ t = .float ∨ t = .bool ∨ t = .str ∨ t = .list) (hd : ∀ l, dflt ≠ .list l) (ha : dflt ≠ .alias)
    (hclear : ∀ c, ¬ Conf.Clears cls c key) :
    (Scan.parseFiles (fullEnv fe plug bad files paranoid lang) names (freshState (Conf.fresh cls) classes)).1.ctx.world.main.read key =
      some (Conf.lastGood fe t key (optionsGiven lines) dflt) := by
  rw [C170_files fe plug bad files paranoid lang words _ classes hp hf hl hn, main_run, linesOf_events]
  exact C19_last fe cls key t dflt hk ht hd ha hclear _

end Files

/-- A configuration in two files: an option is given before its plugin is loaded, and others after; there is a rule too. -/
def feFiles : Str → Option (List Str) := fun f =>
  if f = c!"a.cf" then some [c!"# plugins", c!"freemail_max_body_emails 9", c!"loadplugin oa.plugins.header_eval.HeaderEval",
    c!"loadplugin Mail::SpamAssassin::Plugin::FreeMail", c!"loadplugin Mail::SpamAssassin::Plugin::Unheard"]
  else if f = c!"b.cf" then some [c!"freemail_domains a.example  b.example", c!"freemail_max_body_emails 7", c!"body RULE /viagra/",
    c!"report_safe 0 # plain", c!""]
  else none

/-- The lines before, at and after the one that loads `FreeMail`. -/
def feBefore : List Str := [c!"# plugins", c!"freemail_max_body_emails 9", c!"loadplugin oa.plugins.header_eval.HeaderEval"]
def feLoad : Str := c!"loadplugin Mail::SpamAssassin::Plugin::FreeMail"
def feAfter : List Str := [c!"loadplugin Mail::SpamAssassin::Plugin::Unheard", c!"freemail_domains a.example  b.example",
  c!"freemail_max_body_emails 7", c!"body RULE /viagra/", c!"report_safe 0 # plain", c!""]

def fePlug : Str → Context.Plugin := fun n => ⟨n.length, [(c!"check_it", true)], [(c!"urirhsbl", true)]⟩

def feEnv : Env (FCtx Nat) := fullEnv pcEnv fePlug (fun _ => .loadError) feFiles false none

set_option maxRecDepth 8000 in
example :
    (Scan.parseFiles feEnv [c!"a.cf", c!"none.cf", c!"b.cf"] (freshState (Conf.fresh (Conf.padOptions 5 10 2)) tldClasses)).2 = none ∧
    let w := (Scan.parseFiles feEnv [c!"a.cf", c!"none.cf", c!"b.cf"] (freshState (Conf.fresh (Conf.padOptions 5 10 2)) tldClasses)).1.ctx.world
    PluginConf.option w c!"FreeMail" c!"freemail_domains" = some (.list [c!"a.example", c!"b.example"]) ∧
    PluginConf.option w c!"FreeMail" c!"freemail_max_body_emails" = some (.int 7) ∧
    w.main.read c!"report_safe" = some (.int 0) := by
  decide +kernel

theorem fe_registers : Registers fePlug [c!"urirhsbl"] := by
  intro n
  unfold fePlug
  simp

theorem fe_lines : Lines feEnv (freshState (Conf.fresh (Conf.padOptions 5 10 2)) tldClasses) [] [c!"a.cf", c!"none.cf", c!"b.cf"]
    (feBefore ++ feLoad :: feAfter) := by
  have plain : ∀ (ls : List Str), (∀ l ∈ ls, Plain l) → ∀ k f done, Counted feEnv (freshState (Conf.fresh (Conf.padOptions 5 10 2)) tldClasses) k f done ls ls := by
    intro ls
    induction ls with
    | nil => intro _ k f done; exact .nil
    | cons l ls ih => intro h k f done; exact .line (h l (by simp)) (ih (fun x hx => h x (by simp [hx])) _ _ _)
  refine Lines.file (text := feBefore ++ feLoad :: feAfter.take 1) (counted := feBefore ++ feLoad :: feAfter.take 1) (out := feAfter.drop 1)
    (by decide +kernel) (plain _ (by decide +kernel) _ _ _) ?_
  refine Lines.missing (by decide +kernel) ?_
  rw [show feAfter.drop 1 = feAfter.drop 1 ++ [] by simp]
  exact Lines.file (by decide +kernel) (plain _ (by decide +kernel) _ _ _) .nil

/-- The hypotheses of `C170_file_scalar` hold for these files. -/
example :
    PluginConf.option (Scan.parseFiles feEnv [c!"a.cf", c!"none.cf", c!"b.cf"]
      (freshState (Conf.fresh (Conf.padOptions 5 10 2)) tldClasses)).1.ctx.world c!"FreeMail" c!"freemail_max_body_emails" = some (.int 7) := by
  have := C170_file_scalar pcEnv fePlug (fun _ => .loadError) feFiles false none [c!"urirhsbl"] (Conf.fresh (Conf.padOptions 5 10 2)) tldClasses
    fe_registers fe_lines (by decide +kernel) (by decide +kernel) (name := c!"oa.plugins.free_mail.FreeMail") (by decide +kernel)
    (cls0 := freeMailOptions) rfl rfl
    (by
      intro n hn
      exfalso
      have : feAfter.flatMap eventsOf = [.line c!"freemail_domains" c!"a.example  b.example", .line c!"freemail_max_body_emails" c!"7",
        .line c!"report_safe" c!"0"] := by decide +kernel
      rw [this] at hn
      simp at hn)
    c!"freemail_max_body_emails" .int (.int 5) rfl (Or.inl rfl) (by simp) (by simp)
    (fun c => no_clears (name := c!"oa.plugins.free_mail.FreeMail") rfl c _)
    (by
      have hr : PluginConf.run pcEnv (PluginConf.start (Conf.fresh (Conf.padOptions 5 10 2)) tldClasses) ((feBefore ++ [feLoad]).flatMap eventsOf) =
          PluginConf.run pcEnv (PluginConf.start (Conf.fresh (Conf.padOptions 5 10 2)) tldClasses)
            [.line c!"freemail_max_body_emails" c!"9", .load c!"oa.plugins.header_eval.HeaderEval", .load c!"oa.plugins.free_mail.FreeMail"] := by
        congr 1
      rw [hr]
      rintro (⟨t, h⟩ | ⟨b, a, x, h, _, hx, ⟨s, t, h1, h2⟩⟩)
      · change none = some t at h
        cases h
      · change [c!"HeaderEval", c!"FreeMail"] = _ at h
        have hb : b = [c!"HeaderEval"] := by
          cases b with
          | nil => simp at h; exact absurd h.1 (by decide)
          | cons b1 b =>
            simp only [List.cons_append, List.cons.injEq] at h
            cases b with
            | nil => rw [h.1]
            | cons b2 b => simp at h
        subst hb
        simp only [List.mem_singleton] at hx
        subst hx
        change some (Conf.fresh (headerEvalOptions (F := Nat))) = some s at h1
        cases h1
        change none = some t at h2
        cases h2)
  rw [show Context.className c!"oa.plugins.free_mail.FreeMail" = c!"FreeMail" by decide +kernel] at this
  exact this.trans (by decide +kernel)

/-- The hypotheses of `C170_file_stops` hold for a file with a word for a number in it. -/
def fsFiles : Str → Option (List Str) := fun f =>
  if f = c!"a.cf" then some [c!"report_contact joe", c!"loadplugin oa.plugins.free_mail.FreeMail", c!"freemail_max_body_emails many",
    c!"report_safe 0"] else none

def fsEnv : Env (FCtx Nat) := fullEnv pcEnv fePlug (fun _ => .loadError) fsFiles false none

theorem fs_lines : Lines fsEnv (freshState (Conf.fresh (Conf.padOptions 5 10 2)) tldClasses) [] [c!"a.cf"]
    ([c!"report_contact joe", c!"loadplugin oa.plugins.free_mail.FreeMail"] ++ c!"freemail_max_body_emails many" :: [c!"report_safe 0"]) := by
  have plain : ∀ (ls : List Str), (∀ l ∈ ls, Plain l) → ∀ k f done, Counted fsEnv (freshState (Conf.fresh (Conf.padOptions 5 10 2)) tldClasses) k f done ls ls := by
    intro ls
    induction ls with
    | nil => intro _ k f done; exact .nil
    | cons l ls ih => intro h k f done; exact .line (h l (by simp)) (ih (fun x hx => h x (by simp [hx])) _ _ _)
  rw [← List.append_nil ([c!"report_contact joe", c!"loadplugin oa.plugins.free_mail.FreeMail"] ++ _)]
  exact Lines.file (text := [c!"report_contact joe", c!"loadplugin oa.plugins.free_mail.FreeMail", c!"freemail_max_body_emails many",
    c!"report_safe 0"]) (by decide +kernel) (plain _ (by decide +kernel) _ _ _) .nil

example : (Scan.parseFiles fsEnv [c!"a.cf"] (freshState (Conf.fresh (Conf.padOptions 5 10 2)) tldClasses)).2 = some .other := by
  refine (C170_file_stops pcEnv fePlug (fun _ => .loadError) fsFiles false none [c!"urirhsbl"] (Conf.fresh (Conf.padOptions 5 10 2)) tldClasses
    fe_registers fs_lines (by decide +kernel) (by decide +kernel) ⟨by decide +kernel, Or.inr ⟨by decide +kernel, by decide +kernel, .int, ?_,
      ⟨by decide +kernel, Or.inl ⟨rfl, by decide +kernel⟩⟩⟩⟩).1
  have hr : PluginConf.run pcEnv (PluginConf.start (Conf.fresh (Conf.padOptions 5 10 2)) tldClasses)
      ([c!"report_contact joe", c!"loadplugin oa.plugins.free_mail.FreeMail"].flatMap eventsOf) =
      PluginConf.run pcEnv (PluginConf.start (Conf.fresh (Conf.padOptions 5 10 2)) tldClasses)
        [.line c!"report_contact" c!"joe", .load c!"oa.plugins.free_mail.FreeMail"] := by
    congr 1
  rw [hr]
  refine Or.inr ⟨?_, [], c!"FreeMail", [], Conf.fresh freeMailOptions, .int 5, by decide +kernel, by simp, rfl, by rfl⟩
  rintro ⟨t, h⟩
  change none = some t at h
  cases h

end Verif.Props
