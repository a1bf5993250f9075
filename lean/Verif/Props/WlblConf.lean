import Verif.Spec.WlblConf
import Verif.Props.Wlbl
import Verif.Props.Conf
import Verif.Lemmas.Context

/-!
# C167: lists in the configuration take effect
-/

namespace Verif.Wlbl
open Verif Py Conf

variable {F : Type}

/-! ## Options -/

theorem not_clears (k key : Str) : ¬ Clears (wlblOptions (F := F)) k key := by
  rintro ⟨keys, h, _⟩
  have hm := Dict.mem_of_get? _ h
  simp [wlblOptions] at hm

/-- The state of the options after reading the lines. -/
abbrev conf (fe : FloatEnv F) (lines : List (Str × Str)) : St F := runLines fe ⟨wlblOptions, init wlblOptions⟩ lines

theorem option_words (fe : FloatEnv F) (lines : List (Str × Str)) (key : Str)
    (hk : Dict.get? (wlblOptions (F := F)) key = some (.appendSplit, .list [])) :
    option (conf fe lines) key = givenValues .appendSplit key lines := by
  have h := Props.C20_append fe (wlblOptions (F := F)) key .appendSplit [] (Or.inr rfl) hk lines
    (fun l _ => not_clears l.1 key)
  unfold option
  rw [show conf fe lines = runLines fe (fresh wlblOptions) lines from rfl, h]
  rfl

theorem mem_given (lines : List (Str × Str)) (key w : Str) : w ∈ givenValues .appendSplit key lines ↔ Given lines key w := by
  unfold givenValues Given
  simp only [List.mem_flatMap, List.mem_filter, decide_eq_true_eq, lineValues]
  constructor
  · rintro ⟨⟨k, v⟩, ⟨h1, h2⟩, h3⟩
    cases h2
    exact ⟨v, h1, h3⟩
  · rintro ⟨v, h1, h2⟩
    exact ⟨(key, v), ⟨h1, rfl⟩, h2⟩

/-- One more line for an option of which one line counts, or for another one. -/
theorem option_line (fe : FloatEnv F) (s : St F) (hc : ClsOk wlblOptions s.cls) (key : Str)
    (hk : Dict.get? (wlblOptions (F := F)) key = some (.list, .list [])) (k v : Str) :
    option (parseConfig fe s k v).1 key = if k = key then splitChar ',' v else option s key := by
  by_cases h : k = key
  · subst h
    have hf := (hc k).1
    rw [hk] at hf
    cases hg : Dict.get? s.cls k with
    | none => rw [hg] at hf; simp at hf
    | some p =>
      obtain ⟨t, d⟩ := p
      rw [hg] at hf
      simp at hf
      subst hf
      have hp := parseConfig_fst fe s k v .list d hg
      rw [hp]
      unfold option
      simp only [setOption]
      rw [read_set _ _ _ _ (by simp)]
      simp
  · have := ((line_effect fe wlblOptions s hc k v).2 key h).2 (not_clears k key)
    unfold option
    rw [this.1, if_neg h]

theorem elements_snoc (lines : List (Str × Str)) (k v key : Str) :
    elements (lines ++ [(k, v)]) key = if k = key then splitChar ',' v else elements lines key := by
  unfold elements
  by_cases h : k = key
  · simp [List.filter_append, h]
  · simp [List.filter_append, h]

theorem option_elements (fe : FloatEnv F) (key : Str)
    (hk : Dict.get? (wlblOptions (F := F)) key = some (.list, .list [])) (lines : List (Str × Str)) :
    option (conf fe lines) key = elements lines key := by
  refine Context.snocInd (P := fun lines => option (conf fe lines) key = elements lines key) ?_ ?_ lines
  · have hg : Dict.get? (init (wlblOptions (F := F))) key = some .alias := by rw [get?_init, hk]; rfl
    unfold option St.read
    show (match (match Dict.get? (init (wlblOptions (F := F))) key with
      | some .alias => (Dict.get? (wlblOptions (F := F)) key).map Prod.snd
      | v => v) with
      | some (.list l) => l
      | _ => []) = _
    rw [hg, hk]
    rfl
  · intro ls l ih
    obtain ⟨k, v⟩ := l
    rw [elements_snoc]
    show option (runLines fe _ (ls ++ [(k, v)])) key = _
    rw [runLines_append]
    show option (parseConfig fe (conf fe ls) k v).1 key = _
    rw [option_line fe _ (runLines_cls fe wlblOptions ls _ (clsOk_refl _)) key hk, ih]

/-! ## What `check_start` stores -/

theorem start_get (s : St F) (g g' : Globals) (h : checkStart s g = (g', true)) :
    Dict.get? g' c!"parsed_whitelist_from" = some (.exprs (parseList (option s c!"whitelist_from"))) ∧
    Dict.get? g' c!"parsed_whitelist_to" = some (.exprs (parseList (option s c!"whitelist_to"))) ∧
    Dict.get? g' c!"parsed_blacklist_from" = some (.exprs (parseList (option s c!"blacklist_from"))) ∧
    Dict.get? g' c!"parsed_blacklist_to" = some (.exprs (parseList (option s c!"blacklist_to"))) ∧
    Dict.get? g' c!"parsed_all_spam_to" = some (.exprs (parseList (option s c!"all_spam_to"))) ∧
    Dict.get? g' c!"parsed_more_spam_to" = some (.exprs (parseList (option s c!"more_spam_to"))) ∧
    Dict.get? g' c!"parsed_def_whitelist_from_rcvd" = some (.rcvd (parseInput (option s c!"def_whitelist_from_rcvd"))) ∧
    Dict.get? g' c!"parsed_whitelist_from_rcvd" = some (.rcvd (parseInput (option s c!"whitelist_from_rcvd"))) ∧
    Dict.get? g' c!"parsed_whitelist_allow_relays" = some (.exprs (parseList (option s c!"whitelist_allow_relays"))) ∧
    Dict.get? g' c!"parsed_delist_uri_host" = some (.hosts (parseDelist (option s c!"delist_uri_host"))) ∧
    Dict.get? g' c!"parsed_whitelist_uri_host" = some (.words (parseWords (option s c!"whitelist_uri_host"))) ∧
    Dict.get? g' c!"parsed_blacklist_uri_host" = some (.words (parseWords (option s c!"blacklist_uri_host"))) := by
  unfold checkStart at h
  simp only [] at h
  split at h
  · rename_i l hl
    have := (Prod.mk.inj h).1
    subst this
    refine ⟨?_, ?_, ?_, ?_, ?_, ?_, ?_, ?_, ?_, ?_, ?_, ?_⟩ <;>
      repeat first
        | rw [Dict.get?_set_self]
        | rw [Dict.get?_set_ne _ _ (by decide)]
  · cases (Prod.mk.inj h).2

/-- The names of the parsed lists. -/
def parsedNames : List Str :=
  (addressOptions ++ lineOptions).map (c!"parsed_" ++ ·)

theorem addInDict_eq (g : Globals) (items : List Str) (key : Str) (delist : List (Str × Str))
    (hd : hostsOf g c!"parsed_delist_uri_host" = delist) :
    addInDict g items key =
      (items.map fun i => (key, i)).filter fun p => decide ((p.1, p.2) ∉ delist ∧ (c!"ALL", p.2) ∉ delist) := by
  unfold addInDict
  rw [hd]
  simp only []
  induction items with
  | nil => rfl
  | cons i is ih =>
    simp only [List.filter_cons, List.map_cons, ← ih]
    split <;> rfl

theorem enlist_eq (g : Globals) (delist : List (Str × Str)) (hd : hostsOf g c!"parsed_delist_uri_host" = delist)
    (lines : List Str) :
    enlist g lines =
      if (∃ x ∈ lines, splitWs x = []) then none
      else some ((lines.flatMap fun x => match splitWs x with
        | k :: hosts => hosts.map fun h => (listName k, h)
        | [] => []).filter fun p => decide ((p.1, p.2) ∉ delist ∧ (c!"ALL", p.2) ∉ delist)) := by
  induction lines with
  | nil => simp [enlist]
  | cons x xs ih =>
    unfold enlist
    cases hx : splitWs x with
    | nil => simp [hx]
    | cons k hosts =>
      simp only [ih]
      by_cases h : ∃ y ∈ xs, splitWs y = []
      · have h' : ∃ y ∈ x :: xs, splitWs y = [] := by
          obtain ⟨y, hy, he⟩ := h
          exact ⟨y, by simp [hy], he⟩
        rw [if_pos h, if_pos h']
        rfl
      · have h' : ¬ ∃ y ∈ x :: xs, splitWs y = [] := by
          rintro ⟨y, hy, he⟩
          rcases List.mem_cons.mp hy with rfl | hy
          · rw [hx] at he; cases he
          · exact h ⟨y, hy, he⟩
        rw [if_neg h, if_neg h']
        simp only [Option.map_some, List.flatMap_cons, hx, List.filter_append]
        rw [addInDict_eq g _ _ delist hd]

/-- The lists of URI hosts, as the options give them. -/
def uriOf (s : St F) : UriConf :=
  ⟨option s c!"enlist_uri_host", option s c!"delist_uri_host", option s c!"whitelist_uri_host", option s c!"blacklist_uri_host"⟩

theorem start_uri (s : St F) (g : Globals) :
    ((checkStart s g).2 = false ↔ ∃ x ∈ option s c!"enlist_uri_host", splitWs x = []) ∧
    ((checkStart s g).2 = true →
      Dict.get? (checkStart s g).1 c!"parsed_enlist_uri_host" = some (.hosts (parseUris (uriOf s)))) := by
  unfold checkStart
  simp only []
  generalize hG : Dict.set _ c!"parsed_blacklist_uri_host" _ = G
  have hd : hostsOf G c!"parsed_delist_uri_host" = parseDelist (option s c!"delist_uri_host") := by
    unfold hostsOf
    subst hG
    rw [Dict.get?_set_ne _ _ (by decide), Dict.get?_set_ne _ _ (by decide), Dict.get?_set_self]
  have hw : wordsOf G c!"parsed_whitelist_uri_host" = parseWords (option s c!"whitelist_uri_host") := by
    unfold wordsOf
    subst hG
    rw [Dict.get?_set_ne _ _ (by decide), Dict.get?_set_self]
  have hb : wordsOf G c!"parsed_blacklist_uri_host" = parseWords (option s c!"blacklist_uri_host") := by
    unfold wordsOf
    subst hG
    rw [Dict.get?_set_self]
  unfold parseListUri
  rw [enlist_eq G _ hd]
  by_cases h : ∃ x ∈ option s c!"enlist_uri_host", splitWs x = []
  · rw [if_pos h]
    simp [h]
  · rw [if_neg h]
    simp only [Option.map_some, h, iff_false, true_implies]
    refine ⟨by simp, ?_⟩
    rw [Dict.get?_set_self, hw, hb, addInDict_eq G _ _ _ hd, addInDict_eq G _ _ _ hd]
    unfold parseUris uriOf parseWords
    simp only [List.filter_append]
    rfl

theorem start_other (s : St F) (g : Globals) (k : Str) (h : k ∉ parsedNames) :
    Dict.get? (checkStart s g).1 k = Dict.get? g k := by
  simp only [parsedNames, addressOptions, lineOptions, List.map_append, List.map_cons, List.map_nil, List.mem_append,
    List.mem_cons, List.not_mem_nil, or_false, not_or] at h
  obtain ⟨⟨h1, h2, h3, h4, h5, h6, h7⟩, h8, h9, h10, h11, h12, h13⟩ := h
  replace h1 : k ≠ c!"parsed_whitelist_from" := h1
  replace h2 : k ≠ c!"parsed_whitelist_to" := h2
  replace h3 : k ≠ c!"parsed_blacklist_from" := h3
  replace h4 : k ≠ c!"parsed_blacklist_to" := h4
  replace h5 : k ≠ c!"parsed_all_spam_to" := h5
  replace h6 : k ≠ c!"parsed_more_spam_to" := h6
  replace h7 : k ≠ c!"parsed_whitelist_allow_relays" := h7
  replace h8 : k ≠ c!"parsed_whitelist_from_rcvd" := h8
  replace h9 : k ≠ c!"parsed_def_whitelist_from_rcvd" := h9
  replace h10 : k ≠ c!"parsed_enlist_uri_host" := h10
  replace h11 : k ≠ c!"parsed_delist_uri_host" := h11
  replace h12 : k ≠ c!"parsed_whitelist_uri_host" := h12
  replace h13 : k ≠ c!"parsed_blacklist_uri_host" := h13
  unfold checkStart
  simp only []
  split
  · rw [Dict.get?_set_ne _ _ (Ne.symm h10), Dict.get?_set_ne _ _ (Ne.symm h13), Dict.get?_set_ne _ _ (Ne.symm h12),
      Dict.get?_set_ne _ _ (Ne.symm h11), Dict.get?_set_ne _ _ (Ne.symm h7), Dict.get?_set_ne _ _ (Ne.symm h8),
      Dict.get?_set_ne _ _ (Ne.symm h9), Dict.get?_set_ne _ _ (Ne.symm h6), Dict.get?_set_ne _ _ (Ne.symm h5),
      Dict.get?_set_ne _ _ (Ne.symm h4), Dict.get?_set_ne _ _ (Ne.symm h3), Dict.get?_set_ne _ _ (Ne.symm h2),
      Dict.get?_set_ne _ _ (Ne.symm h1)]
  · rw [Dict.get?_set_ne _ _ (Ne.symm h13), Dict.get?_set_ne _ _ (Ne.symm h12),
      Dict.get?_set_ne _ _ (Ne.symm h11), Dict.get?_set_ne _ _ (Ne.symm h7), Dict.get?_set_ne _ _ (Ne.symm h8),
      Dict.get?_set_ne _ _ (Ne.symm h9), Dict.get?_set_ne _ _ (Ne.symm h6), Dict.get?_set_ne _ _ (Ne.symm h5),
      Dict.get?_set_ne _ _ (Ne.symm h4), Dict.get?_set_ne _ _ (Ne.symm h3), Dict.get?_set_ne _ _ (Ne.symm h2),
      Dict.get?_set_ne _ _ (Ne.symm h1)]

theorem before_other (fe : FloatEnv F) (lines : List (Str × Str)) (n : Nat) (k : Str) (h : k ∉ parsedNames) :
    Dict.get? (before fe lines n).2 k = none := by
  unfold before
  simp only []
  generalize hs : runLines fe _ lines = s
  have : ∀ (l : List Nat) (g : Globals), Dict.get? g k = none →
      Dict.get? (l.foldl (fun g _ => (checkStart s g).1) g) k = none := by
    intro l
    induction l with
    | nil => intro g hg; exact hg
    | cons a as ih => intro g hg; exact ih _ (by rw [start_other s g k h]; exact hg)
  exact this _ _ rfl

/-! ## Rules -/

theorem anySearch_map {α : Type} (a : Str) (f : α → Str → Bool) (l : List α) :
    anySearch a (l.map fun x y => some (f x y)) = some (l.any fun x => f x a) := by
  induction l with
  | nil => rfl
  | cons x xs ih =>
    simp only [List.map_cons, anySearch, List.any_cons]
    cases f x a <;> simp [ih]

theorem addressIn_eq {α : Type} (R : RawSearch) (g : Globals) (name : Str) (p : Parsed) (l : List α) (f : α → Str → Bool)
    (hg : Dict.get? g name = some p) (hp : searches R p = l.map fun x y => some (f x y)) (as : List Str) :
    addressIn R g name as = some (as.any fun a => l.any fun x => f x a) := by
  induction as with
  | nil => rfl
  | cons a as ih =>
    unfold addressIn
    rw [hg]
    simp only [hp, anySearch_map, List.any_cons]
    cases l.any fun x => f x a <;> simp [ih]

theorem addressIn_exprs (R : RawSearch) (g : Globals) (name : Str) (l : List (List Tok))
    (hg : Dict.get? g name = some (.exprs l)) (as : List Str) :
    addressIn R g name as = some (addressInList as l) :=
  addressIn_eq R g name _ l search hg rfl as

theorem addressIn_none (R : RawSearch) (g : Globals) (name : Str) (hg : Dict.get? g name = none) (as : List Str) :
    addressIn R g name as ≠ some true := by
  cases as with
  | nil => simp [addressIn]
  | cons a as => simp [addressIn, hg]

theorem hostListed_eq (g : Globals) (c : UriConf) (hg : Dict.get? g c!"parsed_enlist_uri_host" = some (.hosts (parseUris c)))
    (list : Str) (uris : List Str) : hostListed g list uris = uriListed c list uris := by
  unfold hostListed uriListed hostsOf
  rw [hg]
  simp only []
  have h1 : List.map (stripChars c!"!") ((((parseUris c).filter fun p => decide (p.1 = list)).map Prod.snd).filter
      (fun h => startsWith c!"!" h)) = excluded c list := by
    unfold excluded
    induction parseUris c with
    | nil => rfl
    | cons p ps ih =>
      simp only [List.filter_cons, List.filterMap_cons]
      by_cases hp : p.1 = list
      · cases hs : startsWith c!"!" p.2 <;> simp_all
      · simp_all
  have h2 : (((parseUris c).filter fun p => decide (p.1 = list)).map Prod.snd).filter (fun h => !startsWith c!"!" h) =
      listed c list := by
    unfold listed
    induction parseUris c with
    | nil => rfl
    | cons p ps ih =>
      simp only [List.filter_cons, List.filterMap_cons]
      by_cases hp : p.1 = list
      · cases hs : startsWith c!"!" p.2 <;> simp_all
      · simp_all
  rw [h1, h2]

end Verif.Wlbl

namespace Verif.Wlbl
open Verif Py Conf

variable {F : Type}

/-- What the message has stored is nothing, or what the first evaluation found. -/
def Sound (N : InNet) (L : Lists) (m : WMsg) (v : WSt) : Prop :=
  (v.white = 0 ∨ v.white = checkInList N L m m.froms 0) ∧ (v.dflt = 0 ∨ v.dflt = checkInDefault N L m m.froms 0)

theorem white_sound (N : InNet) (L : Lists) (m : WMsg) (v : WSt) (h : Sound N L m v) :
    (fromInWhitelist N L m v).1 = (fromInWhitelist N L m WSt.init).1 ∧ Sound N L m (fromInWhitelist N L m v).2 ∧
    (fromInWhitelist N L m v).2.white = checkInList N L m m.froms 0 ∧ (fromInWhitelist N L m v).2.dflt = v.dflt := by
  obtain ⟨h1, h2⟩ := h
  unfold fromInWhitelist WSt.init
  by_cases h0 : v.white = 0
  · simp only [h0, if_true]
    exact ⟨trivial, ⟨Or.inr rfl, h2⟩, trivial, trivial⟩
  · have h1' := h1.resolve_left h0
    simp only [h0, if_false, if_true]
    exact ⟨by rw [h1'], ⟨h1, h2⟩, h1', by trivial⟩

theorem dflt_sound (N : InNet) (L : Lists) (m : WMsg) (v : WSt) (h : Sound N L m v) :
    (fromInDefault N L m v).1 = (fromInDefault N L m WSt.init).1 ∧ Sound N L m (fromInDefault N L m v).2 ∧
    (fromInDefault N L m v).2.dflt = checkInDefault N L m m.froms 0 ∧ (fromInDefault N L m v).2.white = v.white := by
  obtain ⟨h1, h2⟩ := h
  unfold fromInDefault WSt.init
  by_cases h0 : v.dflt = 0
  · simp only [h0, if_true]
    exact ⟨trivial, ⟨h1, Or.inr rfl⟩, trivial, trivial⟩
  · have h2' := h2.resolve_left h0
    simp only [h0, if_false, if_true]
    exact ⟨by rw [h2'], ⟨h1, h2⟩, h2', by trivial⟩

theorem init_sound (N : InNet) (L : Lists) (m : WMsg) : Sound N L m WSt.init := ⟨Or.inl rfl, Or.inl rfl⟩

theorem both_sound (N : InNet) (L : Lists) (m : WMsg) (v : WSt) (h : Sound N L m v) :
    (fromInDefault N L m (fromInWhitelist N L m v).2).2 =
      ⟨checkInList N L m m.froms 0, checkInDefault N L m m.froms 0⟩ := by
  obtain ⟨_, a2, a3, _⟩ := white_sound N L m v h
  obtain ⟨_, _, b3, b4⟩ := dflt_sound N L m _ a2
  rw [a3] at b4
  cases hq : (fromInDefault N L m (fromInWhitelist N L m v).2).2 with
  | mk w d =>
    rw [hq] at b3 b4
    simp only at b3 b4
    rw [b3, b4]

theorem forged_sound (N : InNet) (L : Lists) (m : WMsg) (v : WSt) (h : Sound N L m v) :
    ((forgedInWhitelist N L m v).1 = (forgedInWhitelist N L m WSt.init).1 ∧ Sound N L m (forgedInWhitelist N L m v).2) ∧
    ((forgedInDefault N L m v).1 = (forgedInDefault N L m WSt.init).1 ∧ Sound N L m (forgedInDefault N L m v).2) := by
  unfold forgedInWhitelist forgedInDefault
  simp only [both_sound N L m v h, both_sound N L m _ (init_sound N L m)]
  exact ⟨⟨by trivial, Or.inr rfl, Or.inr rfl⟩, by trivial, Or.inr rfl, Or.inr rfl⟩

theorem rule_sound (R : RawSearch) (N : InNet) (s : St F) (g : Globals) (m : Seen) (v : WSt) (h : Sound N (listsOf g) m.w v)
    (name : Str) (args : List Str) :
    (evalRule R N s g m v name args).1 = (evalRule R N s g m WSt.init name args).1 ∧
    Sound N (listsOf g) m.w (evalRule R N s g m v name args).2 := by
  obtain ⟨a1, a2, _⟩ := white_sound N (listsOf g) m.w v h
  obtain ⟨b1, b2, _⟩ := dflt_sound N (listsOf g) m.w v h
  obtain ⟨⟨c1, c2⟩, d1, d2⟩ := forged_sound N (listsOf g) m.w v h
  unfold evalRule
  split
  · by_cases h1 : name = c!"check_from_in_whitelist"
    · simp only [if_pos h1]; exact ⟨by rw [a1], a2⟩
    simp only [if_neg h1]
    by_cases h2 : name = c!"check_to_in_whitelist"
    · simp only [if_pos h2]; exact ⟨trivial, h⟩
    simp only [if_neg h2]
    by_cases h3 : name = c!"check_from_in_blacklist"
    · simp only [if_pos h3]; exact ⟨trivial, h⟩
    simp only [if_neg h3]
    by_cases h4 : name = c!"check_to_in_blacklist"
    · simp only [if_pos h4]; exact ⟨trivial, h⟩
    simp only [if_neg h4]
    by_cases h5 : name = c!"check_to_in_all_spam"
    · simp only [if_pos h5]; exact ⟨trivial, h⟩
    simp only [if_neg h5]
    by_cases h6 : name = c!"check_to_in_more_spam"
    · simp only [if_pos h6]; exact ⟨trivial, h⟩
    simp only [if_neg h6]
    by_cases h7 : name = c!"check_from_in_default_whitelist"
    · simp only [if_pos h7]; exact ⟨by rw [b1], b2⟩
    simp only [if_neg h7]
    by_cases h8 : name = c!"check_mailfrom_matches_rcvd"
    · simp only [if_pos h8]; exact ⟨trivial, h⟩
    simp only [if_neg h8]
    by_cases h9 : name = c!"check_forged_in_whitelist"
    · simp only [if_pos h9]; exact ⟨by rw [c1], c2⟩
    simp only [if_neg h9]
    by_cases h10 : name = c!"check_forged_in_default_whitelist"
    · simp only [if_pos h10]; exact ⟨by rw [d1], d2⟩
    simp only [if_neg h10]
    split
    · exact ⟨rfl, h⟩
    · split <;> exact ⟨rfl, h⟩
  · split
    · exact ⟨rfl, h⟩
    · split
      · exact ⟨rfl, h⟩
      · split <;> exact ⟨rfl, h⟩
  · exact ⟨rfl, h⟩

theorem rules_eq (R : RawSearch) (N : InNet) (s : St F) (g : Globals) (m : Seen) (rules : List (Str × List Str)) :
    ∀ v, Sound N (listsOf g) m.w v →
      evalRules R N s g m v rules = rules.map fun r => (evalRule R N s g m WSt.init r.1 r.2).1 := by
  induction rules with
  | nil => intro v _; rfl
  | cons r rs ih =>
    intro v hv
    obtain ⟨h1, h2⟩ := rule_sound R N s g m v hv r.1 r.2
    simp only [evalRules, List.map_cons, h1, ih _ h2]

/-- The result of a rule in the check of a message. -/
theorem result_eq (R : RawSearch) (N : InNet) (fe : FloatEnv F) (lines : List (Str × Str)) (n : Nat) (m : Seen)
    (rules : List (Str × List Str)) (res : List (Option Bool)) (h : checkMsg R N fe lines n m rules = some res)
    (i : Nat) (f : Str) (args : List Str) (hi : rules[i]? = some (f, args)) :
    ∃ g, checkStart (conf fe lines) (before fe lines n).2 = (g, true) ∧
      res[i]? = some (evalRule R N (conf fe lines) g m WSt.init f args).1 := by
  unfold checkMsg at h
  simp only [] at h
  have hb : (before fe lines n).1 = conf fe lines := rfl
  rw [hb] at h
  split at h
  · rename_i g hg
    refine ⟨g, hg, ?_⟩
    have := Option.some.inj h
    rw [← this, rules_eq R N _ g m rules WSt.init (init_sound _ _ _)]
    simp [hi]
  · cases h

end Verif.Wlbl

namespace Verif.Props
open Verif Py Conf Wlbl

variable {F : Type}

/-- The lists are read for every message, and the rules evaluated, unless the last `enlist_uri_host` line has an element without any word. -/
theorem C167_starts_partial (R : RawSearch) (N : InNet) (fe : FloatEnv F) (lines : List (Str × Str)) (n : Nat) (m : Seen)
    (rules : List (Str × List Str)) (h : ∀ x ∈ elements lines c!"enlist_uri_host", splitWs x ≠ []) :
    ∃ res, checkMsg R N fe lines n m rules = some res ∧ res.length = rules.length := by
  have ho := option_elements fe c!"enlist_uri_host" (by rfl) lines
  have hs := (start_uri (conf fe lines) (before fe lines n).2).1
  rw [ho] at hs
  cases hc : checkStart (conf fe lines) (before fe lines n).2 with
  | mk g b =>
    rw [hc] at hs
    cases b with
    | false =>
      obtain ⟨x, hx, hb⟩ := hs.mp rfl
      exact absurd hb (h x hx)
    | true =>
      refine ⟨_, by unfold checkMsg; simp only []; rw [show (before fe lines n).1 = conf fe lines from rfl, hc], ?_⟩
      rw [rules_eq R N _ g m rules WSt.init (init_sound _ _ _), List.length_map]

/-- An `enlist_uri_host` line with an element without any word, such as one that ends in a comma, makes the check of every message fail. -/
theorem C167_blank_violated (R : RawSearch) (N : InNet) (fe : FloatEnv F) (lines : List (Str × Str)) (n : Nat) (m : Seen)
    (rules : List (Str × List Str)) (x : Str) (hx : x ∈ elements lines c!"enlist_uri_host") (hb : splitWs x = []) :
    checkMsg R N fe lines n m rules = none := by
  have ho := option_elements fe c!"enlist_uri_host" (by rfl) lines
  have hs := (start_uri (conf fe lines) (before fe lines n).2).1
  rw [ho] at hs
  have hf := hs.mpr ⟨x, hx, hb⟩
  unfold checkMsg
  simp only []
  rw [show (before fe lines n).1 = conf fe lines from rfl]
  cases hc : checkStart (conf fe lines) (before fe lines n).2 with
  | mk g b =>
    rw [hc] at hf
    simp only at hf
    subst hf
    rfl

example : (c!" " ∈ elements [(c!"enlist_uri_host", c!"(MY) bank.com, ")] c!"enlist_uri_host") ∧ splitWs c!" " = [] := by
  decide +kernel

/-- Each of the rules about addresses is about the addresses of authors or recipients and about all the words the lines for its option
give, whatever other lines and rules there are and whatever messages came before.  Missing: that an entry must stand for the whole address
(C66). -/
theorem C167_addresses_partial (R : RawSearch) (N : InNet) (fe : FloatEnv F) (lines : List (Str × Str)) (n : Nat) (m : Seen)
    (rules : List (Str × List Str)) (res : List (Option Bool)) (h : checkMsg R N fe lines n m rules = some res)
    (i : Nat) (f opt : Str) (who : Who) (hi : rules[i]? = some (f, [])) (hf : (f, who, opt) ∈ addressRules) :
    ∃ b, res[i]? = some (some b) ∧
      (b = true ↔ ∃ a ∈ m.addresses who, ∃ e, Given lines opt e ∧ Usable e ∧ Within 0 (whole e) a) := by
  obtain ⟨g, hg, hr⟩ := result_eq R N fe lines n m rules res h i f [] hi
  obtain ⟨_, g2, g3, g4, g5, g6, _⟩ := start_get _ _ _ hg
  have key : ∀ (name opt : Str) (as : List Str),
      Dict.get? (wlblOptions (F := F)) opt = some (.appendSplit, .list []) →
      Dict.get? g name = some (.exprs (parseList (option (conf fe lines) opt))) →
      ∃ b, addressIn R g name as = some b ∧
        (b = true ↔ ∃ a ∈ as, ∃ e, Given lines opt e ∧ Usable e ∧ Within 0 (whole e) a) := by
    intro name opt as ho hn
    refine ⟨_, addressIn_exprs R g name _ hn as, ?_⟩
    rw [C66_exact_partial, option_words fe lines opt ho]
    simp only [mem_given]
  rw [hr]
  simp only [addressRules, List.mem_cons, Prod.mk.injEq, List.not_mem_nil, or_false] at hf
  rcases hf with ⟨rfl, rfl, rfl⟩ | ⟨rfl, rfl, rfl⟩ | ⟨rfl, rfl, rfl⟩ | ⟨rfl, rfl, rfl⟩ | ⟨rfl, rfl, rfl⟩
  · obtain ⟨b, h1, h2⟩ := key _ _ m.tos (by rfl) g2
    exact ⟨b, congrArg some h1, h2⟩
  · obtain ⟨b, h1, h2⟩ := key _ _ m.w.froms (by rfl) g3
    exact ⟨b, congrArg some h1, h2⟩
  · obtain ⟨b, h1, h2⟩ := key _ _ m.tos (by rfl) g4
    exact ⟨b, congrArg some h1, h2⟩
  · obtain ⟨b, h1, h2⟩ := key _ _ m.tos (by rfl) g5
    exact ⟨b, congrArg some h1, h2⟩
  · obtain ⟨b, h1, h2⟩ := key _ _ m.tos (by rfl) g6
    exact ⟨b, congrArg some h1, h2⟩

/-- `check_from_in_list` and `check_to_in_list` are about the option they name.  Missing: as above. -/
theorem C167_named_partial (R : RawSearch) (N : InNet) (fe : FloatEnv F) (lines : List (Str × Str)) (n : Nat) (m : Seen)
    (rules : List (Str × List Str)) (res : List (Option Bool)) (h : checkMsg R N fe lines n m rules = some res)
    (i : Nat) (f opt : Str) (who : Who) (hi : rules[i]? = some (f, [opt])) (hf : (f, who) ∈ namingRules) (ho : opt ∈ addressOptions) :
    ∃ b, res[i]? = some (some b) ∧
      (b = true ↔ ∃ a ∈ m.addresses who, ∃ e, Given lines opt e ∧ Usable e ∧ Within 0 (whole e) a) := by
  obtain ⟨g, hg, hr⟩ := result_eq R N fe lines n m rules res h i f [opt] hi
  obtain ⟨g1, g2, g3, g4, g5, g6, _, _, g9, _⟩ := start_get _ _ _ hg
  have hopt : Dict.get? (wlblOptions (F := F)) opt = some (.appendSplit, .list []) ∧ opt ≠ [] ∧
      Dict.get? g (c!"parsed_" ++ opt) = some (.exprs (parseList (option (conf fe lines) opt))) := by
    simp only [addressOptions, List.mem_cons, List.not_mem_nil, or_false] at ho
    rcases ho with rfl | rfl | rfl | rfl | rfl | rfl | rfl
    · exact ⟨rfl, by decide, g1⟩
    · exact ⟨rfl, by decide, g2⟩
    · exact ⟨rfl, by decide, g3⟩
    · exact ⟨rfl, by decide, g4⟩
    · exact ⟨rfl, by decide, g5⟩
    · exact ⟨rfl, by decide, g6⟩
    · exact ⟨rfl, by decide, g9⟩
  obtain ⟨o1, o2, o3⟩ := hopt
  have key : ∀ as : List Str, ∃ b, addressIn R g (c!"parsed_" ++ opt) as = some b ∧
      (b = true ↔ ∃ a ∈ as, ∃ e, Given lines opt e ∧ Usable e ∧ Within 0 (whole e) a) := by
    intro as
    refine ⟨_, addressIn_exprs R g _ _ o3 as, ?_⟩
    rw [C66_exact_partial, option_words fe lines opt o1]
    simp only [mem_given]
  rw [hr]
  simp only [namingRules, List.mem_cons, Prod.mk.injEq, List.not_mem_nil, or_false] at hf
  rcases hf with ⟨rfl, rfl⟩ | ⟨rfl, rfl⟩
  · obtain ⟨b, h1, h2⟩ := key m.w.froms
    refine ⟨b, ?_, h2⟩
    show some (if opt = [] then some false else addressIn R g (c!"parsed_" ++ opt) m.w.froms) = _
    rw [if_neg o2, h1]
  · obtain ⟨b, h1, h2⟩ := key m.tos
    exact ⟨b, congrArg some h1, h2⟩

/-- A rule that names no list of the plugin never holds. -/
theorem C167_unknown (R : RawSearch) (N : InNet) (fe : FloatEnv F) (lines : List (Str × Str)) (n : Nat) (m : Seen)
    (rules : List (Str × List Str)) (res : List (Option Bool)) (h : checkMsg R N fe lines n m rules = some res)
    (i : Nat) (f list : Str) (who : Who) (hi : rules[i]? = some (f, [list])) (hf : (f, who) ∈ namingRules)
    (hl : list ∉ addressOptions ++ lineOptions) : res[i]? ≠ some (some true) := by
  obtain ⟨g, hg, hr⟩ := result_eq R N fe lines n m rules res h i f [list] hi
  have hn : (c!"parsed_" ++ list) ∉ parsedNames := by
    unfold parsedNames
    intro hm
    obtain ⟨x, hx, he⟩ := List.mem_map.mp hm
    have : x = list := List.append_cancel_left he
    exact hl (this ▸ hx)
  have hg0 : Dict.get? g (c!"parsed_" ++ list) = none := by
    have h1 := start_other (conf fe lines) (before fe lines n).2 _ hn
    rw [hg, before_other fe lines n _ hn] at h1
    exact h1
  rw [hr]
  intro hc
  have hc := Option.some.inj hc
  simp only [namingRules, List.mem_cons, Prod.mk.injEq, List.not_mem_nil, or_false] at hf
  rcases hf with ⟨rfl, rfl⟩ | ⟨rfl, rfl⟩
  · have hc : (if list = [] then some false else addressIn R g (c!"parsed_" ++ list) m.w.froms) = some true := hc
    by_cases h0 : list = []
    · rw [if_pos h0] at hc; cases hc
    · rw [if_neg h0] at hc; exact addressIn_none R g _ hg0 _ hc
  · exact addressIn_none R g _ hg0 _ hc

/-- A rule that names a list with relays does not ask for the relays: it holds for every author address that an entry stands for, wherever
the message came from. -/
theorem C167_relay_violated (R : RawSearch) (N : InNet) (fe : FloatEnv F) (lines : List (Str × Str)) (n : Nat) (m : Seen)
    (rules : List (Str × List Str)) (res : List (Option Bool)) (h : checkMsg R N fe lines n m rules = some res)
    (i : Nat) (hi : rules[i]? = some (c!"check_from_in_list", [c!"whitelist_from_rcvd"])) :
    res[i]? = some (some true) ↔
      ∃ a ∈ m.w.froms, ∃ e d, (e, d) ∈ parseInput (elements lines c!"whitelist_from_rcvd") ∧ Within 0 e a := by
  obtain ⟨g, hg, hr⟩ := result_eq R N fe lines n m rules res h i _ _ hi
  obtain ⟨_, _, _, _, _, _, _, g8, _⟩ := start_get _ _ _ hg
  rw [option_elements fe _ (by rfl)] at g8
  rw [hr]
  show some (addressIn R g c!"parsed_whitelist_from_rcvd" m.w.froms) = _ ↔ _
  rw [addressIn_eq R g _ _ (parseInput (elements lines c!"whitelist_from_rcvd")) (fun p a => search (escapeAddr p.1) a) g8 rfl]
  simp only [Option.some.injEq, List.any_eq_true, search_escape]
  constructor
  · rintro ⟨a, ha, ⟨e, d⟩, hp, hw⟩
    exact ⟨a, ha, e, d, hp, hw⟩
  · rintro ⟨a, ha, e, d, hp, hw⟩
    exact ⟨a, ha, (e, d), hp, hw⟩

/-- The lists with relays: `whitelist_from` adds up, `whitelist_from_rcvd` and `def_whitelist_from_rcvd` are those of the last line.
Missing: that all lines should count (`C167_lines_violated`), and what C68 is missing. -/
theorem C167_whitelist_partial (R : RawSearch) (N : InNet) (fe : FloatEnv F) (lines : List (Str × Str)) (n : Nat) (m : Seen)
    (rules : List (Str × List Str)) (res : List (Option Bool)) (h : checkMsg R N fe lines n m rules = some res) (i : Nat) :
    (rules[i]? = some (c!"check_from_in_whitelist", []) → ∃ b, res[i]? = some (some b) ∧
      (b = true ↔ ∃ a ∈ m.w.froms, (∃ e, Given lines c!"whitelist_from" e ∧ Usable e ∧ Within 0 (whole e) a) ∨
        Accepts N m.w (parseInput (elements lines c!"whitelist_from_rcvd")) a)) ∧
    (rules[i]? = some (c!"check_from_in_default_whitelist", []) → ∃ b, res[i]? = some (some b) ∧
      (b = true ↔ ∃ a ∈ m.w.froms, Accepts N m.w (parseInput (elements lines c!"def_whitelist_from_rcvd")) a)) := by
  have hL : ∀ g, checkStart (conf fe lines) (before fe lines n).2 = (g, true) → listsOf g =
      ⟨parseList (givenValues .appendSplit c!"whitelist_from" lines), parseInput (elements lines c!"whitelist_from_rcvd"),
        parseInput (elements lines c!"def_whitelist_from_rcvd"),
        parseList (givenValues .appendSplit c!"whitelist_allow_relays" lines)⟩ := by
    intro g hg
    obtain ⟨g1, _, _, _, _, _, g7, g8, g9, _⟩ := start_get _ _ _ hg
    unfold listsOf exprsOf rcvdOf
    rw [g1, g7, g8, g9, option_words fe lines c!"whitelist_from" (by rfl), option_words fe lines c!"whitelist_allow_relays" (by rfl),
      option_elements fe c!"whitelist_from_rcvd" (by rfl), option_elements fe c!"def_whitelist_from_rcvd" (by rfl)]
  constructor
  · intro hi
    obtain ⟨g, hg, hr⟩ := result_eq R N fe lines n m rules res h i _ _ hi
    refine ⟨_, hr, ?_⟩
    rw [hL g hg]
    have := C68_whitelisted_partial N m.w (givenValues .appendSplit c!"whitelist_from" lines) (elements lines c!"whitelist_from_rcvd")
      (elements lines c!"def_whitelist_from_rcvd") (givenValues .appendSplit c!"whitelist_allow_relays" lines)
    simp only [mem_given] at this
    exact this
  · intro hi
    obtain ⟨g, hg, hr⟩ := result_eq R N fe lines n m rules res h i _ _ hi
    refine ⟨_, hr, ?_⟩
    rw [hL g hg]
    exact C68_default_partial _ _ _

/-- The other two rules about whitelists with relays are about the same lists. -/
theorem C167_forged_partial (R : RawSearch) (N : InNet) (fe : FloatEnv F) (lines : List (Str × Str)) (n : Nat) (m : Seen)
    (rules : List (Str × List Str)) (res : List (Option Bool)) (h : checkMsg R N fe lines n m rules = some res) (i : Nat) :
    let L : Lists := ⟨parseList (givenValues .appendSplit c!"whitelist_from" lines), parseInput (elements lines c!"whitelist_from_rcvd"),
        parseInput (elements lines c!"def_whitelist_from_rcvd"),
        parseList (givenValues .appendSplit c!"whitelist_allow_relays" lines)⟩
    (rules[i]? = some (c!"check_forged_in_whitelist", []) → res[i]? = some (some (forgedInWhitelist N L m.w WSt.init).1)) ∧
    (rules[i]? = some (c!"check_forged_in_default_whitelist", []) → res[i]? = some (some (forgedInDefault N L m.w WSt.init).1)) := by
  intro L
  have hL : ∀ g, checkStart (conf fe lines) (before fe lines n).2 = (g, true) → listsOf g = L := by
    intro g hg
    obtain ⟨g1, _, _, _, _, _, g7, g8, g9, _⟩ := start_get _ _ _ hg
    unfold listsOf exprsOf rcvdOf
    rw [g1, g7, g8, g9, option_words fe lines c!"whitelist_from" (by rfl), option_words fe lines c!"whitelist_allow_relays" (by rfl),
      option_elements fe c!"whitelist_from_rcvd" (by rfl), option_elements fe c!"def_whitelist_from_rcvd" (by rfl)]
  constructor
  · intro hi
    obtain ⟨g, hg, hr⟩ := result_eq R N fe lines n m rules res h i _ _ hi
    rw [← hL g hg]
    exact hr
  · intro hi
    obtain ⟨g, hg, hr⟩ := result_eq R N fe lines n m rules res h i _ _ hi
    rw [← hL g hg]
    exact hr

/-- The rule about the sender's domain knows the top-level domains that the three options give, in any lines. -/
theorem C167_domains (R : RawSearch) (N : InNet) (fe : FloatEnv F) (lines : List (Str × Str)) (n : Nat) (m : Seen)
    (rules : List (Str × List Str)) (res : List (Option Bool)) (h : checkMsg R N fe lines n m rules = some res)
    (i : Nat) (hi : rules[i]? = some (c!"check_mailfrom_matches_rcvd", [])) :
    ∃ tlds, (∀ w, w ∈ tlds ↔ Given lines c!"util_rb_tld" w ∨ Given lines c!"util_rb_2tld" w ∨ Given lines c!"util_rb_3tld" w) ∧
      res[i]? = some (mailfromMatches tlds m.sender m.w) := by
  obtain ⟨g, _, hr⟩ := result_eq R N fe lines n m rules res h i _ _ hi
  refine ⟨tldsOf (conf fe lines), fun w => ?_, hr⟩
  unfold tldsOf
  rw [option_words fe lines _ (by rfl), option_words fe lines _ (by rfl), option_words fe lines _ (by rfl)]
  simp only [List.mem_append, mem_given, or_assoc]

/-- The rules about URIs are about the hosts of the last lines of the four options.  Missing: that all lines should count
(`C167_lines_violated`), and what C70 is missing. -/
theorem C167_uris_partial (R : RawSearch) (N : InNet) (fe : FloatEnv F) (lines : List (Str × Str)) (n : Nat) (m : Seen)
    (rules : List (Str × List Str)) (res : List (Option Bool)) (h : checkMsg R N fe lines n m rules = some res)
    (i : Nat) (f list : Str) (args : List Str) (hi : rules[i]? = some (f, args)) (hf : UriRule f args list) :
    ∃ b, res[i]? = some (some b) ∧
      (b = true ↔ ∃ u ∈ m.uris,
        (∃ x, startsWith c!"!" x = false ∧ Enlisted (uriLists lines) list x ∧ ¬ Delisted (uriLists lines) list x ∧ ∃ y, u = y ++ x) ∧
        ¬ ∃ w, startsWith c!"!" w = true ∧ Enlisted (uriLists lines) list w ∧ ¬ Delisted (uriLists lines) list w ∧
          u = stripChars c!"!" w) := by
  obtain ⟨g, hg, hr⟩ := result_eq R N fe lines n m rules res h i _ _ hi
  have hu := (start_uri (conf fe lines) (before fe lines n).2).2
  rw [hg] at hu
  have hc : uriOf (conf fe lines) = uriLists lines := by
    unfold uriOf uriLists
    rw [option_elements fe _ (by rfl), option_elements fe _ (by rfl), option_elements fe _ (by rfl), option_elements fe _ (by rfl)]
  rw [hc] at hu
  have hl := hostListed_eq g (uriLists lines) (hu rfl) list m.uris
  refine ⟨uriListed (uriLists lines) list m.uris, ?_, C70_exact_partial _ _ _⟩
  rw [hr, ← hl]
  rcases hf with ⟨rfl, rfl, rfl⟩ | ⟨rfl, rfl, rfl⟩ | ⟨rfl, rfl⟩ <;> rfl

end Verif.Props

namespace Verif.Wlbl
open Verif Py Conf

variable {F : Type}

theorem option_kinds (k : Str) (h : k ∈ Dict.keys (wlblOptions (F := F))) :
    Dict.get? (wlblOptions (F := F)) k = some (.appendSplit, .list []) ∨
    Dict.get? (wlblOptions (F := F)) k = some (.list, .list []) := by
  simp only [Dict.keys, wlblOptions, List.map_cons, List.map_nil, List.mem_cons, List.not_mem_nil, or_false] at h
  rcases h with rfl | rfl | rfl | rfl | rfl | rfl | rfl | rfl | rfl | rfl | rfl | rfl | rfl | rfl | rfl | rfl <;>
    first
      | exact Or.inl rfl
      | exact Or.inr rfl

/-- The checks depend on nothing but the values of the options. -/
theorem check_options (R : RawSearch) (N : InNet) (fe : FloatEnv F) (l1 l2 : List (Str × Str)) (n : Nat) (m : Seen)
    (rules : List (Str × List Str))
    (h : ∀ k ∈ Dict.keys (wlblOptions (F := F)), option (conf fe l1) k = option (conf fe l2) k) :
    checkMsg R N fe l1 n m rules = checkMsg R N fe l2 n m rules := by
  have hk : ∀ k, k ∈ Dict.keys (wlblOptions (F := F)) → option (conf fe l1) k = option (conf fe l2) k := h
  have hs : ∀ g, checkStart (conf fe l1) g = checkStart (conf fe l2) g := by
    intro g
    unfold checkStart
    rw [hk c!"whitelist_from" (by simp [Dict.keys, wlblOptions]), hk c!"whitelist_to" (by simp [Dict.keys, wlblOptions]),
      hk c!"blacklist_from" (by simp [Dict.keys, wlblOptions]), hk c!"blacklist_to" (by simp [Dict.keys, wlblOptions]),
      hk c!"all_spam_to" (by simp [Dict.keys, wlblOptions]), hk c!"more_spam_to" (by simp [Dict.keys, wlblOptions]),
      hk c!"def_whitelist_from_rcvd" (by simp [Dict.keys, wlblOptions]), hk c!"whitelist_from_rcvd" (by simp [Dict.keys, wlblOptions]),
      hk c!"whitelist_allow_relays" (by simp [Dict.keys, wlblOptions]), hk c!"delist_uri_host" (by simp [Dict.keys, wlblOptions]),
      hk c!"whitelist_uri_host" (by simp [Dict.keys, wlblOptions]), hk c!"blacklist_uri_host" (by simp [Dict.keys, wlblOptions]),
      hk c!"enlist_uri_host" (by simp [Dict.keys, wlblOptions])]
  have ht : tldsOf (conf fe l1) = tldsOf (conf fe l2) := by
    unfold tldsOf
    rw [hk c!"util_rb_tld" (by simp [Dict.keys, wlblOptions]), hk c!"util_rb_2tld" (by simp [Dict.keys, wlblOptions]),
      hk c!"util_rb_3tld" (by simp [Dict.keys, wlblOptions])]
  have hb : (before fe l1 n).2 = (before fe l2 n).2 := by
    unfold before
    simp only [hs]
  have hr : ∀ g v f args, evalRule R N (conf fe l1) g m v f args = evalRule R N (conf fe l2) g m v f args := by
    intro g v f args
    unfold evalRule
    rw [ht]
  have hrs : ∀ g v, evalRules R N (conf fe l1) g m v rules = evalRules R N (conf fe l2) g m v rules := by
    intro g
    induction rules with
    | nil => intro v; rfl
    | cons r rs ih => intro v; simp only [evalRules, hr, ih]
  unfold checkMsg
  simp only []
  rw [show (before fe l1 n).1 = conf fe l1 from rfl, show (before fe l2 n).1 = conf fe l2 from rfl, hs, hb]
  split
  · rw [hrs]
  · rfl

theorem filter_other (key k : Str) (h : k ≠ key) (l : List (Str × Str)) :
    (l.filter fun x => !decide (x.1 = key)).filter (fun x => decide (x.1 = k)) = l.filter fun x => decide (x.1 = k) := by
  rw [List.filter_filter]
  apply List.filter_congr
  intro x _
  by_cases hx : x.1 = k
  · have : x.1 ≠ key := fun e => h (hx.symm.trans e)
    simp [hx, h]
  · simp [hx]

end Verif.Wlbl

namespace Verif.Props
open Verif Py Conf Wlbl

variable {F : Type}

/-- Of an option with relays or with hosts only the last line counts: the configuration behaves as if the lines for it before that one were
not there. -/
theorem C167_lines_violated (R : RawSearch) (N : InNet) (fe : FloatEnv F) (l1 l2 : List (Str × Str)) (key v : Str)
    (hk : key ∈ lineOptions) (h2 : ∀ l ∈ l2, l.1 ≠ key) (n : Nat) (m : Seen) (rules : List (Str × List Str)) :
    checkMsg R N fe (l1 ++ (key, v) :: l2) n m rules =
      checkMsg R N fe ((l1.filter fun l => !decide (l.1 = key)) ++ (key, v) :: l2) n m rules := by
  have hkey : Dict.get? (wlblOptions (F := F)) key = some (.list, .list []) := by
    simp only [lineOptions, List.mem_cons, List.not_mem_nil, or_false] at hk
    rcases hk with rfl | rfl | rfl | rfl | rfl | rfl <;> rfl
  apply check_options
  intro k hm
  rcases option_kinds k hm with h | h
  · rw [option_words fe _ k h, option_words fe _ k h]
    have hne : k ≠ key := by rintro rfl; rw [h] at hkey; cases hkey
    unfold givenValues
    rw [List.filter_append, List.filter_append, filter_other key k hne]
  · rw [option_elements fe k h, option_elements fe k h]
    unfold elements
    by_cases hne : k = key
    · subst hne
      have h2' : l2.filter (fun l => decide (l.1 = k)) = [] := by
        rw [List.filter_eq_nil_iff]
        intro l hl
        simp [h2 l hl]
      simp [List.filter_append, h2']
    · rw [List.filter_append, List.filter_append, filter_other key k hne]

/-! ## The hypotheses are met -/

/-- A network is never given. -/
def noNet : InNet := fun _ _ => none

/-- Floats are not needed. -/
def noFloat : FloatEnv Unit := ⟨fun _ => none, fun _ => false, fun _ _ => none⟩

/-- A configuration in several lines. -/
def wLines : List (Str × Str) :=
  [ (c!"blacklist_from", c!"*@spam.org bad@x.com"), (c!"whitelist_from_rcvd", c!"*@bank.com bank.com"),
    (c!"blacklist_from", c!"evil.net"), (c!"whitelist_to", c!"me@here.org"), (c!"whitelist_from_rcvd", c!"*@shop.com shop.com"),
    (c!"blacklist_uri_host", c!"evil.net") ]

/-- A message from `evil.net` and `bank.com`. -/
def wSeen : Seen :=
  ⟨⟨[c!"joe@evil.net", c!"ann@bank.com"], [⟨c!"1.2.3.4", c!"mx.bank.com"⟩], []⟩, [c!"you@here.org"], c!"joe@evil.net",
    [c!"http://www.evil.net"]⟩

/-- It is on the blacklist, because of the third line; the second line does not count, the last one for it does; a list that is not there
makes the rule fail. -/
example : checkMsg (fun _ _ => none) noNet noFloat wLines 2 wSeen
      [(c!"check_from_in_blacklist", []), (c!"check_to_in_whitelist", []), (c!"check_from_in_whitelist", []),
        (c!"check_to_in_list", [c!"whitelist_to"]), (c!"check_uri_host_in_blacklist", []), (c!"check_from_in_list", [c!"my_list"]),
        (c!"check_from_in_list", [c!"whitelist_from_rcvd"])] =
    some [some true, some false, some false, some false, some true, none, some false] ∧
    checkMsg (fun _ _ => none) noNet noFloat (wLines.take 4) 0 wSeen
      [(c!"check_from_in_whitelist", []), (c!"check_from_in_list", [c!"whitelist_from_rcvd"])] = some [some true, some true] := by
  decide +kernel

end Verif.Props
