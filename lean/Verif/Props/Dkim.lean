import Verif.Spec.Dkim
import Verif.Props.Wlbl
import Verif.Props.SenderAuth
import Verif.Lemmas.Split

/-!
# C133 to C135: whitelists for signed messages, signing practices, rules with named domains
-/

namespace Verif.Props
open Verif Py SenderAuth Dkim

/-! ## Expressions -/

theorem parts_starred (p : Str) (h : ∀ c ∈ p, c ∉ special) :
    parts (starred p) = some (p.map (fun c => if c = '*' then .star else if c = '.' then .one else .lit c)) := by
  induction p with
  | nil => rfl
  | cons c p ih =>
    have ih := ih (fun d hd => h d (List.mem_cons_of_mem _ hd))
    have hc := h c (by simp)
    unfold starred at ih ⊢
    rw [List.flatMap_cons]
    by_cases h1 : c = '*'
    · subst h1
      simp [parts, ih]
    · rw [if_neg h1]
      by_cases h2 : c = '.'
      · subst h2
        -- the next character is not a star: stars come with a dot before them
        have hn : ∀ r, (List.flatMap (fun c => if c = '*' then c!".*" else [c]) p) ≠ '*' :: r := by
          intro r
          cases p with
          | nil => simp
          | cons d p =>
            rw [List.flatMap_cons]
            by_cases hd : d = '*'
            · subst hd; simp
            · rw [if_neg hd]; simp [hd]
        have : parts ('.' :: List.flatMap (fun c => if c = '*' then c!".*" else [c]) p) =
            (parts (List.flatMap (fun c => if c = '*' then c!".*" else [c]) p)).map (.one :: ·) := by
          generalize hq : List.flatMap (fun c => if c = '*' then c!".*" else [c]) p = q at hn
          conv => lhs; unfold parts
          split
          · rename_i heq; simp at heq
          · rename_i heq; simp at heq; exact absurd heq (hn _)
          · rename_i heq; simp at heq; obtain ⟨rfl, rfl⟩ := heq; simp
        rw [List.singleton_append, this, ih]
        simp
      · have : parts (c :: List.flatMap (fun c => if c = '*' then c!".*" else [c]) p) =
            (parts (List.flatMap (fun c => if c = '*' then c!".*" else [c]) p)).map (.lit c :: ·) := by
          generalize List.flatMap (fun c => if c = '*' then c!".*" else [c]) p = q
          conv => lhs; unfold parts
          split
          · rename_i heq; simp at heq
          · rename_i heq; simp at heq; exact absurd heq.1 h2
          · rename_i heq; simp at heq; obtain ⟨rfl, rfl⟩ := heq; simp [h1, h2, hc]
        rw [List.singleton_append, this, ih]
        simp [h1, h2]

theorem begins_iff (p s : Str) :
    Wlbl.pm (p.map (fun c => if c = '*' then .star else if c = '.' then .one else .lit c)) s = true ↔ Begins p s := by
  induction p generalizing s with
  | nil => simp [Wlbl.pm]; exact .nil s
  | cons c p ih =>
    rw [List.map_cons]
    by_cases h1 : c = '*'
    · subst h1
      rw [if_pos rfl, pm_star]
      constructor
      · rintro ⟨t, u, e, hn, h⟩
        subst e
        exact .star p t u hn ((ih u).mp h)
      · intro h
        cases h with
        | star _ t u hn h => exact ⟨t, u, rfl, hn, (ih u).mpr h⟩
        | lit _ _ _ h => exact absurd rfl h
    · rw [if_neg h1]
      by_cases h2 : c = '.'
      · subst h2
        rw [if_pos rfl, pm_one]
        constructor
        · rintro ⟨x, u, e, hn, h⟩
          subst e
          exact .dot p u x hn ((ih u).mp h)
        · intro h
          cases h with
          | dot _ u x hn h => exact ⟨x, u, rfl, hn, (ih u).mpr h⟩
          | lit _ _ _ _ h => exact absurd rfl h
      · rw [if_neg h2, pm_lit]
        constructor
        · rintro ⟨u, e, h⟩
          subst e
          exact .lit p u c h1 h2 ((ih u).mp h)
        · intro h
          cases h with
          | star => exact absurd rfl h1
          | dot => exact absurd rfl h2
          | lit _ u _ _ _ h => exact ⟨u, rfl, (ih u).mpr h⟩

theorem compile_pattern (E : Engine) {p : Str} (h : ∀ c ∈ p, c ∉ special) :
    ∃ r, compile E (starred p) = some r ∧ ∀ a, r.1 a = true ↔ Begins p a := by
  unfold compile
  rw [parts_starred p h]
  exact ⟨_, rfl, fun a => begins_iff p a⟩

theorem starred_inj {p q : Str} (h : starred p = starred q) : p = q := by
  induction p generalizing q with
  | nil =>
    cases q with
    | nil => rfl
    | cons d q =>
      unfold starred at h
      rw [List.flatMap_cons] at h
      by_cases hd : d = '*'
      · subst hd; simp at h
      · rw [if_neg hd] at h; simp at h
  | cons c p ih =>
    cases q with
    | nil =>
      unfold starred at h
      rw [List.flatMap_cons] at h
      by_cases hd : c = '*'
      · subst hd; simp at h
      · rw [if_neg hd] at h; simp at h
    | cons d q =>
      have key : ∀ (p : Str) (r : Str), starred p ≠ '*' :: r := by
        intro p r
        unfold starred
        cases p with
        | nil => simp
        | cons d p =>
          rw [List.flatMap_cons]
          by_cases hd : d = '*'
          · subst hd; simp
          · rw [if_neg hd]; simp [hd]
      unfold starred at h
      rw [List.flatMap_cons, List.flatMap_cons] at h
      by_cases hc : c = '*' <;> by_cases hd : d = '*'
      · subst hc; subst hd
        rw [if_pos rfl] at h
        rw [ih (List.append_cancel_left h)]
      · subst hc
        rw [if_pos rfl, if_neg hd] at h
        simp at h
        exact absurd h.2.symm (key q _)
      · subst hd
        rw [if_pos rfl, if_neg hc] at h
        simp at h
        exact absurd h.2 (key p _)
      · rw [if_neg hc, if_neg hd] at h
        simp at h
        rw [h.1, ih h.2]

/-! ## Reading the lists -/

theorem lists_option {lines entries : List Str} (h : Lists lines entries) : listOption lines = entries := by
  unfold listOption
  rcases h with ⟨rfl, rfl⟩ | ⟨h0, hc, hl⟩
  · rfl
  · rw [hl]
    exact splitChar_join ',' entries h0 hc

theorem dict_set_again {V : Type} (d : Dict Str V) (k : Str) (v w : V) : Dict.set (Dict.set d k v) k w = Dict.set d k w := by
  induction d with
  | nil => simp [Dict.set]
  | cons p d ih =>
    simp only [Dict.set]
    by_cases h : p.1 = k
    · simp [h, Dict.set]
    · simp [h, Dict.set, ih]

theorem foldl_set (d : Dict Str Str) (k : Str) (ws : List Str) (x : Str) (h : ws.getLast? = some x) :
    ws.foldl (fun d dom => Dict.set d k dom) d = Dict.set d k x := by
  induction ws generalizing d with
  | nil => simp at h
  | cons w ws ih =>
    rw [List.foldl_cons]
    cases ws with
    | nil => simp at h; subst h; rfl
    | cons w2 ws =>
      rw [ih _ (by simpa using h), dict_set_again]

theorem plainly_word {w : Str} (h : Plainly w) : Word w := ⟨h.1, fun c hc => (h.2 c hc).1⟩

theorem parseOne_text {e : Entry} (he : e.Fine) (removed : List Str) (d : Dict Str Str) :
    parseOne removed d e.text =
      some (if e.pattern ∈ removed then d else Dict.set d (starred e.pattern) (e.signers.getLast?.getD [])) := by
  obtain ⟨p, ws⟩ := e
  obtain ⟨⟨hp, _⟩, hs⟩ := he
  have hp := plainly_word hp
  unfold parseOne Entry.text
  by_cases hr : p ∈ removed
  · cases ws with
    | nil => simp only [join]; rw [splitNone_word p hp]; simp [hr]
    | cons w ws =>
      rw [splitNone_join p (w :: ws) (by simp) (by
        intro x hx
        rcases List.mem_cons.mp hx with rfl | hx
        · exact hp
        · exact plainly_word (hs x hx))]
      simp [hr]
  · cases ws with
    | nil => simp only [join]; rw [splitNone_word p hp]; simp [hr]
    | cons w ws =>
      rw [splitNone_join p (w :: ws) (by simp) (by
        intro x hx
        rcases List.mem_cons.mp hx with rfl | hx
        · exact hp
        · exact plainly_word (hs x hx))]
      obtain ⟨x, hx⟩ : ∃ x, (w :: ws).getLast? = some x := ⟨_, List.getLast?_cons ..⟩
      simp only [List.contains_eq_mem, hr, decide_false, Bool.false_eq_true, if_false]
      rw [splitWs_join (w :: ws) (fun x hx => plainly_word (hs x hx)), foldl_set _ _ _ x hx, hx]
      rfl

/-- What the dictionary made of a list consists of. -/
def keptEntries (removed : List Str) (entries : List Entry) : Dict Str Str :=
  (entries.filter (fun e => !removed.contains e.pattern)).map (fun e => (starred e.pattern, e.signers.getLast?.getD []))

theorem parse_entries (removed : List Str) (entries : List Entry) (hf : ∀ e ∈ entries, e.Fine)
    (hn : (entries.map Entry.pattern).Nodup) : parseInput removed (entries.map Entry.text) = some (keptEntries removed entries) := by
  unfold parseInput
  have key : ∀ (entries : List Entry) (d : Dict Str Str), (∀ e ∈ entries, e.Fine) → (entries.map Entry.pattern).Nodup →
      (∀ e ∈ entries, starred e.pattern ∉ Dict.keys d) →
      List.foldlM (parseOne removed) d (entries.map Entry.text) = some (d ++ keptEntries removed entries) := by
    intro entries
    induction entries with
    | nil => intro d _ _ _; simp [keptEntries]
    | cons e es ih =>
      intro d hf hn hd
      rw [List.map_cons, List.foldlM_cons, parseOne_text (hf e (by simp))]
      rw [List.map_cons, List.nodup_cons] at hn
      by_cases hr : e.pattern ∈ removed
      · rw [if_pos hr]
        have := ih d (fun x hx => hf x (List.mem_cons_of_mem _ hx)) hn.2 (fun x hx => hd x (List.mem_cons_of_mem _ hx))
        simp only [Option.bind_eq_bind, Option.bind_some]
        rw [this]
        simp [keptEntries, hr]
      · rw [if_neg hr, Dict.set_of_not_mem d _ (hd e (by simp))]
        have := ih (d ++ [(starred e.pattern, e.signers.getLast?.getD [])]) (fun x hx => hf x (List.mem_cons_of_mem _ hx)) hn.2 (by
          intro x hx hm
          simp only [Dict.keys, List.map_append, List.mem_append, List.map_cons, List.map_nil, List.mem_singleton] at hm
          rcases hm with hm | hm
          · exact hd x (List.mem_cons_of_mem _ hx) hm
          · exact hn.1 (List.mem_map.mpr ⟨x, hx, starred_inj hm⟩))
        simp only [Option.bind_eq_bind, Option.bind_some]
        rw [this]
        simp [keptEntries, hr]
  simpa using key entries [] hf hn (by simp [Dict.keys])

/-! ## The loops -/

theorem entriesLoop_kept (E : Engine) (domains : List Str) (a : Str) (removed : List Str) (entries : List Entry)
    (hf : ∀ e ∈ entries, e.Fine) : ∃ b, entriesLoop E domains a (keptEntries removed entries) = some b ∧
      (b = true ↔ ∃ e ∈ entries, e.pattern ∉ removed ∧ Begins e.pattern a ∧
        (e.signers = [] ∨ ∃ d, LastSigner e d ∧ d ∈ domains)) := by
  induction entries with
  | nil => exact ⟨false, rfl, by simp⟩
  | cons e es ih =>
    obtain ⟨b, hb, hi⟩ := ih (fun x hx => hf x (List.mem_cons_of_mem _ hx))
    by_cases hr : e.pattern ∈ removed
    · refine ⟨b, ?_, ?_⟩
      · rw [← hb]; simp [keptEntries, hr]
      · rw [hi]
        constructor
        · rintro ⟨x, hx, h⟩; exact ⟨x, List.mem_cons_of_mem _ hx, h⟩
        · rintro ⟨x, hx, h⟩
          rcases List.mem_cons.mp hx with rfl | hx
          · exact absurd hr h.1
          · exact ⟨x, hx, h⟩
    · obtain ⟨⟨hp, hq⟩, hs⟩ := hf e (by simp)
      obtain ⟨r, hc, hm⟩ := compile_pattern E hq
      have hk : keptEntries removed (e :: es) = (starred e.pattern, e.signers.getLast?.getD []) :: keptEntries removed es := by
        simp [keptEntries, hr]
      rw [hk]
      unfold entriesLoop
      rw [hc]
      have other : ∀ (h : ¬ (Begins e.pattern a ∧ (e.signers = [] ∨ ∃ d, LastSigner e d ∧ d ∈ domains))),
          (b = true ↔ ∃ x ∈ e :: es, x.pattern ∉ removed ∧ Begins x.pattern a ∧ (x.signers = [] ∨ ∃ d, LastSigner x d ∧ d ∈ domains)) := by
        intro h
        rw [hi]
        constructor
        · rintro ⟨x, hx, h⟩; exact ⟨x, List.mem_cons_of_mem _ hx, h⟩
        · rintro ⟨x, hx, h'⟩
          rcases List.mem_cons.mp hx with rfl | hx
          · exact absurd h'.2 h
          · exact ⟨x, hx, h'⟩
      by_cases ha : Begins e.pattern a
      · simp only [(hm a).mpr ha, if_true]
        cases hl : e.signers.getLast? with
        | none =>
          have h0 : e.signers = [] := by simpa using hl
          refine ⟨true, by simp, ?_⟩
          simp only [true_iff]
          exact ⟨e, by simp, hr, ha, Or.inl h0⟩
        | some d =>
          have hd0 : d ≠ [] := (hs d (List.mem_of_getLast? hl)).1
          have h0 : e.signers ≠ [] := by intro h; rw [h] at hl; simp at hl
          simp only [Option.getD_some, hd0, if_false]
          by_cases hd : d ∈ domains
          · refine ⟨true, by simp [hd], ?_⟩
            simp only [true_iff]
            exact ⟨e, by simp, hr, ha, Or.inr ⟨d, hl, hd⟩⟩
          · refine ⟨b, by simp [hd, hb], other ?_⟩
            rintro ⟨_, h | ⟨x, hx, hx'⟩⟩
            · exact h0 h
            · unfold LastSigner at hx
              rw [hl] at hx
              cases hx
              exact hd hx'
      · have : r.1 a = false := by
          cases h : r.1 a with
          | false => rfl
          | true => exact absurd ((hm a).mp h) ha
        simp only [this, Bool.false_eq_true, if_false]
        exact ⟨b, hb, other (fun h => ha h.1)⟩

theorem authorsLoop_kept (E : Engine) (domains : List Str) (removed : List Str) (entries : List Entry)
    (hf : ∀ e ∈ entries, e.Fine) (addrs : List Str) : (authorsLoop E domains (keptEntries removed entries) addrs).getD false = true ↔
      ∃ a ∈ addrs, ∃ e ∈ entries, e.pattern ∉ removed ∧ Begins e.pattern a ∧
        (e.signers = [] ∨ ∃ d, LastSigner e d ∧ d ∈ domains) := by
  induction addrs with
  | nil => simp [authorsLoop]
  | cons a as ih =>
    obtain ⟨b, hb, hi⟩ := entriesLoop_kept E domains a removed entries hf
    unfold authorsLoop
    rw [hb]
    cases b with
    | true =>
      simp only [Option.getD_some, true_iff]
      exact ⟨a, by simp, hi.mp rfl⟩
    | false =>
      refine Iff.trans ih ?_
      constructor
      · rintro ⟨x, hx, h⟩; exact ⟨x, List.mem_cons_of_mem _ hx, h⟩
      · rintro ⟨x, hx, h⟩
        rcases List.mem_cons.mp hx with rfl | hx
        · exact absurd (hi.mpr h) (by simp)
        · exact ⟨x, hx, h⟩

/-! ## The state of a new process -/

theorem check_authors (m : DkimMsg) : (checkSignature m DkimSt.init).2.addrs = m.addrs ∧
    (checkSignature m DkimSt.init).2.domains = m.domains := by
  unfold checkSignature getAuthors DkimSt.init
  cases hp : m.parsed with
  | none => cases hh : m.hasSig <;> simp [hh]
  | some d =>
    cases d with
    | none => cases hv : m.verify <;> cases hk : m.fieldsOk <;> cases hh : m.hasSig <;> simp [hh, hv, hk]
    | some d =>
      by_cases hd : d ∈ m.domains <;> cases hv : m.verify <;> cases hk : m.fieldsOk <;> cases hh : m.hasSig <;>
        simp [hv, hk, hh, hd]

theorem ensure_init (m : DkimMsg) : ensure m DkimSt.init = checkSignature m DkimSt.init := rfl

theorem valid_init (m : DkimMsg) : ((checkSignature m DkimSt.init).1 = true ∧ (checkSignature m DkimSt.init).2.valid = true) ↔ Verified m := by
  rw [← C65_valid_partial]
  unfold dkimRule
  rw [if_neg (by simp [DkimSt.init])]
  split <;> rename_i heq <;> simp [heq]

theorem whitelistRule_init (E : Engine) (removed entries : List Str) (m : DkimMsg) :
    (whitelistRule E removed entries m DkimSt.init).1 = true ↔
      Verified m ∧ ∃ d, parseInput removed entries = some d ∧ (authorsLoop E m.domains d m.addrs).getD false = true := by
  rw [← valid_init]
  obtain ⟨ha, hd⟩ := check_authors m
  unfold whitelistRule
  rw [ensure_init]
  rcases hc : checkSignature m DkimSt.init with ⟨ok, s⟩
  rw [hc] at ha hd
  simp only at ha hd
  cases ok with
  | false => simp
  | true =>
    cases hv : s.valid with
    | false => simp [hv]
    | true =>
      simp only [hv, Bool.not_true, Bool.false_eq_true, if_false, true_and]
      cases hp : parseInput removed entries with
      | none => simp
      | some d => simp [ha, hd]

/-! ## C133 -/

/-- Exactly what the whitelist for signed messages does for the first message of a process: the message is verified, and an entry
of the last line with the option that has not been removed stands for the beginning of the address of an author, and names no domain
or, at last, the domain of an author.  Missing: the entries of other lines (`C133_lines_violated`), that the entry stands for the whole
address (`C133_beginning_violated`, `C133_dot_violated`), that all domains count (`C133_domains_violated`) and that it is the domain of
the signature that counts (`C133_signer_violated`), the default list (`C133_default_violated`), lists with empty entries
(`C133_empty_violated`) and later messages (`C54_dkim_violated`). -/
theorem C133_exact_partial (E : Engine) (c : Conf) (entries : List Entry) (removed : List Str) (m : DkimMsg)
    (hf : ∀ e ∈ entries, e.Fine) (hn : (entries.map Entry.pattern).Nodup) (hl : Lists c.whitelist (entries.map Entry.text))
    (hr : Lists c.unwhitelist removed) :
    (userWhitelist E c m DkimSt.init).1 = true ↔
      Verified m ∧ ∃ a ∈ m.addrs, ∃ e ∈ entries, e.pattern ∉ removed ∧ Begins e.pattern a ∧
        (e.signers = [] ∨ ∃ d, LastSigner e d ∧ d ∈ m.domains) := by
  unfold userWhitelist
  rw [whitelistRule_init, lists_option hl, lists_option hr, parse_entries removed entries hf hn]
  simp only [Option.some.injEq, exists_eq_left']
  rw [authorsLoop_kept E m.domains removed entries hf]

theorem covers_begins {p a : Str} (h : Wlbl.Covers p a) : (∀ c ∈ p, c ∉ special) → '\n' ∉ a → ∀ rest, Begins p (a ++ rest) := by
  induction h with
  | nil => intro _ _ rest; exact .nil _
  | star p t u _ ih =>
    intro hp hn rest
    rw [List.append_assoc]
    exact .star p t _ (fun h => hn (by simp [h])) (ih (fun c hc => hp c (List.mem_cons_of_mem _ hc)) (fun h => hn (by simp [h])) rest)
  | one p u c _ _ => intro hp; exact absurd (by decide) (hp '?' (by simp))
  | lit p u c h1 h2 _ ih =>
    intro hp hn rest
    have ih := ih (fun c hc => hp c (List.mem_cons_of_mem _ hc)) (fun h => hn (by simp [h])) rest
    by_cases hd : c = '.'
    · subst hd
      exact .dot p _ '.' (by decide) ih
    · exact .lit p _ c h1 hd ih

/-- Every message that is on the list as documented is found, if each entry names one domain at most.  Missing: entries with several
domains (`C133_domains_violated`), and what is missing in `C133_exact_partial`. -/
theorem C133_found_partial (E : Engine) (c : Conf) (entries : List Entry) (removed : List Str) (m : DkimMsg)
    (hf : ∀ e ∈ entries, e.Fine) (hn : (entries.map Entry.pattern).Nodup) (hl : Lists c.whitelist (entries.map Entry.text))
    (hr : Lists c.unwhitelist removed) (h1 : ∀ e ∈ entries, e.signers.length ≤ 1) (ha : ∀ a ∈ m.addrs, '\n' ∉ a)
    (h : OnList entries removed m) : (userWhitelist E c m DkimSt.init).1 = true := by
  obtain ⟨hv, a, ham, e, he, her, hc, hs⟩ := h
  refine (C133_exact_partial E c entries removed m hf hn hl hr).mpr ⟨hv, a, ham, e, he, her, ?_, ?_⟩
  · simpa using covers_begins hc (hf e he).1.2 (ha a ham) []
  · rcases hs with hs | ⟨d, hd, hp⟩
    · exact Or.inl hs
    · refine Or.inr ⟨d, ?_, ?_⟩
      · have := h1 e he
        unfold LastSigner
        match hsig : e.signers, hd, this with
        | [x], hd, _ => rw [List.mem_singleton.mp hd]; rfl
        | x :: y :: r, _, h => simp at h
      · obtain ⟨_, _, d', hp', hd'⟩ := hv
        rw [hp] at hp'
        cases hp'
        exact hd'

/-- Only the last line with the option counts. -/
theorem C133_lines_violated (E : Engine) (c : Conf) (lines : List Str) (v : Str) (m : DkimMsg) (s : DkimSt) :
    userWhitelist E { c with whitelist := lines ++ [v] } m s = userWhitelist E { c with whitelist := [v] } m s := by
  unfold userWhitelist listOption
  simp

theorem lists_one {w : Str} (h : ',' ∉ w) : Lists [w] [w] :=
  Or.inr ⟨by simp, by simpa using h, by simp [join]⟩

theorem join_plain (ws : List Str) (h : ∀ w ∈ ws, ∀ c ∈ w, c ≠ ',') : ∀ c ∈ join c!" " ws, c ≠ ',' := by
  induction ws with
  | nil => simp [join]
  | cons w ws ih =>
    intro c hc
    have ih := ih (fun x hx => h x (List.mem_cons_of_mem _ hx))
    cases ws with
    | nil => exact h w (by simp) c (by simpa [join] using hc)
    | cons w2 ws =>
      simp only [join, List.mem_append] at hc
      rcases hc with (hc | hc) | hc
      · exact h w (by simp) c hc
      · simp at hc; subst hc; decide
      · exact ih c hc

theorem fine_text {e : Entry} (h : e.Fine) : ',' ∉ e.text := by
  intro hc
  refine join_plain (e.pattern :: e.signers) ?_ ',' hc rfl
  intro w hw c hc
  rcases List.mem_cons.mp hw with rfl | hw
  · exact (h.1.1.2 c hc).2
  · exact ((h.2 w hw).2 c hc).2

/-- A list with one entry. -/
theorem one_entry (E : Engine) (e : Entry) (he : e.Fine) (m : DkimMsg) :
    (userWhitelist E ⟨[e.text], [], [], []⟩ m DkimSt.init).1 = true ↔
      Verified m ∧ ∃ a ∈ m.addrs, Begins e.pattern a ∧ (e.signers = [] ∨ ∃ d, LastSigner e d ∧ d ∈ m.domains) := by
  rw [C133_exact_partial E ⟨[e.text], [], [], []⟩ [e] [] m (by simpa using he) (by simp) (lists_one (fine_text he)) (Or.inl ⟨rfl, rfl⟩)]
  simp

/-- An entry that stands for an address also lists every address that begins with it. -/
theorem C133_beginning_violated (E : Engine) (p a rest : Str) (m : DkimMsg) (hp : Pattern p) (hc : Wlbl.Covers p a) (hn : '\n' ∉ a)
    (hv : Verified m) (ha : a ++ rest ∈ m.addrs) : (userWhitelist E ⟨[p], [], [], []⟩ m DkimSt.init).1 = true := by
  have := (one_entry E ⟨p, []⟩ ⟨hp, by simp⟩ m).mpr ⟨hv, a ++ rest, ha, covers_begins hc hp.2 hn rest, Or.inl rfl⟩
  simpa [Entry.text, join] using this

theorem begins_dot (u v : Str) (x : Char) (hx : x ≠ '\n') (hu : '*' ∉ u) (hv : '*' ∉ v) (hn : '\n' ∉ u ++ v) :
    Begins (u ++ '.' :: v) (u ++ x :: v) := by
  have same : ∀ (v rest1 rest2 : Str), '*' ∉ v → '\n' ∉ v → Begins rest1 rest2 → Begins (v ++ rest1) (v ++ rest2) := by
    intro v
    induction v with
    | nil => intro r1 r2 _ _ h; exact h
    | cons c v ih =>
      intro r1 r2 h1 h2 h
      have := ih r1 r2 (fun h => h1 (by simp [h])) (fun h => h2 (by simp [h])) h
      by_cases hd : c = '.'
      · subst hd; exact .dot _ _ '.' (by decide) this
      · exact .lit _ _ c (fun e => h1 (by simp [e])) hd this
  refine same u _ _ hu (fun h => hn (by simp [h])) (.dot _ _ x hx ?_)
  simpa using same v [] [] hv (fun h => hn (by simp [h])) (.nil [])

/-- A dot of an entry stands for any character. -/
theorem C133_dot_violated (E : Engine) (u v : Str) (x : Char) (m : DkimMsg) (hp : Pattern (u ++ '.' :: v)) (hs : '*' ∉ u ++ v)
    (hn : '\n' ∉ u ++ v) (hx : x ≠ '\n') (hv : Verified m) (ha : u ++ x :: v ∈ m.addrs) :
    (userWhitelist E ⟨[u ++ '.' :: v], [], [], []⟩ m DkimSt.init).1 = true := by
  have := (one_entry E ⟨u ++ '.' :: v, []⟩ ⟨hp, by simp⟩ m).mpr
    ⟨hv, _, ha, begins_dot u v x hx (fun h => hs (by simp [h])) (fun h => hs (by simp [h])) hn, Or.inl rfl⟩
  simpa [Entry.text, join] using this

/-- Of several domains only the last one counts: a message signed by another one is on the list, but is not found. -/
theorem C133_domains_violated (E : Engine) (p a d : Str) (ds : List Str) (last : Str) (m : DkimMsg)
    (he : (Entry.mk p (ds ++ [last])).Fine) (hv : Verified m) (ha : a ∈ m.addrs) (hc : Wlbl.Covers p a) (hd : d ∈ ds)
    (hp : m.parsed = some (some d)) (hl : last ∉ m.domains) :
    OnList [⟨p, ds ++ [last]⟩] [] m ∧ (userWhitelist E ⟨[(Entry.mk p (ds ++ [last])).text], [], [], []⟩ m DkimSt.init).1 = false := by
  refine ⟨⟨hv, a, ha, _, List.mem_singleton.mpr rfl, by simp, hc, Or.inr ⟨d, by simp [hd], hp⟩⟩, ?_⟩
  cases h : (userWhitelist E ⟨[(Entry.mk p (ds ++ [last])).text], [], [], []⟩ m DkimSt.init).1 with
  | false => rfl
  | true =>
    obtain ⟨_, _, _, _, h | ⟨x, hx, hm⟩⟩ := (one_entry E _ he m).mp h
    · simp at h
    · unfold LastSigner at hx
      simp at hx
      subst hx
      exact absurd hm hl

/-- The domain that an entry names is compared with the domains of the authors: a message signed by the domain of one author is
found with an entry that asks for a signature of another one. -/
theorem C133_signer_violated (E : Engine) (p a d d' : Str) (m : DkimMsg) (he : (Entry.mk p [d]).Fine) (hv : Verified m)
    (ha : a ∈ m.addrs) (hc : Wlbl.Covers p a) (hn : '\n' ∉ a) (hp : m.parsed = some (some d')) (hne : d' ≠ d) (hd : d ∈ m.domains) :
    ¬ OnList [⟨p, [d]⟩] [] m ∧ (userWhitelist E ⟨[(Entry.mk p [d]).text], [], [], []⟩ m DkimSt.init).1 = true := by
  constructor
  · rintro ⟨_, x, _, e, he, _, _, h⟩
    rw [List.mem_singleton.mp he] at h
    rcases h with h | ⟨y, hy, hp'⟩
    · cases h
    · rw [hp] at hp'
      cases hp'
      exact hne (List.mem_singleton.mp hy)
  · exact (one_entry E _ he m).mpr ⟨hv, a, ha, by simpa using covers_begins hc he.1.2 hn [], Or.inr ⟨d, rfl, hd⟩⟩

/-- Exactly what the default whitelist does: every word of every line is a pattern.  Missing: the domains
(`C133_default_violated`). -/
theorem C133_default_partial (E : Engine) (c : Conf) (words : List (List Str)) (removed : List Str) (m : DkimMsg)
    (hw : ∀ l ∈ words, ∀ w ∈ l, Pattern w) (hn : words.flatten.Nodup) (hl : c.defWhitelist = words.map (join c!" "))
    (hr : Lists c.unwhitelist removed) :
    (defWhitelist E c m DkimSt.init).1 = true ↔
      Verified m ∧ ∃ a ∈ m.addrs, ∃ w ∈ words.flatten, w ∉ removed ∧ Begins w a := by
  unfold defWhitelist
  have e : appendSplitOption c.defWhitelist = (words.flatten.map (fun w => Entry.mk w [])).map Entry.text := by
    rw [hl]
    unfold appendSplitOption
    clear hl hn
    induction words with
    | nil => rfl
    | cons l ls ih =>
      rw [List.map_cons, List.flatMap_cons, ih (fun l hl => hw l (List.mem_cons_of_mem _ hl)),
        splitWs_join l (fun w h => plainly_word (hw l (by simp) w h).1)]
      simp only [List.flatten_cons, List.map_append, List.map_map]
      have : (Entry.text ∘ fun w => Entry.mk w []) = id := funext fun w => rfl
      rw [this]
      simp
  have hf : ∀ x ∈ words.flatten.map (fun w => Entry.mk w []), x.Fine := by
    intro x hx
    obtain ⟨w, hw', rfl⟩ := List.mem_map.mp hx
    obtain ⟨l, hl, hwl⟩ := List.mem_flatten.mp hw'
    exact ⟨hw l hl w hwl, by simp⟩
  rw [whitelistRule_init, e, lists_option hr, parse_entries removed _ hf (by simpa [Function.comp_def] using hn)]
  simp only [Option.some.injEq, exists_eq_left']
  rw [authorsLoop_kept E m.domains removed _ hf]
  constructor
  · rintro ⟨hv, a, ha, x, hx, h1, h2, _⟩
    obtain ⟨w, hw', rfl⟩ := List.mem_map.mp hx
    exact ⟨hv, a, ha, w, hw', h1, h2⟩
  · rintro ⟨hv, a, ha, w, hw', h1, h2⟩
    exact ⟨hv, a, ha, _, List.mem_map.mpr ⟨w, hw', rfl⟩, h1, h2, Or.inl rfl⟩

/-- In the default whitelist the domain of an entry is taken for another pattern: whoever has signed, the message is found. -/
theorem C133_default_violated (E : Engine) (p a d d' : Str) (m : DkimMsg) (hp : Pattern p) (hd : Pattern d) (hpd : p ≠ d)
    (hv : Verified m) (ha : a ∈ m.addrs) (hc : Wlbl.Covers p a) (hn : '\n' ∉ a) (hs : m.parsed = some (some d')) (hne : d' ≠ d) :
    ¬ OnList [⟨p, [d]⟩] [] m ∧ (defWhitelist E ⟨[], [p ++ ' ' :: d], [], []⟩ m DkimSt.init).1 = true := by
  constructor
  · rintro ⟨_, x, _, e, he, _, _, h⟩
    rw [List.mem_singleton.mp he] at h
    rcases h with h | ⟨y, hy, hp'⟩
    · cases h
    · rw [hs] at hp'
      cases hp'
      exact hne (List.mem_singleton.mp hy)
  · refine (C133_default_partial E ⟨[], [p ++ ' ' :: d], [], []⟩ [[p, d]] [] m ?_ (by simpa using hpd) (by simp [join]) (Or.inl ⟨rfl, rfl⟩)).mpr
      ⟨hv, a, ha, p, by simp, by simp, by simpa using covers_begins hc hp.2 hn []⟩
    intro l hl w hw
    rw [List.mem_singleton.mp hl] at hw
    simp at hw
    rcases hw with rfl | rfl
    · exact hp
    · exact hd

/-- With a blank entry in the list, as after a comma at the end of the line, no message is ever found. -/
theorem C133_empty_violated (E : Engine) (c : Conf) (entries : List Str) (e : Str) (m : DkimMsg) (s : DkimSt)
    (hl : Lists c.whitelist entries) (he : e ∈ entries) (hb : ∀ ch ∈ e, isSpace ch = true) : (userWhitelist E c m s).1 = false := by
  have h0 : ∀ (removed : List Str) (d : Dict Str Str), parseOne removed d e = none := by
    intro removed d
    unfold parseOne
    have : splitNone 1 e = [] := by
      unfold splitNone
      have : ∀ e : Str, (∀ ch ∈ e, isSpace ch = true) → e.dropWhile isSpace = [] := by
        intro e
        induction e with
        | nil => intro _; rfl
        | cons x xs ih => intro h; simp [List.dropWhile_cons, h x (by simp), ih (fun c hc => h c (List.mem_cons_of_mem _ hc))]
      rw [this e hb]
      rfl
    rw [this]
  have h1 : ∀ (removed entries : List Str) (d : Dict Str Str), e ∈ entries → entries.foldlM (parseOne removed) d = none := by
    intro removed entries
    induction entries with
    | nil => intro d h; cases h
    | cons x xs ih =>
      intro d h
      rw [List.foldlM_cons]
      rcases List.mem_cons.mp h with rfl | h
      · rw [h0]; rfl
      · cases hx : parseOne removed d x with
        | none => rfl
        | some d' => exact ih d' h
  unfold userWhitelist whitelistRule
  rw [lists_option hl]
  split
  · rfl
  · split
    · rfl
    · unfold parseInput
      rw [h1 _ entries [] he]

/-- Removing an address together with its domain, as documented, removes nothing. -/
theorem C133_remove_violated (E : Engine) (c : Conf) (removed : List Str) (m : DkimMsg) (s : DkimSt)
    (hr : Lists c.unwhitelist removed) (h : ∀ r ∈ removed, ∃ a d, r = a ++ ' ' :: d) :
    userWhitelist E c m s = userWhitelist E { c with unwhitelist := [] } m s := by
  have h1 : ∀ (d : Dict Str Str) (x : Str), parseOne removed d x = parseOne [] d x := by
    intro d x
    unfold parseOne
    cases hx : splitNone 1 x with
    | nil => rfl
    | cons addr rest =>
      have : addr ∉ removed := by
        intro hm
        obtain ⟨a, d, rfl⟩ := h addr hm
        have hw : ∀ ch ∈ a ++ ' ' :: d, isSpace ch = false := by
          unfold splitNone at hx
          simp only at hx
          split at hx
          · cases hx
          · injection hx with hx _
            intro ch hch
            rw [← hx] at hch
            have := List.all_eq_true.mp (List.all_takeWhile (l := List.dropWhile isSpace x) (p := fun c => !isSpace c)) ch hch
            simpa using this
        exact absurd (hw ' ' (by simp)) (by decide)
      simp [this]
  have h2 : ∀ entries : List Str, parseInput removed entries = parseInput [] entries := by
    intro entries
    unfold parseInput
    rw [show parseOne removed = parseOne [] from funext fun d => funext fun x => h1 d x]
  unfold userWhitelist whitelistRule
  rw [lists_option hr, h2]
  rfl

/-! ### Examples -/

instance (w : Str) : Decidable (Plainly w) := inferInstanceAs (Decidable (w ≠ [] ∧ ∀ c ∈ w, isSpace c = false ∧ c ≠ ','))
instance (w : Str) : Decidable (Pattern w) := inferInstanceAs (Decidable (Plainly w ∧ ∀ c ∈ w, c ∉ meaningful))
instance (e : Entry) : Decidable e.Fine := inferInstanceAs (Decidable (Pattern e.pattern ∧ ∀ d ∈ e.signers, Plainly d))
instance (d : Str) : Decidable (Literal d) := inferInstanceAs (Decidable (∀ c ∈ d, c ∉ meaningful ∧ c ≠ '*'))

/-- No other expressions can be compiled. -/
def noEngine : Engine := fun _ => none

/-- Two entries, the second with a domain that must sign. -/
def dkimEntries : List Entry := [⟨c!"*@example.org", []⟩, ⟨c!"joe@*", [c!"example.com"]⟩]

/-- The option for them, and one that removes another address. -/
def dkimConf : Conf := ⟨[c!"*@example.org,joe@* example.com"], [c!"*@example.org", c!"*@example.net *@example.com"], [c!"ann@*"], []⟩

example : Verified dkimMsg := ⟨rfl, rfl, c!"example.com", rfl, by decide⟩

set_option maxRecDepth 8000 in
example : (∀ e ∈ dkimEntries, e.Fine) ∧ (dkimEntries.map Entry.pattern).Nodup ∧ (∀ e ∈ dkimEntries, e.signers.length ≤ 1) ∧
    (∀ a ∈ dkimMsg.addrs, '\n' ∉ a) := by decide +kernel

example : Lists dkimConf.whitelist (dkimEntries.map Entry.text) ∧ Lists dkimConf.unwhitelist [c!"ann@*"] :=
  ⟨Or.inr ⟨by decide, by decide, by decide⟩, Or.inr ⟨by decide, by decide, by decide⟩⟩

example : OnList dkimEntries [c!"ann@*"] dkimMsg := by
  refine ⟨⟨rfl, rfl, c!"example.com", rfl, by decide⟩, c!"joe@example.com", by decide, ⟨c!"joe@*", [c!"example.com"]⟩, by simp [dkimEntries],
    by decide, ?_, Or.inr ⟨c!"example.com", by decide, rfl⟩⟩
  have := Wlbl.Covers.star [] c!"example.com" [] Wlbl.Covers.nil
  exact .lit _ _ _ (by decide) (by decide) (.lit _ _ _ (by decide) (by decide) (.lit _ _ _ (by decide) (by decide)
    (.lit _ _ _ (by decide) (by decide) (by simpa using this))))

set_option maxRecDepth 8000 in
example : (userWhitelist noEngine dkimConf dkimMsg DkimSt.init).1 = true ∧
    (userWhitelist noEngine { dkimConf with unwhitelist := [c!"ann@*,joe@*"] } dkimMsg DkimSt.init).1 = false ∧
    (defWhitelist noEngine dkimConf dkimMsg DkimSt.init).1 = true ∧
    -- the beginning of the address is enough; of several domains only the last counts
    (userWhitelist noEngine { dkimConf with whitelist := [c!"joe@example.co"] } dkimMsg DkimSt.init).1 = true ∧
    (userWhitelist noEngine { dkimConf with whitelist := [c!"joe@* example.com example.org"] } dkimMsg DkimSt.init).1 = false := by
  decide +kernel

/-! ## C134 -/

theorem checked_init (m : DkimMsg) : (checkSignature m DkimSt.init).1 = true ↔ Checked m := by
  unfold checkSignature getAuthors DkimSt.init Checked
  cases hp : m.parsed with
  | none => simp
  | some d => cases hv : m.verify <;> simp

theorem practice_iff (char k : Str) : practice char = some k ↔ (char, k) ∈ practices := by
  constructor
  · intro h
    unfold practice at h
    split at h <;> cases h <;> decide
  · intro h
    simp only [practices, List.mem_cons, List.not_mem_nil, or_false, Prod.mk.injEq] at h
    rcases h with ⟨rfl, rfl⟩ | ⟨rfl, rfl⟩ | ⟨rfl, rfl⟩ | ⟨rfl, rfl⟩ | ⟨rfl, rfl⟩ | ⟨rfl, rfl⟩ | ⟨rfl, rfl⟩ <;> rfl

/-- All expressions of the dictionary can be compiled. -/
def Compiles (E : Engine) (d : Dict Str Str) : Prop := ∀ kv ∈ d, (compile E kv.1).isSome

/-- An expression of the dictionary, with that value, is found in the domain. -/
def GivesTo (E : Engine) (d : Dict Str Str) (author p : Str) : Prop :=
  ∃ kv ∈ d, kv.2 ≠ [] ∧ p = lower kv.2 ∧ ∃ r, compile E kv.1 = some r ∧ r.2 author = true

theorem overrideLoop_ends {E : Engine} {char author p : Str} (hp : practice char = some p) : ∀ {d : Dict Str Str}, Compiles E d →
    (GivesTo E d author p ∧ overrideLoop E char author d = .hit) ∨ (¬ GivesTo E d author p ∧ overrideLoop E char author d = .done) := by
  intro d
  induction d with
  | nil => intro _; exact Or.inr ⟨(by rintro ⟨_, h, _⟩; cases h), rfl⟩
  | cons kv d ih =>
    intro hc
    have ih := ih (fun x hx => hc x (List.mem_cons_of_mem _ hx))
    obtain ⟨r, hr⟩ := Option.isSome_iff_exists.mp (hc kv (by simp))
    have next : ¬ (kv.2 ≠ [] ∧ p = lower kv.2 ∧ r.2 author = true) → overrideLoop E char author (kv :: d) = overrideLoop E char author d →
        (GivesTo E (kv :: d) author p ∧ overrideLoop E char author (kv :: d) = .hit) ∨
          (¬ GivesTo E (kv :: d) author p ∧ overrideLoop E char author (kv :: d) = .done) := by
      intro hn he
      rw [he]
      rcases ih with ⟨⟨x, hx, h⟩, h'⟩ | ⟨h, h'⟩
      · exact Or.inl ⟨⟨x, List.mem_cons_of_mem _ hx, h⟩, h'⟩
      · refine Or.inr ⟨?_, h'⟩
        rintro ⟨x, hx, h1, h2, r', h3, h4⟩
        rcases List.mem_cons.mp hx with rfl | hx
        · rw [hr] at h3
          cases h3
          exact hn ⟨h1, h2, h4⟩
        · exact h ⟨x, hx, h1, h2, r', h3, h4⟩
    by_cases h1 : r.2 author = true ∧ kv.2 ≠ []
    · by_cases h2 : p = lower kv.2
      · refine Or.inl ⟨⟨kv, by simp, h1.2, h2, r, hr, h1.1⟩, ?_⟩
        unfold overrideLoop
        simp only [hr, hp]
        rw [if_pos h1, if_pos h2]
      · refine next (fun h => h2 h.2.1) ?_
        conv => lhs; unfold overrideLoop
        simp only [hr, hp]
        rw [if_pos h1, if_neg h2]
    · refine next (fun h => h1 ⟨h.2.2, h.1⟩) ?_
      conv => lhs; unfold overrideLoop
      simp only [hr]
      rw [if_neg h1]

/-- A domain is reported, according to a dictionary. -/
def Reported (E : Engine) (char only p : Str) (d : Dict Str Str) (author : Str) : Prop :=
  (only = [] ∨ only = author) ∧ ((char = c!"D" ∧ (Dict.get? d author).getD [] = []) ∨ GivesTo E d author p)

theorem mem_set_new {d : Dict Str Str} {k v : Str} (h : Dict.has d k = false) (x : Str × Str) :
    x ∈ Dict.set d k v ↔ x ∈ d ∨ x = (k, v) := by
  have : k ∉ Dict.keys d := by
    rw [← Dict.get?_eq_none_iff]
    unfold Dict.has at h
    cases hg : Dict.get? d k with
    | none => rfl
    | some v => rw [hg] at h; cases h
  rw [Dict.set_of_not_mem d v this]
  simp

theorem literal_starred {d : Str} (h : Literal d) : starred d = d := by
  unfold starred
  induction d with
  | nil => rfl
  | cons c d ih =>
    rw [List.flatMap_cons, if_neg (h c (by simp)).2, ih (fun x hx => h x (List.mem_cons_of_mem _ hx))]
    rfl

theorem literal_compiles (E : Engine) {d : Str} (h : Literal d) : (compile E d).isSome := by
  have e := literal_starred h
  obtain ⟨r, hr, _⟩ := compile_pattern E (p := d) (fun c hc => (h c hc).1)
  rw [e] at hr
  rw [hr]
  rfl

theorem adspLoop_ends {E : Engine} {char only p : Str} (hp : practice char = some p) : ∀ {authors : List Str} {d : Dict Str Str},
    Compiles E d → (∀ a ∈ authors, Literal a) →
    ((∃ a ∈ authors, Reported E char only p d a) ∧ adspLoop E char only d authors = .hit) ∨
      (¬ (∃ a ∈ authors, Reported E char only p d a) ∧ adspLoop E char only d authors = .done) := by
  have hs : char ≠ c!"*" := by rintro rfl; cases hp
  intro authors
  induction authors with
  | nil => intro d _ _; exact Or.inr ⟨(by rintro ⟨_, h, _⟩; cases h), rfl⟩
  | cons a as ih =>
    intro d hc hl
    have hl' : ∀ x ∈ as, Literal x := fun x hx => hl x (List.mem_cons_of_mem _ hx)
    by_cases ho : only ≠ [] ∧ only ≠ a
    · have e : adspLoop E char only d (a :: as) = adspLoop E char only d as := by
        conv => lhs; unfold adspLoop
        rw [if_pos ho]
      rw [e]
      have hn : ¬ Reported E char only p d a := by
        rintro ⟨h | h, _⟩
        · exact ho.1 h
        · exact ho.2 h
      rcases ih hc hl' with ⟨⟨x, hx, h⟩, h'⟩ | ⟨h, h'⟩
      · exact Or.inl ⟨⟨x, List.mem_cons_of_mem _ hx, h⟩, h'⟩
      · refine Or.inr ⟨?_, h'⟩
        rintro ⟨x, hx, hr⟩
        rcases List.mem_cons.mp hx with rfl | hx
        · exact hn hr
        · exact h ⟨x, hx, hr⟩
    · have ho' : only = [] ∨ only = a := by
        by_cases h : only = []
        · exact Or.inl h
        · exact Or.inr (Classical.not_not.mp (fun h' => ho ⟨h, h'⟩))
      by_cases hd : (Dict.get? d a).getD [] = [] ∧ char = c!"D"
      · refine Or.inl ⟨⟨a, by simp, ho', Or.inl ⟨hd.2, hd.1⟩⟩, ?_⟩
        unfold adspLoop
        rw [if_neg ho]
        simp only
        rw [if_pos hd]
      · -- the dictionary with the domain in it
        obtain ⟨d', hd'⟩ : ∃ d', d' = if Dict.has d a then d else Dict.set d a [] := ⟨_, rfl⟩
        have hc' : Compiles E d' := by
          rw [hd']
          cases hh : Dict.has d a with
          | true => simpa using hc
          | false =>
            intro x hx
            rcases (mem_set_new hh x).mp (by simpa using hx) with hx | rfl
            · exact hc x hx
            · exact literal_compiles E (hl a (by simp))
        have hg : ∀ b, GivesTo E d' b p ↔ GivesTo E d b p := by
          intro b
          rw [hd']
          cases hh : Dict.has d a with
          | true => simp
          | false =>
            constructor
            · rintro ⟨x, hx, h1, h2⟩
              rcases (mem_set_new hh x).mp (by simpa using hx) with hx | rfl
              · exact ⟨x, hx, h1, h2⟩
              · exact absurd rfl h1
            · rintro ⟨x, hx, h⟩
              exact ⟨x, by simpa using (mem_set_new hh x).mpr (Or.inl hx), h⟩
        have hget : ∀ b, (Dict.get? d' b).getD [] = (Dict.get? d b).getD [] := by
          intro b
          rw [hd']
          cases hh : Dict.has d a with
          | true => simp
          | false =>
            simp only [Bool.false_eq_true, if_false]
            rw [Dict.get?_set]
            by_cases hb : a = b
            · subst hb
              unfold Dict.has at hh
              cases hx : Dict.get? d a with
              | none => simp
              | some v => rw [hx] at hh; cases hh
            · simp [hb]
        have hrep : ∀ b, Reported E char only p d' b ↔ Reported E char only p d b := by
          intro b
          unfold Reported
          rw [hg, hget]
        have e : adspLoop E char only d (a :: as) =
            match overrideLoop E char a d' with
            | .done => adspLoop E char only d' as
            | r => r := by
          conv => lhs; unfold adspLoop
          rw [if_neg ho]
          simp only
          rw [if_neg hd, if_neg hs, ← hd']
          cases overrideLoop E char a d' <;> rfl
        rw [e]
        rcases overrideLoop_ends (author := a) hp hc' with ⟨h1, h2⟩ | ⟨h1, h2⟩
        · rw [h2]
          exact Or.inl ⟨⟨a, by simp, ho', Or.inr ((hg a).mp h1)⟩, rfl⟩
        · rw [h2]
          have hn : ¬ Reported E char only p d a := by
            rintro ⟨_, h | h⟩
            · exact hd ⟨h.2, h.1⟩
            · exact h1 ((hg a).mpr h)
          rcases ih hc' hl' with ⟨⟨x, hx, h⟩, h'⟩ | ⟨h, h'⟩
          · exact Or.inl ⟨⟨x, List.mem_cons_of_mem _ hx, (hrep x).mp h⟩, h'⟩
          · refine Or.inr ⟨?_, h'⟩
            rintro ⟨x, hx, hr⟩
            rcases List.mem_cons.mp hx with rfl | hx
            · exact hn hr
            · exact h ⟨x, hx, (hrep x).mpr hr⟩

theorem kept_compiles (E : Engine) (removed : List Str) (entries : List Entry) (hf : ∀ e ∈ entries, e.Fine) :
    Compiles E (keptEntries removed entries) := by
  intro kv hkv
  obtain ⟨e, he, rfl⟩ := List.mem_map.mp hkv
  obtain ⟨r, hr, _⟩ := compile_pattern E (hf e (List.mem_filter.mp he).1).1.2
  rw [hr]
  rfl

theorem gives_iff (E : Engine) (removed : List Str) (entries : List Entry) (hf : ∀ e ∈ entries, e.Fine) (author char p : Str)
    (hp : practice char = some p) : GivesTo E (keptEntries removed entries) author p ↔ Overrides entries removed char author := by
  have hins : ∀ e ∈ entries, ∀ r, compile E (starred e.pattern) = some r → (r.2 author = true ↔ Inside e.pattern author) := by
    intro e he r hr
    unfold compile at hr
    rw [parts_starred _ (hf e he).1.2] at hr
    cases hr
    simp only
    rw [search_iff]
    constructor
    · rintro ⟨x, y, e1, h⟩; exact ⟨x, y, e1, (begins_iff _ _).mp h⟩
    · rintro ⟨x, y, e1, h⟩; exact ⟨x, y, e1, (begins_iff _ _).mpr h⟩
  constructor
  · rintro ⟨kv, hkv, h1, h2, r, h3, h4⟩
    obtain ⟨e, he, rfl⟩ := List.mem_map.mp hkv
    obtain ⟨he, hr⟩ := List.mem_filter.mp he
    cases hl : e.signers.getLast? with
    | none => rw [hl] at h1; exact absurd rfl h1
    | some k =>
      rw [hl] at h2
      exact ⟨e, he, by simpa using hr, (hins e he r h3).mp h4, k, hl, (practice_iff _ _).mp (by rw [hp, h2]; rfl)⟩
  · rintro ⟨e, he, hr, hi, k, hl, hk⟩
    obtain ⟨r, hcr, _⟩ := compile_pattern E (hf e he).1.2
    refine ⟨(starred e.pattern, e.signers.getLast?.getD []), List.mem_map.mpr ⟨e, List.mem_filter.mpr ⟨he, by simpa using hr⟩, rfl⟩,
      ?_, ?_, r, hcr, (hins e he r hcr).mpr hi⟩
    · unfold LastSigner at hl
      rw [hl]
      exact ((hf e he).2 k (List.mem_of_getLast? hl)).1
    · unfold LastSigner at hl
      rw [hl]
      have := (practice_iff _ _).mpr hk
      rw [hp] at this
      simpa using this

/-- A new process. -/
def freshAdsp : AdspSt := ⟨DkimSt.init, false⟩

theorem adspRule_fresh (E : Engine) (c : Conf) (entries : List Entry) (removed : List Str) (char only : Str) (m : DkimMsg)
    (hf : ∀ e ∈ entries, e.Fine) (hn : (entries.map Entry.pattern).Nodup) (hl : Lists c.adspOverride (entries.map Entry.text))
    (hr : Lists c.unwhitelist removed) (h3 : entries.length ≤ 3) :
    (adspRule E c char only m freshAdsp).1 = true ↔ Checked m ∧ ¬ Verified m ∧
      (adspLoop E char only (keptEntries removed entries) m.domains = .hit ∨
        (adspLoop E char only (keptEntries removed entries) m.domains = .done ∧ char = c!"U")) := by
  rw [← checked_init, ← valid_init]
  obtain ⟨ha, hd⟩ := check_authors m
  unfold adspRule freshAdsp
  simp only
  rw [ensure_init]
  rcases hc : checkSignature m DkimSt.init with ⟨ok, s⟩
  rw [hc] at ha hd
  simp only at ha hd
  cases ok with
  | false => simp
  | true =>
    cases hv : s.valid with
    | true => simp [hv]
    | false =>
      have h3' : ¬ (listOption c.adspOverride).length > 3 := by rw [lists_option hl]; simpa using h3
      simp only [hv, Bool.false_eq_true, if_false, h3', true_and]
      rw [lists_option hl, lists_option hr, parse_entries removed entries hf hn]
      simp only [hd]
      cases adspLoop E char only (keptEntries removed entries) m.domains <;> simp

/-- Exactly when the rules about signing practices (`A`, `N`, `1`, `2`, `3`) hold for the first message of a process, with three
overrides at most: the message has no verified signature and an override found in the domain of an author, the named one if there is
one, gives the practice.  Missing: more overrides (`C134_many_violated`), other lines (`C133_lines_violated` is the same for this
option), overrides for the very domain (`C134_inside_violated`), the letters `D` and `U` (`C134_discard_violated`,
`C134_unknown_violated`), the practices that the domains publish themselves, which are never asked for, and later messages
(`C54_dkim_violated`, `C134_sticky_violated`). -/
theorem C134_override_partial (E : Engine) (c : Conf) (entries : List Entry) (removed : List Str) (char only : Str) (m : DkimMsg)
    (hf : ∀ e ∈ entries, e.Fine) (hn : (entries.map Entry.pattern).Nodup) (hl : Lists c.adspOverride (entries.map Entry.text))
    (hr : Lists c.unwhitelist removed) (h3 : entries.length ≤ 3) (hd : ∀ d ∈ m.domains, Literal d)
    (hc : char ∈ [c!"A", c!"N", c!"1", c!"2", c!"3"]) :
    (adspRule E c char only m freshAdsp).1 = true ↔
      Checked m ∧ ¬ Verified m ∧ ∃ d ∈ m.domains, (only = [] ∨ only = d) ∧ Overrides entries removed char d := by
  obtain ⟨p, hp⟩ : ∃ p, practice char = some p := by
    simp only [List.mem_cons, List.not_mem_nil, or_false] at hc
    rcases hc with rfl | rfl | rfl | rfl | rfl <;> exact ⟨_, rfl⟩
  have hD : char ≠ c!"D" := by rintro rfl; revert hc; decide
  have hU : char ≠ c!"U" := by rintro rfl; revert hc; decide
  rw [adspRule_fresh E c entries removed char only m hf hn hl hr h3]
  have hrep : ∀ a, Reported E char only p (keptEntries removed entries) a ↔ (only = [] ∨ only = a) ∧ Overrides entries removed char a := by
    intro a
    unfold Reported
    rw [gives_iff E removed entries hf a char p hp]
    simp [hD]
  rcases adspLoop_ends (only := only) hp (kept_compiles E removed entries hf) hd with ⟨⟨x, hx, h⟩, h'⟩ | ⟨h, h'⟩
  · rw [h']
    simp only [true_or, and_true]
    exact ⟨fun h1 => ⟨h1.1, h1.2, x, hx, (hrep x).mp h⟩, fun h1 => ⟨h1.1, h1.2.1⟩⟩
  · rw [h']
    simp only [hU, and_false, or_false, reduceCtorEq, false_iff]
    rintro ⟨_, _, x, hx, h1⟩
    exact h ⟨x, hx, (hrep x).mpr h1⟩

/-- The rule with `*` holds exactly for messages without a verified signature that have an author of the named domain, or any. -/
theorem C134_any (E : Engine) (c : Conf) (entries : List Entry) (removed : List Str) (only : Str) (m : DkimMsg)
    (hf : ∀ e ∈ entries, e.Fine) (hn : (entries.map Entry.pattern).Nodup) (hl : Lists c.adspOverride (entries.map Entry.text))
    (hr : Lists c.unwhitelist removed) (h3 : entries.length ≤ 3) :
    (adspRule E c c!"*" only m freshAdsp).1 = true ↔ Checked m ∧ ¬ Verified m ∧ ∃ d ∈ m.domains, only = [] ∨ only = d := by
  rw [adspRule_fresh E c entries removed _ only m hf hn hl hr h3]
  have key : ∀ (as : List Str) (d : Dict Str Str), ((∃ a ∈ as, only = [] ∨ only = a) ∧ adspLoop E c!"*" only d as = .hit) ∨
      (¬ (∃ a ∈ as, only = [] ∨ only = a) ∧ adspLoop E c!"*" only d as = .done) := by
    intro as
    induction as with
    | nil => intro d; exact Or.inr ⟨(by rintro ⟨_, h, _⟩; cases h), rfl⟩
    | cons a as ih =>
      intro d
      unfold adspLoop
      by_cases ho : only ≠ [] ∧ only ≠ a
      · rw [if_pos ho]
        rcases ih d with ⟨⟨x, hx, h⟩, h'⟩ | ⟨h, h'⟩
        · exact Or.inl ⟨⟨x, List.mem_cons_of_mem _ hx, h⟩, h'⟩
        · refine Or.inr ⟨?_, h'⟩
          rintro ⟨x, hx, hr⟩
          rcases List.mem_cons.mp hx with rfl | hx
          · rcases hr with hr | hr
            · exact ho.1 hr
            · exact ho.2 hr
          · exact h ⟨x, hx, hr⟩
      · rw [if_neg ho]
        simp only
        rw [if_neg (fun h => absurd h.2 (by decide))]
        refine Or.inl ⟨⟨a, by simp, ?_⟩, by simp⟩
        by_cases h : only = []
        · exact Or.inl h
        · exact Or.inr (Classical.not_not.mp (fun h' => ho ⟨h, h'⟩))
  rcases key m.domains (keptEntries removed entries) with ⟨h, h'⟩ | ⟨h, h'⟩
  · rw [h']; simp only [true_or, and_true]; exact ⟨fun h1 => ⟨h1.1, h1.2, h⟩, fun h1 => ⟨h1.1, h1.2.1⟩⟩
  · rw [h']; simp only [reduceCtorEq, false_or, true_and]
    exact ⟨fun h1 => absurd h1.2.2 (by decide), fun h1 => absurd h1.2.2 h⟩

/-- A message with a verified signature is never reported by a rule about signing practices. -/
theorem C134_signed (E : Engine) (c : Conf) (char only : Str) (m : DkimMsg) (h : Verified m) :
    (adspRule E c char only m freshAdsp).1 = false := by
  obtain ⟨h1, h2⟩ := (valid_init m).mpr h
  unfold adspRule freshAdsp
  simp only
  rw [ensure_init]
  rcases hc : checkSignature m DkimSt.init with ⟨ok, s⟩
  rw [hc] at h1 h2
  simp only at h1 h2
  subst h1
  simp [h2]

/-- With more than three overrides no rule about signing practices ever holds. -/
theorem C134_many_violated (E : Engine) (c : Conf) (overrides : List Str) (char only : Str) (m : DkimMsg) (s : AdspSt)
    (hl : Lists c.adspOverride overrides) (h : 3 < overrides.length) : (adspRule E c char only m s).1 = false := by
  unfold adspRule
  rw [lists_option hl]
  split
  · rfl
  · simp only
    split
    · rfl
    · first | rfl | rw [if_pos h]

/-- The rule with `D` holds for every message without a verified signature that has an author whose domain is not itself an entry
of the overrides, although nothing says that such mail is discardable. -/
theorem C134_discard_violated (E : Engine) (c : Conf) (entries : List Entry) (removed : List Str) (m : DkimMsg) (d : Str)
    (hf : ∀ e ∈ entries, e.Fine) (hn : (entries.map Entry.pattern).Nodup) (hl : Lists c.adspOverride (entries.map Entry.text))
    (hr : Lists c.unwhitelist removed) (h3 : entries.length ≤ 3) (hd : ∀ d ∈ m.domains, Literal d) (hc : Checked m)
    (hv : ¬ Verified m) (hm : d ∈ m.domains) (he : ∀ e ∈ entries, e.pattern ≠ d) :
    (adspRule E c c!"D" [] m freshAdsp).1 = true := by
  rw [adspRule_fresh E c entries removed _ _ m hf hn hl hr h3]
  refine ⟨hc, hv, ?_⟩
  rcases adspLoop_ends (only := []) (show practice c!"D" = some c!"discardable" from rfl) (kept_compiles E removed entries hf) hd with
    ⟨_, h⟩ | ⟨h, _⟩
  · exact Or.inl h
  · refine absurd ⟨d, hm, Or.inl rfl, Or.inl ⟨rfl, ?_⟩⟩ h
    have : Dict.get? (keptEntries removed entries) d = none := by
      rw [Dict.get?_eq_none_iff]
      intro hk
      unfold Dict.keys keptEntries at hk
      rw [List.map_map] at hk
      obtain ⟨e, hem, hk⟩ := List.mem_map.mp hk
      exact he e (List.mem_filter.mp hem).1 (starred_inj (hk.trans (literal_starred (hd d hm)).symm))
    rw [this]
    rfl

/-- The rule with `U` holds for every message without a verified signature that is the first of a process, whatever the overrides
say about its domain. -/
theorem C134_unknown_violated (E : Engine) (c : Conf) (entries : List Entry) (removed : List Str) (only : Str) (m : DkimMsg)
    (hf : ∀ e ∈ entries, e.Fine) (hn : (entries.map Entry.pattern).Nodup) (hl : Lists c.adspOverride (entries.map Entry.text))
    (hr : Lists c.unwhitelist removed) (h3 : entries.length ≤ 3) (hd : ∀ d ∈ m.domains, Literal d) (hc : Checked m)
    (hv : ¬ Verified m) : (adspRule E c c!"U" only m freshAdsp).1 = true := by
  rw [adspRule_fresh E c entries removed _ _ m hf hn hl hr h3]
  refine ⟨hc, hv, ?_⟩
  rcases adspLoop_ends (only := only) (show practice c!"U" = some c!"unknown" from rfl) (kept_compiles E removed entries hf) hd with
    ⟨_, h⟩ | ⟨_, h⟩
  · exact Or.inl h
  · exact Or.inr ⟨h, rfl⟩

/-- An override applies to every domain that contains its own. -/
theorem C134_inside_violated (E : Engine) (dom k letter x y : Str) (m : DkimMsg) (he : (Entry.mk dom [k]).Fine) (hs : Literal dom)
    (hk : (letter, lower k) ∈ practices) (hl : letter ∈ [c!"A", c!"N", c!"1", c!"2", c!"3"]) (hd : ∀ d ∈ m.domains, Literal d)
    (hn : '\n' ∉ dom) (hc : Checked m) (hv : ¬ Verified m) (hm : x ++ dom ++ y ∈ m.domains) :
    (adspRule E ⟨[], [], [], [dom ++ ' ' :: k]⟩ letter [] m freshAdsp).1 = true := by
  have := (C134_override_partial E ⟨[], [], [], [dom ++ ' ' :: k]⟩ [⟨dom, [k]⟩] [] letter [] m (by simpa using he) (by simp)
    (by have := lists_one (fine_text he); simpa [Entry.text, join] using this) (Or.inl ⟨rfl, rfl⟩) (by simp) hd hl).mpr
  refine this ⟨hc, hv, _, hm, Or.inl rfl, ⟨dom, [k]⟩, by simp, by simp, ⟨x, dom ++ y, by simp, ?_⟩, k, rfl, hk⟩
  refine covers_begins (covers_plain dom (fun h => (hs '*' h).2 rfl) (fun h => (hs '?' h).1 (by decide))) (fun c hc => (hs c hc).1) hn y

/-- Once a rule about signing practices has held, the one with `U` never holds again unless an override says so. -/
theorem C134_sticky_violated (E : Engine) (c : Conf) (only : Str) (m m' : DkimMsg) (s : AdspSt) (char only' : Str)
    (h : (adspRule E c char only' m s).1 = true) (hU : char ≠ c!"U") : (adspRule E c char only' m s).2.matched = true ∧
    ∀ s', s'.matched = true → (adspRule E ⟨[], [], [], []⟩ c!"U" only m' s').1 = false := by
  constructor
  · unfold adspRule at h ⊢
    split
    · rename_i heq; rw [heq] at h; cases h
    · rename_i heq
      rw [heq] at h
      simp only at h ⊢
      split
      · rename_i hv; rw [if_pos hv] at h; cases h
      · rename_i hv
        rw [if_neg hv] at h
        split
        · rename_i h3; rw [if_pos h3] at h; cases h
        · rename_i h3
          rw [if_neg h3] at h
          cases hp : parseInput (listOption c.unwhitelist) (listOption c.adspOverride) with
          | none => rw [hp] at h; cases h
          | some d =>
            rw [hp] at h
            simp only at h ⊢
            generalize hg : adspLoop E char only' d _ = ha at h ⊢
            cases ha with
            | hit => rfl
            | stop => cases h
            | error => cases h
            | done => simp [hU] at h
  · intro s' hs
    unfold adspRule
    split
    · rfl
    · rename_i k heq
      simp only
      split
      · rfl
      · rw [if_neg (by decide)]
        have : parseInput (listOption []) (listOption []) = some [] := rfl
        rw [this]
        simp only
        have none : ∀ (as : List Str) (d : Dict Str Str), (∀ kv ∈ d, kv.2 = []) → adspLoop E c!"U" only d as ≠ .hit := by
          intro as
          induction as with
          | nil => intro d _; simp [adspLoop]
          | cons a as ih =>
            intro d hd
            unfold adspLoop
            split
            · exact ih d hd
            · simp only
              rw [if_neg (fun h => absurd h.2 (by decide)), if_neg (by decide)]
              have hd2 : ∀ kv ∈ (if Dict.has d a then d else Dict.set d a []), kv.2 = [] := by
                cases hh : Dict.has d a with
                | true => simpa using hd
                | false =>
                  intro x hx
                  rcases (mem_set_new hh x).mp (by simpa using hx) with hx | rfl
                  · exact hd x hx
                  · rfl
              have ho : ∀ (d : Dict Str Str), (∀ kv ∈ d, kv.2 = []) → overrideLoop E c!"U" a d ≠ .hit := by
                intro d
                induction d with
                | nil => intro _; simp [overrideLoop]
                | cons kv d ih2 =>
                  intro h
                  unfold overrideLoop
                  cases compile E kv.1 with
                  | none => simp
                  | some r =>
                    simp only
                    rw [if_neg (fun h' => h'.2 (h kv (by simp)))]
                    exact ih2 (fun x hx => h x (List.mem_cons_of_mem _ hx))
              have := ho _ hd2
              split
              · exact ih _ hd2
              · rename_i r hr; exact this
        cases ha : adspLoop E c!"U" only [] k.domains with
        | hit => exact absurd ha (none _ [] (by simp))
        | stop => rfl
        | error => rfl
        | done => simp [hs]

/-! ### Examples -/

/-- Nobody has signed. -/
def unsignedMsg : DkimMsg := { dkimMsg with hasSig := false, parsed := some none, verify := .bad }

example : Checked unsignedMsg ∧ ¬ Verified unsignedMsg := ⟨⟨by decide, by decide⟩, fun h => by cases h.1⟩

example : ∀ d ∈ unsignedMsg.domains, Literal d := by decide

/-- Two overrides. -/
def overrides : List Entry := [⟨c!"example.org", [c!"all"]⟩, ⟨c!"*.com", [c!"Custom_Low"]⟩]

set_option maxRecDepth 8000 in
example : (∀ e ∈ overrides, e.Fine) ∧ (overrides.map Entry.pattern).Nodup ∧ overrides.length ≤ 3 := by decide +kernel

example : Lists [c!"example.org all,*.com Custom_Low"] (overrides.map Entry.text) :=
  Or.inr ⟨by decide, by decide, by decide⟩

example : Overrides overrides [] c!"1" c!"example.com" := by
  refine ⟨⟨c!"*.com", [c!"Custom_Low"]⟩, by simp [overrides], by simp, ⟨[], c!"example.com", rfl, ?_⟩, c!"Custom_Low", rfl, by decide⟩
  exact .star _ c!"example" c!".com" (by decide) (.dot _ _ _ (by decide) (.lit _ _ _ (by decide) (by decide)
    (.lit _ _ _ (by decide) (by decide) (.lit _ _ _ (by decide) (by decide) (.nil _)))))

set_option maxRecDepth 8000 in
example : let rule := fun c only => (adspRule noEngine ⟨[], [], [], [c!"example.org all,*.com Custom_Low"]⟩ c only unsignedMsg freshAdsp).1
    rule c!"1" [] = true ∧ rule c!"1" c!"example.com" = true ∧ rule c!"1" c!"example.net" = false ∧ rule c!"A" [] = false ∧
    rule c!"D" [] = true ∧ rule c!"U" [] = true ∧ rule c!"*" c!"example.com" = true ∧ rule c!"*" c!"example.org" = false := by
  decide +kernel

/-! ## C135 -/

theorem splitChar_append_any (c : Char) (b : Str) : ∀ a : Str, splitChar c (a ++ c :: b) = splitChar c a ++ splitChar c b := by
  intro a
  induction a with
  | nil => simp [splitChar]
  | cons x xs ih =>
    simp only [List.cons_append, splitChar, ih]
    split
    · rfl
    · cases h : splitChar c xs with
      | nil =>
        exfalso
        cases xs with
        | nil => simp [splitChar] at h
        | cons y ys =>
          simp only [splitChar] at h
          split at h
          · cases h
          · split at h <;> cases h
      | cons w ws => simp

theorem dot_single (c : Char) {a : Str} (h : c ∉ a) : splitChar c a = [a] := by
  induction a with
  | nil => rfl
  | cons x xs ih =>
    simp only [List.mem_cons, not_or] at h
    have hx : (x == c) = false := by simpa using fun e => h.1 e.symm
    simp only [splitChar, hx]
    rw [ih h.2]
    simp

theorem last_dot {c : Char} : ∀ {s : Str}, c ∈ s → ∃ x b, s = x ++ c :: b ∧ c ∉ b := by
  intro s
  induction s with
  | nil => intro h; cases h
  | cons y ys ih =>
    intro h
    by_cases hm : c ∈ ys
    · obtain ⟨x, b, e, hb⟩ := ih hm
      exact ⟨y :: x, b, by rw [e]; rfl, hb⟩
    · rcases List.mem_cons.mp h with rfl | h
      · exact ⟨[], ys, rfl, hm⟩
      · exact absurd h hm

theorem lastTwo_end (l : List Str) (a b : Str) : lastTwo (l ++ [a, b]) = [a, b] := by
  unfold lastTwo
  simp

/-- The code compares the last two labels of the name in the rule. -/
theorem accepts_iff (dom signer : Str) :
    accepts dom signer = true ↔ ∃ rest a b, Labels dom rest a b ∧ (a ++ '.' :: b) <:+: signer := by
  have key : ∀ a b : Str, (join c!"." [a, b] == signer || hasSub (join c!"." [a, b]) signer) = true ↔ (a ++ '.' :: b) <:+: signer := by
    intro a b
    have e : join c!"." [a, b] = a ++ '.' :: b := by simp [join]
    rw [e, Bool.or_eq_true, hasSub_iff, beq_iff_eq]
    exact ⟨fun h => h.elim (fun h => h ▸ List.infix_rfl) id, Or.inr⟩
  have split : ∀ rest a b, Labels dom rest a b → splitChar '.' dom = [a, b] ∨ ∃ l, splitChar '.' dom = l ++ [a, b] := by
    rintro rest a b ⟨ha, hb, ⟨rfl, _⟩ | rfl⟩
    · left; rw [splitChar_append_any, dot_single '.' ha, dot_single '.' hb]; rfl
    · right
      refine ⟨splitChar '.' rest, ?_⟩
      have e : rest ++ '.' :: a ++ '.' :: b = rest ++ '.' :: (a ++ '.' :: b) := by simp
      rw [e, splitChar_append_any, splitChar_append_any, dot_single '.' ha, dot_single '.' hb]
      rfl
  have acc : ∀ rest a b, Labels dom rest a b → (accepts dom signer = true ↔ (a ++ '.' :: b) <:+: signer) := by
    intro rest a b h
    unfold accepts
    rcases split rest a b h with e | ⟨l, e⟩
    · rw [e]
      exact key a b
    · rw [e]
      simp only [lastTwo_end]
      rw [if_pos (by simp)]
      exact key a b
  constructor
  · intro h
    have hd : '.' ∈ dom := by
      by_cases hd : '.' ∈ dom
      · exact hd
      · exfalso
        unfold accepts at h
        rw [dot_single '.' hd] at h
        simp at h
    obtain ⟨x, b, e, hb⟩ := last_dot hd
    by_cases hx : '.' ∈ x
    · obtain ⟨rest, a, e2, ha⟩ := last_dot hx
      have hl : Labels dom rest a b := ⟨ha, hb, Or.inr (by rw [e, e2])⟩
      exact ⟨rest, a, b, hl, (acc _ _ _ hl).mp h⟩
    · have hl : Labels dom [] x b := ⟨hx, hb, Or.inl ⟨e, rfl⟩⟩
      exact ⟨[], x, b, hl, (acc _ _ _ hl).mp h⟩
  · rintro ⟨rest, a, b, hl, h⟩
    exact (acc _ _ _ hl).mpr h

theorem argsLoop_iff (mv ma : Bool) (m : DkimMsg) (s : DkimSt) (d : Str) (hp : m.parsed = some (some d))
    (hv : mv = true → s.isValid = true) (ha : ma = true → d ∈ s.domains) (args : List Str) :
    (argsLoop mv ma m s args).1 = true ↔ NamedIn args d := by
  have one : ∀ a, signedBy mv ma m s a = (some (accepts a d), s) := by
    intro a
    unfold signedBy
    rw [hp]
    simp only
    rw [if_neg (by rintro ⟨h1, _, h2⟩; rw [hv h1] at h2; cases h2)]
    have e : (if ma = true ∧ s.domains.isEmpty = true then getAuthors m s else s) = s := by
      rw [if_neg]
      rintro ⟨h1, h2⟩
      have := ha h1
      rw [List.isEmpty_iff.mp h2] at this
      cases this
    rw [e, if_neg]
    rintro ⟨h1, h2⟩
    have := ha h1
    simp [this] at h2
  induction args with
  | nil => simp [argsLoop, NamedIn]
  | cons a as ih =>
    unfold argsLoop
    rw [one a]
    cases hacc : accepts a d with
    | true =>
      simp only [true_iff]
      exact ⟨a, by simp, (accepts_iff a d).mp hacc⟩
    | false =>
      refine Iff.trans ih ?_
      constructor
      · rintro ⟨x, hx, h⟩; exact ⟨x, List.mem_cons_of_mem _ hx, h⟩
      · rintro ⟨x, hx, h⟩
        rcases List.mem_cons.mp hx with rfl | hx
        · rw [(accepts_iff x d).mpr h] at hacc; cases hacc
        · exact ⟨x, hx, h⟩

theorem checked_state (m : DkimMsg) (d : Str) (hp : m.parsed = some (some d)) (hd : d ∈ m.domains) (hv : m.verify ≠ .otherError) :
    ∃ s, checkSignature m DkimSt.init = (true, s) ∧ s.domains = m.domains ∧ s.signed = m.hasSig ∧
      (s.isValid = true ↔ m.verify ≠ .bad) ∧ (s.valid = true ↔ m.verify = .good ∧ m.fieldsOk = true) ∧
      (s.authorSig = true ↔ m.verify ≠ .libError ∧ m.fieldsOk = true) := by
  unfold checkSignature getAuthors DkimSt.init
  rw [hp]
  cases hs : m.hasSig <;> cases hf : m.fieldsOk <;> cases hvv : m.verify <;> simp_all

theorem not_author_state (m : DkimMsg) (hd : ∀ d, m.parsed = some (some d) → d ∉ m.domains) :
    (checkSignature m DkimSt.init).1 = true →
      (checkSignature m DkimSt.init).2.valid = false ∧
      ((∃ d, m.parsed = some (some d)) → (checkSignature m DkimSt.init).2.signed = false ∧ (checkSignature m DkimSt.init).2.authorSig = false) := by
  unfold checkSignature getAuthors DkimSt.init
  cases hp : m.parsed with
  | none => simp
  | some d =>
    cases d with
    | none => cases hs : m.hasSig <;> cases hf : m.fieldsOk <;> cases hvv : m.verify <;> simp
    | some d =>
      have := hd d hp
      cases hs : m.hasSig <;> cases hf : m.fieldsOk <;> cases hvv : m.verify <;> simp_all

theorem argsLoop_none (mv ma : Bool) (m : DkimMsg) (s : DkimSt) (hp : ∀ d, m.parsed ≠ some (some d)) (args : List Str) :
    (argsLoop mv ma m s args).1 = false := by
  induction args with
  | nil => rfl
  | cons a as ih =>
    unfold argsLoop signedBy
    cases hq : m.parsed with
    | none => rfl
    | some d =>
      cases d with
      | some d => exact absurd hq (hp d)
      | none =>
        simp only
        split
        all_goals rename_i heq
        · split at heq <;> cases heq
        · split at heq <;> cases heq
        · split at heq <;> (cases heq; exact ih)

/-- Exactly when `check_dkim_valid` and `check_dkim_valid_author_sig` with named domains hold for the first message of a process:
the signature has been verified and the last two labels of a name occur in its domain.  Missing: names without a dot
(`C135_single_violated`), domains that only contain the name (`C135_inside_violated`), names below the domain
(`C135_deeper_violated`), later messages (`C54_dkim_violated`). -/
theorem C135_valid_partial (args : List Str) (m : DkimMsg) (r : Named) (hr : r ≠ .signed) (ha : args ≠ []) :
    (namedRule r args m DkimSt.init).1 = true ↔ Verified m ∧ ∃ d, m.parsed = some (some d) ∧ NamedIn args d := by
  have hne : args.isEmpty = false := by cases args with | nil => exact absurd rfl ha | cons => rfl
  unfold namedRule
  rw [ensure_init]
  by_cases hp : ∃ d, m.parsed = some (some d) ∧ d ∈ m.domains
  · obtain ⟨d, hp, hd⟩ := hp
    have hvd : Verified m ↔ m.verify = .good ∧ m.fieldsOk = true :=
      ⟨fun h => ⟨h.1, h.2.1⟩, fun h => ⟨h.1, h.2, d, hp, hd⟩⟩
    have hex : (∃ d, m.parsed = some (some d) ∧ NamedIn args d) ↔ NamedIn args d := by
      constructor
      · rintro ⟨d', hp', h⟩
        rw [hp] at hp'
        cases hp'
        exact h
      · exact fun h => ⟨d, hp, h⟩
    rw [hvd, hex]
    by_cases ho : m.verify = .otherError
    · have hc : (checkSignature m DkimSt.init).1 = false := by
        cases h : (checkSignature m DkimSt.init).1 with
        | false => rfl
        | true => exact absurd ho ((checked_init m).mp h).2
      rcases hcs : checkSignature m DkimSt.init with ⟨ok, s⟩
      rw [hcs] at hc
      subst hc
      simp [ho]
    · obtain ⟨s, hs, h1, h2, h3, h4, h5⟩ := checked_state m d hp hd ho
      rw [hs]
      simp only [hne, Bool.false_eq_true, if_false]
      have loop : ∀ mv ma, m.verify = .good → ((argsLoop mv ma m s args).1 = true ↔ NamedIn args d) := fun mv ma hg =>
        argsLoop_iff mv ma m s d hp (fun _ => h3.mpr (by rw [hg]; simp)) (fun _ => h1 ▸ hd) args
      have stay : m.verify = .bad → ∀ as : List Str, (argsLoop (r != .signed) (r == .authorSig) m s as).1 = false := by
        intro hb
        have hiv : s.isValid = false := by
          cases h : s.isValid with
          | false => rfl
          | true => exact absurd hb (h3.mp h)
        intro as
        induction as with
        | nil => rfl
        | cons a as ih =>
          unfold argsLoop signedBy
          rw [hp]
          simp only
          by_cases hae : a = []
          · subst hae
            rw [if_neg (fun h => h.2.1 rfl)]
            have e : (if (r == Named.authorSig) = true ∧ s.domains.isEmpty = true then getAuthors m s else s) = s := by
              rw [if_neg]
              rintro ⟨_, h⟩
              rw [h1] at h
              rw [List.isEmpty_iff.mp h] at hd
              cases hd
            rw [e, if_neg (by rintro ⟨_, h⟩; rw [h1] at h; simp [hd] at h)]
            have : accepts [] d = false := rfl
            rw [this]
            exact ih
          · rw [if_pos ⟨by simpa using hr, hae, by simp [hiv]⟩]
            exact ih
      cases r with
      | signed => exact absurd rfl hr
      | valid =>
        cases hv : s.valid with
        | false =>
          simp only [Bool.not_false, if_true, Bool.false_eq_true, false_iff]
          rintro ⟨h, _⟩
          rw [h4.mpr h] at hv
          cases hv
        | true =>
          have hg := h4.mp hv
          simp only [Bool.not_true, Bool.false_eq_true, if_false]
          rw [loop _ _ hg.1]
          exact ⟨fun h => ⟨hg, h⟩, fun h => h.2⟩
      | authorSig =>
        cases hv : s.authorSig with
        | false =>
          simp only [Bool.not_false, if_true, Bool.false_eq_true, false_iff]
          rintro ⟨h, _⟩
          rw [h5.mpr ⟨by rw [h.1]; simp, h.2⟩] at hv
          cases hv
        | true =>
          have hg := h5.mp hv
          simp only [Bool.not_true, Bool.false_eq_true, if_false]
          cases hvv : m.verify with
          | good =>
            rw [loop _ _ hvv]
            exact ⟨fun h => ⟨⟨rfl, hg.2⟩, h⟩, fun h => h.2⟩
          | bad =>
            constructor
            · intro h
              have h' := stay hvv args
              rw [show (argsLoop (Named.authorSig != .signed) (Named.authorSig == .authorSig) m s args).1 = true from h] at h'
              cases h'
            · intro h; cases h.1.1
          | libError => exact absurd hvv hg.1
          | otherError => exact absurd hvv ho
  · have hn : ∀ d, m.parsed = some (some d) → d ∉ m.domains := fun d h1 h2 => hp ⟨d, h1, h2⟩
    have hst := not_author_state m hn
    constructor
    · intro h
      exfalso
      rcases hcs : checkSignature m DkimSt.init with ⟨ok, s⟩
      rw [hcs] at hst h
      cases ok with
      | false => cases h
      | true =>
        obtain ⟨h1, h2⟩ := hst rfl
        simp only at h1 h2
        by_cases he : ∃ d, m.parsed = some (some d)
        · obtain ⟨_, h3⟩ := h2 he
          cases r with
          | signed => exact absurd rfl hr
          | valid => simp [h1] at h
          | authorSig => simp [h3] at h
        · have hl := fun mv ma => argsLoop_none mv ma m s (fun d h => he ⟨d, h⟩) args
          simp only [hne, Bool.false_eq_true, if_false] at h
          cases r <;> simp only at h <;> split at h <;> first | cases h | (rw [hl] at h; cases h)
    · rintro ⟨⟨_, _, d, h1, h2⟩, _⟩
      exact absurd ⟨d, h1, h2⟩ hp

/-- Without names `check_dkim_valid` holds for the first message of a process exactly if the signature has been verified. -/
theorem C135_unnamed_valid_partial (m : DkimMsg) : (namedRule .valid [] m DkimSt.init).1 = true ↔ Verified m := by
  unfold namedRule
  rw [ensure_init]
  by_cases hp : ∃ d, m.parsed = some (some d) ∧ d ∈ m.domains
  · obtain ⟨d, hp, hd⟩ := hp
    have hvd : Verified m ↔ m.verify = .good ∧ m.fieldsOk = true :=
      ⟨fun h => ⟨h.1, h.2.1⟩, fun h => ⟨h.1, h.2, d, hp, hd⟩⟩
    rw [hvd]
    by_cases ho : m.verify = .otherError
    · have hc : (checkSignature m DkimSt.init).1 = false := by
        cases h : (checkSignature m DkimSt.init).1 with
        | false => rfl
        | true => exact absurd ho ((checked_init m).mp h).2
      rcases hcs : checkSignature m DkimSt.init with ⟨ok, s⟩
      rw [hcs] at hc
      subst hc
      simp [ho]
    · obtain ⟨s, hs, h1, h2, h3, h4, h5⟩ := checked_state m d hp hd ho
      rw [hs, ← h4]
      cases hv : s.valid <;> simp [hv]
  · have hst := not_author_state m (fun d h1 h2 => hp ⟨d, h1, h2⟩)
    constructor
    · intro h
      exfalso
      rcases hcs : checkSignature m DkimSt.init with ⟨ok, s⟩
      rw [hcs] at hst h
      cases ok with
      | false => cases h
      | true =>
        obtain ⟨h1, _⟩ := hst rfl
        simp only at h1
        simp [h1] at h
    · rintro ⟨_, _, d, h1, h2⟩
      exact absurd ⟨d, h1, h2⟩ hp

/-- Without names `check_dkim_signed` holds for the first message of a process with a signature of the author's domain exactly if it
has a header for it and the signature could be checked. -/
theorem C135_unnamed_signed_partial (m : DkimMsg) (d : Str) (hp : m.parsed = some (some d)) (hd : d ∈ m.domains) :
    (namedRule .signed [] m DkimSt.init).1 = true ↔ m.hasSig = true ∧ m.verify ≠ .otherError := by
  unfold namedRule
  rw [ensure_init]
  by_cases ho : m.verify = .otherError
  · have hc : (checkSignature m DkimSt.init).1 = false := by
      cases h : (checkSignature m DkimSt.init).1 with
      | false => rfl
      | true => exact absurd ho ((checked_init m).mp h).2
    rcases hcs : checkSignature m DkimSt.init with ⟨ok, s⟩
    rw [hcs] at hc
    subst hc
    simp [ho]
  · obtain ⟨s, hs, h1, h2, _⟩ := checked_state m d hp hd ho
    rw [hs]
    simp only [h2]
    cases hsig : m.hasSig <;> simp [ho]

/-- Exactly when `check_dkim_signed` with named domains holds for the first message of a process: like the other rules, but the
signature need not be good.  Missing: signatures of other domains than the author's (`C135_signed_violated`). -/
theorem C135_signed_partial (args : List Str) (m : DkimMsg) (ha : args ≠ []) :
    (namedRule .signed args m DkimSt.init).1 = true ↔
      m.hasSig = true ∧ Checked m ∧ ∃ d, m.parsed = some (some d) ∧ d ∈ m.domains ∧ NamedIn args d := by
  have hne : args.isEmpty = false := by cases args with | nil => exact absurd rfl ha | cons => rfl
  unfold namedRule
  rw [ensure_init]
  by_cases hp : ∃ d, m.parsed = some (some d) ∧ d ∈ m.domains
  · obtain ⟨d, hp, hd⟩ := hp
    by_cases ho : m.verify = .otherError
    · have hc : (checkSignature m DkimSt.init).1 = false := by
        cases h : (checkSignature m DkimSt.init).1 with
        | false => rfl
        | true => exact absurd ho ((checked_init m).mp h).2
      rcases hcs : checkSignature m DkimSt.init with ⟨ok, s⟩
      rw [hcs] at hc
      subst hc
      simp [ho, Checked]
    · obtain ⟨s, hs, h1, h2, _⟩ := checked_state m d hp hd ho
      rw [hs]
      simp only [hne, Bool.false_eq_true, if_false, h2]
      cases hsig : m.hasSig with
      | false => simp
      | true =>
        simp only [Bool.not_true, Bool.false_eq_true, if_false, true_and]
        refine (argsLoop_iff _ _ m s d hp (by intro h; cases h) (by intro h; cases h) args).trans ?_
        constructor
        · exact fun h => ⟨⟨by rw [hp]; simp, ho⟩, d, hp, hd, h⟩
        · rintro ⟨_, d', hp', _, h⟩
          rw [hp] at hp'
          cases hp'
          exact h
  · have hst := not_author_state m (fun d h1 h2 => hp ⟨d, h1, h2⟩)
    constructor
    · intro h
      exfalso
      rcases hcs : checkSignature m DkimSt.init with ⟨ok, s⟩
      rw [hcs] at hst h
      cases ok with
      | false => cases h
      | true =>
        by_cases he : ∃ d, m.parsed = some (some d)
        · have := (hst rfl).2 he
          simp only at this
          simp [this.1] at h
        · have hl := fun mv ma => argsLoop_none mv ma m s (fun d h => he ⟨d, h⟩) args
          simp only [hne, Bool.false_eq_true, if_false] at h
          split at h
          · cases h
          · rw [hl] at h; cases h
    · rintro ⟨_, _, d, h1, h2, _⟩
      exact absurd ⟨d, h1, h2⟩ hp

/-- A rule with a name of two labels holds for its own domain. -/
theorem C135_named (a b : Str) (m : DkimMsg) (r : Named) (hr : r ≠ .signed) (ha : '.' ∉ a) (hb : '.' ∉ b) (hv : Verified m)
    (hp : m.parsed = some (some (a ++ '.' :: b))) : (namedRule r [a ++ '.' :: b] m DkimSt.init).1 = true :=
  (C135_valid_partial _ m r hr (by simp)).mpr ⟨hv, _, hp, _, by simp, [], a, b, ⟨ha, hb, Or.inl ⟨rfl, rfl⟩⟩, List.infix_rfl⟩

/-- A verified signature of any domain that contains the name is taken for one of the named domain. -/
theorem C135_inside_violated (a b x y : Str) (m : DkimMsg) (r : Named) (hr : r ≠ .signed) (ha : '.' ∉ a) (hb : '.' ∉ b)
    (hv : Verified m) (hp : m.parsed = some (some (x ++ (a ++ '.' :: b) ++ y))) :
    (namedRule r [a ++ '.' :: b] m DkimSt.init).1 = true :=
  (C135_valid_partial _ m r hr (by simp)).mpr
    ⟨hv, _, hp, _, by simp, [], a, b, ⟨ha, hb, Or.inl ⟨rfl, rfl⟩⟩, ⟨x, y, rfl⟩⟩

/-- A name with more labels stands for the domain of its last two. -/
theorem C135_deeper_violated (x a b : Str) (m : DkimMsg) (r : Named) (hr : r ≠ .signed) (ha : '.' ∉ a) (hb : '.' ∉ b)
    (hv : Verified m) (hp : m.parsed = some (some (a ++ '.' :: b))) :
    (namedRule r [x ++ '.' :: a ++ '.' :: b] m DkimSt.init).1 = true ∧ ¬ Below (x ++ '.' :: a ++ '.' :: b) (a ++ '.' :: b) := by
  refine ⟨(C135_valid_partial _ m r hr (by simp)).mpr
    ⟨hv, _, hp, _, by simp, x, a, b, ⟨ha, hb, Or.inr rfl⟩, List.infix_rfl⟩, ?_⟩
  rintro (h | ⟨z, h⟩)
  · have := congrArg List.length h; simp at this; omega
  · have := congrArg List.length h; simp at this; omega

/-- A name without a dot never stands for a domain, not even for itself. -/
theorem C135_single_violated (dom : Str) (m : DkimMsg) (r : Named) (h : '.' ∉ dom) :
    (namedRule r [dom] m DkimSt.init).1 = false := by
  have no : ∀ d, ¬ NamedIn [dom] d := by
    rintro d ⟨x, hx, rest, a, b, ⟨_, _, e⟩, _⟩
    rw [List.mem_singleton] at hx
    subst hx
    rcases e with ⟨e, _⟩ | e <;> exact h (by rw [e]; simp)
  cases hh : (namedRule r [dom] m DkimSt.init).1 with
  | false => rfl
  | true =>
    cases r with
    | signed =>
      obtain ⟨_, _, d, _, _, h⟩ := (C135_signed_partial _ m (by simp)).mp hh
      exact absurd h (no d)
    | valid =>
      obtain ⟨_, d, _, h⟩ := (C135_valid_partial _ m _ (by simp) (by simp)).mp hh
      exact absurd h (no d)
    | authorSig =>
      obtain ⟨_, d, _, h⟩ := (C135_valid_partial _ m _ (by simp) (by simp)).mp hh
      exact absurd h (no d)

/-- A message signed by another domain than its author's counts as not signed, even if that domain is the named one. -/
theorem C135_signed_violated (args : List Str) (d : Str) (m : DkimMsg) (ha : args ≠ []) (hp : m.parsed = some (some d))
    (hd : d ∉ m.domains) : (namedRule .signed args m DkimSt.init).1 = false := by
  cases hh : (namedRule .signed args m DkimSt.init).1 with
  | false => rfl
  | true =>
    obtain ⟨_, _, d', h1, h2, _⟩ := (C135_signed_partial _ m ha).mp hh
    rw [hp] at h1
    cases h1
    exact absurd h2 hd

/-! ### Examples -/

set_option maxRecDepth 8000 in
example : (namedRule .valid [c!"example.org", c!"example.com"] dkimMsg DkimSt.init).1 = true ∧
    (namedRule .valid [c!"example.org"] dkimMsg DkimSt.init).1 = false ∧
    (namedRule .authorSig [c!"mail.example.com"] dkimMsg DkimSt.init).1 = true ∧
    (namedRule .authorSig [c!"le.com"] dkimMsg DkimSt.init).1 = true ∧
    (namedRule .signed [c!"example.com"] { dkimMsg with verify := .bad } DkimSt.init).1 = true ∧
    (namedRule .signed [c!"lists.org"] { dkimMsg with parsed := some (some c!"lists.org") } DkimSt.init).1 = false := by
  decide +kernel

end Verif.Props
