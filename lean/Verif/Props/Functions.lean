import Verif.Spec.Functions
import Verif.Lemmas.Decimal
import Verif.Props.Redirect
import Verif.Props.BodyEval
import Verif.Props.HeaderRules
import Verif.Props.HeaderChars
import Verif.Props.Forgery
import Verif.Props.Stock
import Verif.Props.ScanText
import Verif.Props.Builtins

/-!
# C172: rules that ask functions of plugins
-/

namespace Verif.Props
open Verif Py Mail Parser Scan Spec Build Functions

/-! ### Arguments -/

theorem trim_blanks {pre s post : Str} (h1 : Blanks pre) (h2 : Blanks post) (hs : ∀ c, s.head? = some c → isBlank c = false)
    (hl : ∀ c, s.getLast? = some c → isBlank c = false) : trimBlank (pre ++ s ++ post) = s := by
  have drop : ∀ (p t : Str), Blanks p → (∀ c, t.head? = some c → isBlank c = false) → (p ++ t).dropWhile isBlank = t := by
    intro p t hp ht
    induction p with
    | nil =>
      cases t with
      | nil => rfl
      | cons c t => simp [List.dropWhile_cons, ht c rfl]
    | cons c p ih =>
      have : isBlank c = true := by
        unfold isBlank
        rcases hp c (by simp) with rfl | rfl <;> rfl
      rw [List.cons_append, List.dropWhile_cons_of_pos this]
      exact ih (fun d hd => hp d (by simp [hd]))
  cases s with
  | nil =>
    have all : Blanks (pre ++ post) := fun c hc => by
      rcases List.mem_append.1 hc with h | h
      · exact h1 c h
      · exact h2 c h
    have := drop (pre ++ post) [] all (by simp)
    rw [List.append_nil] at this
    unfold trimBlank
    rw [List.append_nil, this]
    rfl
  | cons c s =>
    unfold trimBlank
    rw [List.append_assoc, drop pre _ h1 (by intro d hd; exact hs d (by simpa using hd)), List.reverse_append,
      drop post.reverse _ (fun d hd => h2 d (by simpa using hd)) (by
        intro d hd
        rw [List.head?_reverse] at hd
        exact hl d hd), List.reverse_reverse]

theorem nat_literal {d : Str} {n : Nat} (h : Decimal d n) : natLiteral d = some n := by
  obtain ⟨h1, h2, h3, h4⟩ := h
  unfold natLiteral
  rw [if_neg h1, if_neg (by rintro ⟨ha, hb⟩; exact hb (h4 ha)), digitsAux_spec d 0 h2, h3]

theorem not_blank_digit {c : Char} (h : '0' ≤ c ∧ c ≤ '9') : isBlank c = false := by
  unfold isBlank
  simp only [Bool.or_eq_false_iff, beq_eq_false_iff_ne, ne_eq]
  constructor <;> rintro rfl <;> exact absurd h (by decide)

theorem nat_literal_digits {s : Str} {n : Nat} (h : natLiteral s = some n) : ∀ c ∈ s, '0' ≤ c ∧ c ≤ '9' := by
  unfold natLiteral at h
  split at h
  · cases h
  · split at h
    · cases h
    · exact digitsAux_some h

theorem nat_literal_none {c : Char} {s : Str} (hc : ¬ ('0' ≤ c ∧ c ≤ '9')) : natLiteral (c :: s) = none := by
  cases h : natLiteral (c :: s) with
  | none => rfl
  | some n => exact absurd (nat_literal_digits h c (by simp)) hc

theorem literal_read (E : FunEnv) {a : Str} {v : Value} (h : Literal a v) : Functions.evalArg E a = .ok v := by
  cases h with
  | @num pre d post n h1 h2 hd =>
    have ht : trimBlank (pre ++ d ++ post) = d := trim_blanks h1 h2
      (fun c hc => not_blank_digit (hd.2.1 c (List.mem_of_mem_head? hc))) (fun c hc => not_blank_digit (hd.2.1 c (List.mem_of_getLast? hc)))
    unfold Functions.evalArg
    simp only [ht, nat_literal hd]
  | @neg pre d post n h1 h2 hd =>
    have ht : trimBlank (pre ++ '-' :: d ++ post) = '-' :: d := by
      apply trim_blanks h1 h2
      · intro c hc
        cases hc
        rfl
      · intro c hc
        rw [List.getLast?_cons] at hc
        cases hl : d.getLast? with
        | none => rw [hl] at hc; cases hc; rfl
        | some e =>
          rw [hl] at hc
          cases hc
          exact not_blank_digit (hd.2.1 _ (List.mem_of_getLast? hl))
    unfold Functions.evalArg
    simp only [ht, nat_literal_none (s := d) (show ¬ ('0' ≤ '-' ∧ '-' ≤ '9') by decide), nat_literal hd]
  | @text pre s post q h1 h2 hq hs hb hn =>
    have hqb : isBlank q = false := by rcases hq with rfl | rfl <;> rfl
    have ht : trimBlank (pre ++ (q :: s ++ [q]) ++ post) = q :: (s ++ [q]) := by
      apply trim_blanks h1 h2
      · intro c hc
        cases hc
        exact hqb
      · intro c hc
        rw [List.getLast?_concat] at hc
        cases hc
        exact hqb
    have hq0 : natLiteral (q :: (s ++ [q])) = none := nat_literal_none (by rcases hq with rfl | rfl <;> decide)
    have hquoted : quoted (q :: (s ++ [q])) = some s := by
      unfold quoted
      simp only
      rw [if_pos]
      · simp
      · refine ⟨hq, by simp, by simpa using hs, ?_, ?_⟩
        · rcases hq with rfl | rfl <;> simp [hb]
        · rcases hq with rfl | rfl <;> simp [hn]
    unfold Functions.evalArg
    simp only [ht, hq0]
    split
    · rename_i r hr
      rw [List.cons.injEq] at hr
      rcases hq with rfl | rfl <;> exact absurd hr.1 (by decide)
    · rw [hquoted]

/-! ### Functions -/

theorem shows_raw {L : Mail.MailLib} {m : Facts} {x : Seen} (h : Shows L m x) : x.mail.raw = Mail.collect m.headers := by
  obtain ⟨_, _, _, _, ops, hm⟩ := h
  rw [hm]
  exact (Mail.accessed_good L m.headers m.partHeaders ops).raw

theorem flag_iff {b : Bool} {P : Prop} (h : b = true ↔ P) : (P → flag b = 1) ∧ (¬ P → flag b = 0) := by
  cases b with
  | true => exact ⟨fun _ => rfl, fun hn => absurd (h.1 rfl) hn⟩
  | false => exact ⟨fun hp => absurd (h.2 hp) (by simp), fun _ => rfl⟩

theorem wide_class (wide : Char → Bool) : WordClass (Content.isWord wide) where
  letters c h := by
    have := word_class.letters c h
    unfold Re.isWord at this
    unfold Content.isWord
    rw [this, Bool.true_or]
  line := by
    unfold Content.isWord
    rw [show decide (0x80 ≤ ('\n' : Char).toNat) = false by decide]
    rfl

theorem shows_good {L : Mail.MailLib} {m : Facts} {x : Seen} (h : Shows L m x) : Mail.Good L m.headers m.partHeaders x.mail := by
  obtain ⟨_, _, _, _, ops, hm⟩ := h
  rw [hm]
  exact Mail.accessed_good L m.headers m.partHeaders ops

theorem shows_decoded {L : Mail.MailLib} {m : Facts} {x : Seen} (h : Shows L m x) (n : Str) :
    Shows L m { x with mail := (Mail.getDecoded L n x.mail).2 } := by
  obtain ⟨h1, h2, h3, h4, ops, hm⟩ := h
  refine ⟨h1, h2, h3, h4, ops ++ [.decoded n], ?_⟩
  unfold accessed at hm ⊢
  rw [List.foldl_append, ← hm]
  rfl

theorem result_iff {r : Option Bool} {P : Prop} (h : r.getD false = true ↔ P) : (P → result r = some 1) ∧ (¬ P → (result r).getD 0 = 0) := by
  cases r with
  | none => exact ⟨fun hp => absurd (h.2 hp) (by simp), fun _ => rfl⟩
  | some b =>
    have := flag_iff (b := b) (P := P) (by simpa using h)
    exact ⟨fun hp => by simp [result, this.1 hp], fun hp => by simp [result, this.2 hp]⟩

theorem over_judges {L : Mail.MailLib} {m : Facts} {x : Seen} (hm : Spec.Reads L m.headers m.dec m.addrs) (hx : Shows L m x) (n : Str)
    {f : List (Option Str) → Option Bool} {P : Prop} (h : f (((under m n).map m.dec).map some) = some true ↔ P) :
    Shows L m (overDecoded L n f x).2 ∧ (P → (overDecoded L n f x).1 = some 1) ∧ (¬ P → (overDecoded L n f x).1.getD 0 = 0) := by
  have e : (Mail.getDecoded L n x.mail).1 = ((under m n).map m.dec).map some := by
    rw [(Mail.getDecoded_good (shows_good hx) n).1, Mail.decoded_reads hm.decodes]
    rfl
  refine ⟨shows_decoded hx n, ?_⟩
  show (P → result (f (Mail.getDecoded L n x.mail).1) = some 1) ∧ (¬ P → (result (f (Mail.getDecoded L n x.mail).1)).getD 0 = 0)
  rw [e]
  refine result_iff ?_
  rw [← h]
  cases f (((under m n).map m.dec).map some) with
  | none => simp
  | some b => simp

/-- What a function says about a message is what its documentation says. -/
theorem call_judges (F : FunEnv) (m : Facts) (L : Mail.MailLib) (hm : Spec.Reads L m.headers m.dec m.addrs) {fn t : Str} {vals : List Value}
    {P : Prop} (h : Judges F m fn vals t P) (x : Seen) (hx : Shows L m x) :
    ∃ (v : Option Int) (x' : Seen), call F L fn vals (some t) x = some (v, x') ∧ Shows L m x' ∧ (P → v = some 1) ∧ (¬ P → v.getD 0 = 0) := by
  have hraw := shows_raw hx
  have e1 := hx.1
  have e2 := hx.2.1
  have e3 := hx.2.2.1
  have e4 := hx.2.2.2.1
  have hraws : ∀ n, Mail.getRaw x.mail n = under m n := fun n => Mail.getRaw_eq hraw n
  have htext : targetText (some t) x = aboutText m t := by
    unfold targetText aboutText
    simp only [Option.some.injEq, e1, e2]
  have htos : Mail.getAllAddr L c!"To" x.mail = (some (addressesOf m.dec m.addrs m.headers c!"To"), (Mail.getDecoded L c!"To" x.mail).2) := by
    refine Prod.ext ?_ rfl
    rw [(Mail.getAllAddr_good (shows_good hx) c!"To").1, Mail.allAddrs_of hm]
  have blank : ∀ (lo hi n : Int), m.rawText.head? ≠ some '\n' → ¬ c!"\n\n\n" <:+: m.rawText → _ := fun lo hi n h0 h3 =>
    result_iff (C97_ratio_partial m.rawText h0 h3 (.num lo) (.num hi) lo hi (Or.inl rfl) (Or.inl rfl) n)
  have illegal : ∀ (name : Str) (v : Value) (ratio : Rat) (count : Int) {P : Prop}, Share F v ratio →
      ((HeaderChars.checkIllegal name (some ratio) (some count) x.mail).1 = true ↔ P) →
      (HeaderChars.checkIllegal name (some ratio) (some count) x.mail).2 = x.mail →
      ∃ (r : Option Int) (x' : Seen), call F L c!"check_illegal_chars" [.str name, v, .num count] (some t) x = some (r, x') ∧ Shows L m x' ∧
        (P → r = some 1) ∧ (¬ P → r.getD 0 = 0) := by
    intro name v ratio count P hv hr hs
    have hrat : v.rat F = some ratio := by
      cases hv with
      | num => rfl
      | text h => exact h
    have := flag_iff hr
    refine ⟨some (flag (HeaderChars.checkIllegal name (v.rat F) (some count) x.mail).1),
      { x with mail := (HeaderChars.checkIllegal name (v.rat F) (some count) x.mail).2 }, rfl, ?_, ?_⟩
    · rw [hrat, hs]
      exact hx
    · rw [hrat]
      exact ⟨fun hp => by rw [this.1 hp], fun hp => by rw [this.2 hp]; rfl⟩
  cases h with
  | redirector hn hr =>
    refine ⟨_, _, rfl, hx, ?_⟩
    have := flag_iff (C90_http_partial F.url m.uris hn hr)
    simp only [e4]
    exact ⟨fun hp => by rw [this.1 hp], fun hp => by rw [this.2 hp]; rfl⟩
  | missingTo =>
    refine ⟨_, _, rfl, hx, ?_⟩
    have hiff : HeaderRules.missingTo x.mail = true ↔ under m c!"To" = [] ∧ under m c!"Apparently-To" = [] := by
      rw [C101_missing m.headers x.mail hraw]
      unfold under
      simp only [List.map_eq_nil_iff, List.filter_eq_nil_iff, beq_iff_eq]
      exact ⟨fun h => ⟨fun p hp => (h p hp).1, fun p hp => (h p hp).2⟩, fun h p hp => ⟨h.1 p hp, h.2 p hp⟩⟩
    have := flag_iff hiff
    exact ⟨fun hp => by rw [this.1 hp], fun hp => by rw [this.2 hp]; rfl⟩
  | @countRange _ name lo hi hd =>
    refine ⟨_, _, rfl, hx, ?_⟩
    show (_ → result (HeaderRules.countRange x.mail name (some lo) (some hi)) = some 1) ∧ (_ → (result (HeaderRules.countRange x.mail name (some lo) (some hi))).getD 0 = 0)
    apply result_iff
    rw [C102_number_partial m.headers x.mail hraw name lo hi hd]
    unfold under
    simp
  | @verticalWords _ lo hi =>
    refine ⟨_, _, rfl, hx, ?_⟩
    simp only [htext]
    exact result_iff (C98_ratio_partial (aboutText m t) lo hi)
  | @blankLines _ lo hi n h0 h3 =>
    refine ⟨_, _, rfl, hx, ?_⟩
    show (_ → result (BodyEval.blankRatio x.rawText (.num lo) (.num hi) n) = some 1) ∧ (_ → (result (BodyEval.blankRatio x.rawText (.num lo) (.num hi) n)).getD 0 = 0)
    rw [e2]
    exact blank lo hi n h0 h3
  | @anyLines _ _ lo hi h =>
    cases h with
    | blankLines h0 h3 =>
      refine ⟨_, _, rfl, hx, ?_⟩
      show (_ → result (BodyEval.blankRatio x.rawText (.num lo) (.num hi) 1) = some 1) ∧ (_ → (result (BodyEval.blankRatio x.rawText (.num lo) (.num hi) 1)).getD 0 = 0)
      rw [e2]
      exact blank lo hi 1 h0 h3
  | @stock _ l n hw ho =>
    refine ⟨_, _, rfl, hx, ?_⟩
    show (_ → result (BodyEval.stockInfo (Content.isWord F.wide) (targetText (some t) x) (some n)) = some 1) ∧
      (_ → (result (BodyEval.stockInfo (Content.isWord F.wide) (targetText (some t) x) (some n))).getD 0 = 0)
    apply result_iff
    rw [htext, C173_words_partial (wide_class F.wide) hw ho n]
    simp
  | capitals =>
    obtain ⟨h1, h2⟩ := over_judges hm hx c!"Subject" (C103_exact_partial F.up F.low ((under m c!"Subject").map m.dec))
    exact ⟨_, _, rfl, h1, h2⟩
  | address =>
    refine ⟨_, _, rfl, by
      show Shows L m { x with mail := (Mail.getAllAddr L c!"To" x.mail).2 }
      rw [htos]
      exact shows_decoded hx c!"To", ?_⟩
    show (_ → (callToInSubject F L c!"address" x).1 = some 1) ∧ (_ → (callToInSubject F L c!"address" x).1.getD 0 = 0)
    unfold callToInSubject
    rw [htos, hraws]
    have := flag_iff (C104_address_partial F.wide (addressesOf m.dec m.addrs m.headers c!"To") ((under m c!"Subject").headD []))
    exact ⟨fun hp => congrArg some (this.1 hp), fun hp => this.2 hp⟩
  | user hu =>
    refine ⟨_, _, rfl, by
      show Shows L m { x with mail := (Mail.getAllAddr L c!"To" x.mail).2 }
      rw [htos]
      exact shows_decoded hx c!"To", ?_⟩
    show (_ → (callToInSubject F L c!"user" x).1 = some 1) ∧ (_ → (callToInSubject F L c!"user" x).1.getD 0 = 0)
    unfold callToInSubject
    rw [htos, hraws]
    have := flag_iff (C104_user_partial F.wide hu (addressesOf m.dec m.addrs m.headers c!"To") ((under m c!"Subject").headD []))
    exact ⟨fun hp => congrArg some (this.1 hp), fun hp => this.2 hp⟩
  | @template _ lines hl hn hr =>
    refine ⟨_, _, rfl, hx, ?_⟩
    have := flag_iff (C137_lines_partial lines hl hn)
    simp only [e3, hr]
    exact ⟨fun hp => by rw [this.1 hp], fun hp => by rw [this.2 hp]; rfl⟩
  | relay =>
    obtain ⟨h1, h2⟩ := over_judges hm hx c!"Received" (C136_aol_partial ((under m c!"Received").map m.dec))
    exact ⟨_, _, rfl, h1, h2⟩
  | gateway =>
    obtain ⟨h1, h2⟩ := over_judges hm hx c!"Received" (C136_gateway_partial ((under m c!"Received").map m.dec))
    exact ⟨_, _, rfl, h1, h2⟩
  | @illegal _ name v ratio count h1 h2 hv =>
    obtain ⟨hr, hs⟩ := C81_result_partial name ratio count x.mail h1 h2
    rw [hraws] at hr
    exact illegal name v ratio count hv hr hs
  | @illegalSubject _ name v ratio count h1 hv =>
    obtain ⟨hr, hs⟩ := C81_subject_partial name ratio count x.mail h1
    rw [hraws] at hr
    exact illegal name v ratio count hv hr hs

variable {S R C : Type} [PyNum S]

/-- A function that is registered, with arguments that can be read, answers. -/
theorem judges_answers (F : FunEnv) (E : ScanEnv S R Value C) (c : C) (m : Facts) {fn t : Str} {args : List Str} {vals : List Value} {P : Prop}
    (hm : Spec.Reads E.mail m.headers m.dec m.addrs) (hk : E.hasEval c fn = true) (hl : List.Forall₂ Literal args vals) (h : Judges F m fn vals t P)
    (ha : (P → m.answers fn args t = 1) ∧ (¬ P → m.answers fn args t = 0)) : Answers (withFunctions F E) c m fn args t := by
  refine ⟨hk, vals, ?_, fun x hx => ?_⟩
  · show args.map (Functions.evalArg F) = _
    clear h ha
    induction hl with
    | nil => rfl
    | cons h _ ih => rw [List.map_cons, List.map_cons, literal_read F h, ih]
  · obtain ⟨v, x', hv, hx', h1, h2⟩ := call_judges F m E.mail hm h x hx
    have he : (withFunctions F E).evalFn c fn vals (some t) x = (v, x') := by
      unfold withFunctions
      simp only [hv]
    refine ⟨x', hx', ?_⟩
    rw [he]
    by_cases hp : P
    · rw [h1 hp, ha.1 hp]
      exact .inl rfl
    · rw [ha.2 hp]
      have := h2 hp
      cases v with
      | none => exact .inr ⟨rfl, rfl⟩
      | some v => exact .inl (by simp at this; rw [this])

theorem literal_eq {a : Str} {v w : Value} (h : Literal a v) (h' : Literal a w) : v = w := by
  have E : FunEnv := ⟨⟨fun _ => none, id⟩, fun _ => none, fun _ => .error .other, fun _ => false, fun _ => false, fun _ => false⟩
  have := (literal_read E h).symm.trans (literal_read E h')
  injection this

theorem literals_eq {as : List Str} {vs ws : List Value} (h : List.Forall₂ Literal as vs) (h' : List.Forall₂ Literal as ws) : vs = ws := by
  induction h generalizing ws with
  | nil => cases h'; rfl
  | cons h1 _ ih =>
    cases h' with
    | cons h2 h3 => rw [literal_eq h1 h2, ih h3]

theorem judges_eq {F : FunEnv} {m : Facts} {L : Mail.MailLib} (hm : Spec.Reads L m.headers m.dec m.addrs) {fn t : Str} {vals : List Value}
    {P Q : Prop} (h : Judges F m fn vals t P) (h' : Judges F m fn vals t Q) : P ↔ Q := by
  have hx : Shows L m ⟨m.text, m.rawText, m.raw, m.uris, accessed L m.headers m.partHeaders []⟩ := ⟨rfl, rfl, rfl, rfl, [], rfl⟩
  obtain ⟨v, _, hv, _, h1, h2⟩ := call_judges F m L hm h _ hx
  obtain ⟨w, _, hw, _, h3, h4⟩ := call_judges F m L hm h' _ hx
  obtain rfl : v = w := congrArg Prod.fst (Option.some.inj (hv.symm.trans hw))
  constructor
  · intro hp
    by_contra hq
    have := h4 hq
    rw [h1 hp] at this
    cases this
  · intro hq
    by_contra hp
    have := h2 hp
    rw [h3 hq] at this
    cases this

/-- The answers that the functions should give about a message. -/
noncomputable def rightAnswers (F : FunEnv) (m : Facts) (fn : Str) (args : List Str) (t : Str) : Int :=
  open Classical in if ∃ vals P, List.Forall₂ Literal args vals ∧ Judges F m fn vals t P ∧ P then 1 else 0

theorem judges_facts {F : FunEnv} {m : Facts} (answers : Str → List Str → Str → Int) {fn t : Str} {vals : List Value} {P : Prop}
    (h : Judges F m fn vals t P) : Judges F { m with answers := answers } fn vals t P := by
  induction h with
  | redirector a b => exact .redirector a b
  | missingTo => exact .missingTo
  | countRange a => exact .countRange a
  | verticalWords => exact .verticalWords
  | blankLines a b => exact .blankLines a b
  | anyLines _ ih => exact .anyLines ih
  | stock a b => exact .stock a b
  | capitals => exact .capitals
  | address => exact .address
  | user a => exact .user a
  | template a b c => exact .template a b c
  | relay => exact .relay
  | gateway => exact .gateway
  | illegal a b c => exact .illegal a b c
  | illegalSubject a b => exact .illegalSubject a b

/-- **C172** (partial).  Rules of files that ask functions of plugins about redirections, recipients, numbers of headers, white space,
empty lines, terms of the stock market, capital letters, recipients in subjects, placeholders, relays and characters beyond ASCII have the
value 1 in the result if the message is as the documentation of the function says (`asked`), and 0 otherwise, besides all that C141 says about them and the other rules.  Missing: the other functions, and the cases that C81, C90, C97, C102 and C173
exclude. -/
theorem C172_asked_partial (F : FunEnv) (E : ScanEnv S R Value C) (htol : E.parser.paranoid = false) (c0 c1 : C) (files lines : List Str)
    (as : List (Str × Str × PVal)) (hf : Lines E.parser ⟨[], false, c0⟩ [] files lines) (ht : RuleText E.parser c0 lines as c1)
    (good : Str → Bool) (docs : Str → Doc S R) (m : Facts) (hm : Spec.Reads E.mail m.headers m.dec m.addrs)
    (hmp : ∀ q ∈ m.partHeaders, E.mail.decode q.2 = some (m.dec q.2)) (ops : List Access) (asked : Str → Prop) :
    let defined := (firstMentions (as.map (fun a => a.1))).filter good
    let rules : Conds R := fun n => if n ∈ defined then some (docs n).cond else none
    (∀ n ∈ firstMentions (as.map (fun a => a.1)),
      (good n = true → Says E.float E.re (E.conf c1) as n (docs n)) ∧ (good n = false → Broken (withFunctions F E) c1 as n)) →
    (∀ n ∈ defined, lastValue as n c!"type" = some (.str c!"mimeheader") → (docs n).priority = 0) →
    (∀ n ∈ defined, ∀ fn args t, (docs n).cond = .asks fn args t →
      E.hasEval c1 fn = true ∧ ∃ vals, List.Forall₂ Literal args vals ∧ Judges F m fn vals t (asked n)) →
    (∀ n k, Works rules k n → Works rules 11 n) →
    ∃ (st : MsgSt S Seen) (order : List Str) (val : Str → Int) (m' : Facts),
      scan (withFunctions F E) c0 files ⟨m.text, m.rawText, m.raw, m.uris, accessed E.mail m.headers m.partHeaders ops⟩ = some st ∧
      InOrder defined docs rules order ∧ m' = { m with answers := m'.answers } ∧ (∀ n ∈ order, Spec.Gives E.re rules m' n (val n)) ∧
      (∀ n ∈ order, ∀ fn args t, (docs n).cond = .asks fn args t → (asked n → val n = 1) ∧ (¬ asked n → val n = 0)) ∧
      st.checked = order.map (fun n => (n, val n)) ∧
      st.score = total 0 ((order.filter (fun n => decide (val n ≠ 0))).map (fun n => (docs n).score)) := by
  intro defined rules hsays hmime hasks hdepth
  have hans : ∀ n ∈ defined, ∀ fn args t, (docs n).cond = .asks fn args t →
      (asked n → rightAnswers F m fn args t = 1) ∧ (¬ asked n → rightAnswers F m fn args t = 0) := by
    intro n hn fn args t hc
    obtain ⟨_, vals, hl, hj⟩ := hasks n hn fn args t hc
    unfold rightAnswers
    constructor
    · intro hp
      rw [if_pos ⟨vals, _, hl, hj, hp⟩]
    · intro hp
      rw [if_neg]
      rintro ⟨vals', P, hl', hj', hP⟩
      rw [← literals_eq hl hl'] at hj'
      exact hp ((judges_eq hm hj hj').2 hP)
  obtain ⟨st, order, val, h1, h2, h3, h4, h5⟩ := C141_text_partial (withFunctions F E) htol c0 c1 files lines as hf ht good docs
    { m with answers := rightAnswers F m } hm hmp ops hsays hmime (by
      intro n hn fn args t hc
      obtain ⟨hk, vals, hl, hj⟩ := hasks n hn fn args t hc
      exact judges_answers F E c1 { m with answers := rightAnswers F m } hm hk hl (judges_facts _ hj) (hans n hn fn args t hc)) hdepth
  refine ⟨st, order, val, { m with answers := rightAnswers F m }, h1, h2, rfl, h3, ?_, h4, h5⟩
  intro n hn fn args t hc
  have hd : n ∈ defined := ((h2.exact n).1 hn).1
  have hv : val n = rightAnswers F m fn args t := by
    have hr : rules n = some (.asks fn args t) := by
      show (if n ∈ defined then some (docs n).cond else none) = _
      rw [if_pos hd, hc]
    have hg := h3 n hn
    generalize hw : val n = w at hg
    cases hg with
    | yes h ht _ => cases hr.symm.trans h; exact ht.elim
    | no h ht _ => cases hr.symm.trans h; exact ht.elim
    | answer h => cases hr.symm.trans h; rfl
    | combine _ h _ _ => cases hr.symm.trans h
  rw [hv]
  exact hans n hd fn args t hc

/-- C172 fails for `ALL`: a rule that asks about the characters of all headers takes the subjects away from the rules after it, so
that none of them is counted. -/
theorem C172_order_violated (F : FunEnv) (L : Mail.MailLib) (ratio count lo hi : Int) (hlo : 0 < lo) (t t' : Option Str) (x : Seen) :
    ∃ v x', call F L c!"check_illegal_chars" [.str c!"ALL", .num ratio, .num count] t x = some (v, x') ∧
      call F L c!"check_header_count_range" [.str c!"Subject", .num lo, .num hi] t' x' = some (some 0, x') := by
  refine ⟨_, _, rfl, ?_⟩
  have hr : Mail.getRaw (HeaderChars.checkIllegal c!"ALL" (some (ratio : Rat)) (some count) x.mail).2 c!"Subject" = [] :=
    (C81_removes_violated (ratio : Rat) count x.mail).1
  have : HeaderRules.countRange (HeaderChars.checkIllegal c!"ALL" (some (ratio : Rat)) (some count) x.mail).2 c!"Subject" (some lo) (some hi) =
      some false := by
    unfold HeaderRules.countRange
    rw [hr]
    exact if_neg (by simp; omega)
  exact congrArg some (Prod.ext (congrArg result this) rfl)

/-! ### The hypotheses are met -/

def askLines : List Str :=
  [c!"uri R eval:check_for_http_redirector()", c!"loadplugin oa.plugins.uri_eval.URIEvalPlugin", c!"score R 3",
   c!"header H eval:check_header_count_range('Subject', 2,5)", c!"header W eval:check_for_missing_to_header()",
   c!"header C eval:subject_is_all_caps()", c!"header T eval:check_for_to_in_subject('user')", c!"body S eval:check_stock_info(2)"]

def askEnv : ScanEnv Int (Str × ReFlags) Value (List Str) where
  parser := { preEnv.parser with files := fun f => if f = c!"/etc/a.cf" then some askLines else none }
  float := int?
  re := textLib
  evalArg := fun _ => .error .other
  hasEval := fun c f => f != c!"check_it" && c.contains c!"oa.plugins.uri_eval.URIEvalPlugin"
  cmd := fun _ _ => none
  conf := fun _ => ⟨false, false, false, false⟩
  mail := plainMail false
  evalFn := fun _ _ _ _ x => (none, x)
  plugin := fun _ _ x => (none, x)

def askFuns : FunEnv := ⟨hostLib, fun _ => none, fun _ => .error .other, fun _ => false, Char.isUpper, Char.isLower⟩

def askFacts : Facts where
  text := c!"Our stock: ticker"
  rawText := c!"see <a href='http://a.org/go?to=http://b.org/'>this one</a> now"
  raw := []
  uris := [c!"http://c.org/", hopUri]
  headers := [(c!"Subject", c!"bob: hi"), (c!"To", c!"bob@x.org"), (c!"subject", c!"Re: BUY IT NOW!")]
  partHeaders := []
  dec := id
  addrs := fun v => [([], v)]
  answers := fun _ _ _ => 0

def askAssigns : List (Str × Str × PVal) :=
  [(c!"R", c!"target", .str c!"uri"), (c!"R", c!"type", .str c!"eval"), (c!"R", c!"value", .str c!"eval:check_for_http_redirector()"),
   (c!"R", c!"score", .str c!"3"),
   (c!"H", c!"target", .str c!"header"), (c!"H", c!"type", .str c!"eval"), (c!"H", c!"value", .str c!"eval:check_header_count_range('Subject', 2,5)"),
   (c!"W", c!"target", .str c!"header"), (c!"W", c!"type", .str c!"eval"), (c!"W", c!"value", .str c!"eval:check_for_missing_to_header()"),
   (c!"C", c!"target", .str c!"header"), (c!"C", c!"type", .str c!"eval"), (c!"C", c!"value", .str c!"eval:subject_is_all_caps()"),
   (c!"T", c!"target", .str c!"header"), (c!"T", c!"type", .str c!"eval"), (c!"T", c!"value", .str c!"eval:check_for_to_in_subject('user')"),
   (c!"S", c!"target", .str c!"body"), (c!"S", c!"type", .str c!"eval"), (c!"S", c!"value", .str c!"eval:check_stock_info(2)")]

set_option maxRecDepth 8000 in
theorem ask_rules : RuleText askEnv.parser [] askLines askAssigns [c!"oa.plugins.uri_eval.URIEvalPlugin"] := by
  have rule : ∀ {c : List Str} {l : Str} {ls : List Str} {a as : List (Str × Str × PVal)} {c' : List Str}, assigns (askEnv.parser.isCmd c) l = a →
      Defining l → ¬ Skipped l → keyword l ∈ known2 → RuleText askEnv.parser c ls as c' → RuleText askEnv.parser c (l :: ls) (a ++ as) c' := by
    rintro c l ls a as c' rfl h1 h2 h3 h4
    exact .rule h1 h2 (Or.inl h3) rfl h4
  refine rule (a := askAssigns.take 3) (as := askAssigns.drop 3) (by decide +kernel) (by decide) (by decide) (by decide) ?_
  refine .other (.plugin (n := c!"oa.plugins.uri_eval.URIEvalPlugin") (p := none) (by decide) (by decide) (by decide) ?_ (by decide) rfl (Or.inl rfl)) ?_
  · exact ⟨c!"oa.plugins.uri_eval.URIEvalPlugin", Or.inr ⟨by decide, by decide, rfl⟩, by decide, fun _ => rfl⟩
  refine rule (a := (askAssigns.drop 3).take 1) (as := askAssigns.drop 4) (by decide +kernel) (by decide) (by decide) (by decide) ?_
  refine rule (a := (askAssigns.drop 4).take 3) (as := askAssigns.drop 7) (by decide +kernel) (by decide) (by decide) (by decide) ?_
  refine rule (a := (askAssigns.drop 7).take 3) (as := askAssigns.drop 10) (by decide +kernel) (by decide) (by decide) (by decide) ?_
  refine rule (a := (askAssigns.drop 10).take 3) (as := askAssigns.drop 13) (by decide +kernel) (by decide) (by decide) (by decide) ?_
  refine rule (a := (askAssigns.drop 13).take 3) (as := askAssigns.drop 16) (by decide +kernel) (by decide) (by decide) (by decide) ?_
  exact rule (a := askAssigns.drop 16) (as := []) (by decide +kernel) (by decide) (by decide) (by decide) .nil

def askDocs (n : Str) : Doc Int (Str × ReFlags) :=
  if n = c!"R" then ⟨.asks c!"check_for_http_redirector" [] c!"uri", 3, 0⟩
  else if n = c!"H" then ⟨.asks c!"check_header_count_range" [c!"'Subject'", c!" 2", c!"5"] c!"header", 1, 0⟩
  else if n = c!"W" then ⟨.asks c!"check_for_missing_to_header" [] c!"header", 1, 0⟩
  else if n = c!"C" then ⟨.asks c!"subject_is_all_caps" [] c!"header", 1, 0⟩
  else if n = c!"T" then ⟨.asks c!"check_for_to_in_subject" [c!"'user'"] c!"header", 1, 0⟩
  else ⟨.asks c!"check_stock_info" [c!"2"] c!"body", 1, 0⟩

set_option maxRecDepth 8000 in
example : ∀ n ∈ firstMentions (askAssigns.map (fun a => a.1)),
    Says askEnv.float askEnv.re (askEnv.conf [c!"oa.plugins.uri_eval.URIEvalPlugin"]) askAssigns n (askDocs n) := by
  intro n hn
  rw [show firstMentions (askAssigns.map (fun a => a.1)) = [c!"R", c!"H", c!"W", c!"C", c!"T", c!"S"] by decide +kernel] at hn
  simp only [List.mem_cons, List.not_mem_nil, or_false] at hn
  rcases hn with rfl | rfl | rfl | rfl | rfl | rfl
  · exact ⟨⟨c!"eval", c!"eval:check_for_http_redirector()", by decide +kernel, by decide +kernel,
      Or.inr ⟨rfl, c!"uri", c!"check_for_http_redirector", [], [], by decide +kernel, by decide +kernel,
        ⟨⟨'c', c!"heck_for_http_redirector", rfl, by decide, by decide⟩, by decide, by decide, by decide⟩, rfl⟩⟩,
      ⟨some [3], [], Or.inr ⟨c!"3", [3], by decide +kernel, by decide +kernel, by decide, rfl⟩, Or.inl ⟨by decide +kernel, rfl⟩,
        by decide +kernel, by simp⟩, Or.inl ⟨by decide +kernel, rfl⟩⟩
  · exact ⟨⟨c!"eval", c!"eval:check_header_count_range('Subject', 2,5)", by decide +kernel, by decide +kernel,
      Or.inr ⟨rfl, c!"header", c!"check_header_count_range", [c!"'Subject'", c!" 2", c!"5"], [], by decide +kernel, by decide +kernel,
        ⟨⟨'c', c!"heck_header_count_range", rfl, by decide, by decide⟩, by decide, by decide, by decide⟩, rfl⟩⟩,
      ⟨none, [], Or.inl ⟨by decide +kernel, rfl⟩, Or.inl ⟨by decide +kernel, rfl⟩,
        by decide +kernel, by simp⟩, Or.inl ⟨by decide +kernel, rfl⟩⟩
  · exact ⟨⟨c!"eval", c!"eval:check_for_missing_to_header()", by decide +kernel, by decide +kernel,
      Or.inr ⟨rfl, c!"header", c!"check_for_missing_to_header", [], [], by decide +kernel, by decide +kernel,
        ⟨⟨'c', c!"heck_for_missing_to_header", rfl, by decide, by decide⟩, by decide, by decide, by decide⟩, rfl⟩⟩,
      ⟨none, [], Or.inl ⟨by decide +kernel, rfl⟩, Or.inl ⟨by decide +kernel, rfl⟩,
        by decide +kernel, by simp⟩, Or.inl ⟨by decide +kernel, rfl⟩⟩
  · exact ⟨⟨c!"eval", c!"eval:subject_is_all_caps()", by decide +kernel, by decide +kernel,
      Or.inr ⟨rfl, c!"header", c!"subject_is_all_caps", [], [], by decide +kernel, by decide +kernel,
        ⟨⟨'s', c!"ubject_is_all_caps", rfl, by decide, by decide⟩, by decide, by decide, by decide⟩, rfl⟩⟩,
      ⟨none, [], Or.inl ⟨by decide +kernel, rfl⟩, Or.inl ⟨by decide +kernel, rfl⟩,
        by decide +kernel, by simp⟩, Or.inl ⟨by decide +kernel, rfl⟩⟩
  · exact ⟨⟨c!"eval", c!"eval:check_for_to_in_subject('user')", by decide +kernel, by decide +kernel,
      Or.inr ⟨rfl, c!"header", c!"check_for_to_in_subject", [c!"'user'"], [], by decide +kernel, by decide +kernel,
        ⟨⟨'c', c!"heck_for_to_in_subject", rfl, by decide, by decide⟩, by decide, by decide, by decide⟩, rfl⟩⟩,
      ⟨none, [], Or.inl ⟨by decide +kernel, rfl⟩, Or.inl ⟨by decide +kernel, rfl⟩,
        by decide +kernel, by simp⟩, Or.inl ⟨by decide +kernel, rfl⟩⟩
  · exact ⟨⟨c!"eval", c!"eval:check_stock_info(2)", by decide +kernel, by decide +kernel,
      Or.inr ⟨rfl, c!"body", c!"check_stock_info", [c!"2"], [], by decide +kernel, by decide +kernel,
        ⟨⟨'c', c!"heck_stock_info", rfl, by decide, by decide⟩, by decide, by decide, by decide⟩, rfl⟩⟩,
      ⟨none, [], Or.inl ⟨by decide +kernel, rfl⟩, Or.inl ⟨by decide +kernel, rfl⟩,
        by decide +kernel, by simp⟩, Or.inl ⟨by decide +kernel, rfl⟩⟩

example : (∃ P, P ∧ Judges askFuns askFacts c!"check_for_http_redirector" [] c!"uri" P) ∧
    List.Forall₂ Literal [c!"'Subject'", c!" 2", c!"5"] [.str c!"Subject", .num 2, .num 5] ∧
    (∃ P, P ∧ Judges askFuns askFacts c!"check_header_count_range" [.str c!"Subject", .num 2, .num 5] c!"header" P) ∧
    (∃ P, ¬ P ∧ Judges askFuns askFacts c!"check_for_missing_to_header" [] c!"header" P) ∧
    ∃ P, P ∧ Judges askFuns askFacts c!"tvd_vertical_words" [.num 5, .num 90] c!"rawbody" P := by
  refine ⟨⟨_, ?_, .redirector (by decide +kernel) (fun u _ v src dest _ _ => ⟨by simp [askFuns, hostLib], by simp [askFuns, hostLib]⟩)⟩, ?_,
    ⟨_, ?_, .countRange (by decide +kernel)⟩, ⟨_, ?_, .missingTo⟩, ⟨_, ?_, .verticalWords⟩⟩
  · refine ⟨hopUri, by decide +kernel, c!"http://a.org/x?u=https://b.org/y", c!"http://a.org/x?u=", c!"https://b.org/y", ?_, ?_, by decide +kernel⟩
    · exact .step _ c!"http://a.org/go?to=" c!"http://a.org/x?u=https://b.org/y" _ ((C90_hop (by decide +kernel)).1 (by decide +kernel))
        (by decide +kernel) (.here _)
    · exact (C90_hop (by decide +kernel)).1 (by decide +kernel)
  · exact .cons (.text (pre := []) (s := c!"Subject") (post := []) (q := '\'') (by simp [Blanks]) (by simp [Blanks]) (.inr rfl) (by decide)
      (by decide) (by decide)) (.cons (.num (pre := c!" ") (digits := c!"2") (post := []) (by simp [Blanks]) (by simp [Blanks]) (by unfold Decimal; decide))
      (.cons (.num (pre := []) (digits := c!"5") (post := []) (by simp [Blanks]) (by simp [Blanks]) (by unfold Decimal; decide)) .nil))
  · decide +kernel
  · decide +kernel
  · have h1 : ((aboutText askFacts c!"rawbody").filter isSpace).length = 4 := by decide +kernel
    have h2 : ((aboutText askFacts c!"rawbody").filter (fun c => !isSpace c)).length = 59 := by decide +kernel
    rw [h1, h2]
    refine ⟨?_, by norm_num, by norm_num⟩
    decide +kernel

example : (∃ P, P ∧ Judges askFuns askFacts c!"subject_is_all_caps" [] c!"header" P) ∧
    (∃ P, P ∧ Judges askFuns askFacts c!"check_for_to_in_subject" [.str c!"user"] c!"header" P) ∧
    (∃ P, ¬ P ∧ Judges askFuns askFacts c!"check_for_to_in_subject" [.str c!"address"] c!"header" P) ∧
    (∃ P, P ∧ Judges askFuns { askFacts with raw := c!"X: %AB\n\nText" } c!"check_unresolved_template" [] c!"header" P) ∧
    (∃ P, P ∧ Judges askFuns { askFacts with headers := [(c!"Received", c!"from a by rly-xa01.mx.aol.com; today")] }
      c!"check_for_fake_aol_relay_in_rcvd" [] c!"header" P) ∧
    ∃ P, P ∧ Judges askFuns { askFacts with headers := [(c!"X", c!"é")] } c!"check_illegal_chars" [.str c!"x", .num 1, .num 1] c!"header" P := by
  refine ⟨⟨_, ?_, .capitals⟩, ⟨_, ?_, .user (fun _ _ => rfl)⟩, ⟨_, ?_, .address⟩,
    ⟨_, ?_, .template (lines := [c!"X: %AB", [], c!"Text"]) (by simp) (by decide) (by decide)⟩, ⟨_, ?_, .relay⟩, ⟨_, ?_, .illegal (by decide) (by decide) .num⟩⟩
  · exact ⟨c!"Re: BUY IT NOW!", by decide +kernel, c!" BUY IT NOW!", .mark c!"Re:" _ (by decide), by decide, ⟨' ', by decide, by decide⟩,
      ⟨'B', by decide, by decide⟩, by decide⟩
  · exact ⟨c!"bob@x.org", by decide +kernel, c!"bob", ⟨c!"x.org", [], by decide, by decide, by decide, by decide, by decide, by simp⟩,
      .first [] ':' ' ' c!"hi" (by simp [HeaderRules.Blank]) (by decide) (by decide)⟩
  · rw [← C104_address_partial (fun _ => false)]
    decide +kernel
  · exact ⟨c!"X: %AB", by simp, ⟨'A', 'B', by decide, .inl (by decide), ⟨c!"X: ", [], rfl⟩⟩, by
      rw [← exempt_iff]
      decide +kernel⟩
  · exact ⟨c!"from a by rly-xa01.mx.aol.com; today", by decide +kernel, ⟨c!" rly-", 'x', 'a', '0', '1', by decide, by decide, by decide, by decide, by decide,
      ⟨c!"from a by", c!"mx.aol.com; today", rfl⟩⟩, by
        rw [← version_iff]
        decide +kernel, by
        rw [← relayId_iff]
        decide +kernel⟩
  · refine ⟨by decide, ?_, by decide⟩
    rw [show HeaderChars.nonAscii (under { askFacts with headers := [(c!"X", c!"é")] } c!"x").flatten = 1 by decide,
      show (under { askFacts with headers := [(c!"X", c!"é")] } c!"x").flatten.length = 1 by decide]
    norm_num

set_option maxRecDepth 8000 in
example : ((scan (withFunctions askFuns askEnv) [] [c!"/etc/a.cf"]
      ⟨askFacts.text, askFacts.rawText, askFacts.raw, askFacts.uris, accessed askEnv.mail askFacts.headers [] []⟩).map
        (fun st => (st.checked, st.score))) =
      some ([(c!"R", 1), (c!"H", 1), (c!"W", 0), (c!"C", 1), (c!"T", 1), (c!"S", 1)], 7) := by
  decide +kernel

/-- The message has two subjects; the rule about them finds none after one that asks about all headers. -/
def hidingLines : List Str :=
  [c!"loadplugin oa.plugins.uri_eval.URIEvalPlugin", c!"header A eval:check_illegal_chars('ALL', 1, 1)",
   c!"header H eval:check_header_count_range('Subject', 2,5)"]

def hidingEnv (ls : List Str) : ScanEnv Int (Str × ReFlags) Value (List Str) :=
  { askEnv with parser := { askEnv.parser with files := fun f => if f = c!"/etc/a.cf" then some ls else none } }

def hidingResult (ls : List Str) : Option (List (Str × Int)) :=
  (scan (withFunctions askFuns (hidingEnv ls)) [] [c!"/etc/a.cf"]
    ⟨[], [], [], [], accessed askEnv.mail [(c!"Subject", c!"one"), (c!"Subject", c!"two")] [] []⟩).map fun st => st.checked

set_option maxRecDepth 8000 in
example : hidingResult hidingLines = some [(c!"A", 0), (c!"H", 0)] ∧
    hidingResult [hidingLines[0], hidingLines[2], hidingLines[1]] = some [(c!"H", 1), (c!"A", 0)] := by
  decide +kernel

end Verif.Props
