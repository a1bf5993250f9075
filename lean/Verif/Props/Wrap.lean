import Verif.Model.Wrap
import Verif.Spec.Wrap
import Verif.Props.Dkim
import Verif.Props.Services
import Verif.Props.Protocol
import Verif.Props.Report
import Verif.Lemmas.Decimal

/-!
# C142: spam that is delivered wrapped
-/

namespace Verif.Props
open Verif Py Report Protocol Wrap Spec

/-! ### The boundary -/

theorem dec_digit {n : Nat} {c : Char} (h : c ∈ dec n) : '0' ≤ c ∧ c ≤ '9' := (decimal_toDigits n).2.1 c h

theorem dec_inj {m n : Nat} (h : dec m = dec n) : m = n := by
  have a := (decimal_toDigits m).2.2.1
  have b := (decimal_toDigits n).2.2.1
  unfold dec at h
  rw [h] at a
  exact a.symm.trans b

/-- The characters of a boundary. -/
theorem mem_candidate {token n : Nat} {c : Char} (h : c ∈ candidate token n) : c = '=' ∨ c = '.' ∨ ('0' ≤ c ∧ c ≤ '9') := by
  have first : c ∈ firstBoundary token → c = '=' ∨ c = '.' ∨ ('0' ≤ c ∧ c ≤ '9') := by
    intro h
    simp only [firstBoundary, List.mem_append, List.mem_replicate, List.mem_cons, List.not_mem_nil, or_false] at h
    rcases h with ((⟨_, h⟩ | ⟨_, h⟩) | h) | h | h
    · exact .inl h
    · subst h; exact .inr (.inr (by decide))
    · exact .inr (.inr (dec_digit h))
    · exact .inl h
    · exact .inl h
  cases n with
  | zero => exact first h
  | succ n =>
    simp only [candidate, List.mem_append, List.mem_cons, List.not_mem_nil, or_false] at h
    rcases h with (h | h) | h
    · exact first h
    · exact .inr (.inl h)
    · exact .inr (.inr (dec_digit h))

theorem no_dash {token n : Nat} : '-' ∉ candidate token n := by
  intro h
  have := mem_candidate h
  revert this
  decide

theorem no_newline {token n : Nat} : '\n' ∉ candidate token n := by
  intro h
  have := mem_candidate h
  revert this
  decide

theorem candidate_inj {token m n : Nat} (h : candidate token m = candidate token n) : m = n := by
  cases m with
  | zero =>
    cases n with
    | zero => rfl
    | succ n =>
      have := congrArg List.length h
      simp [candidate] at this
  | succ m =>
    cases n with
    | zero =>
      have := congrArg List.length h
      simp [candidate] at this
    | succ n =>
      simp only [candidate, List.append_assoc] at h
      have := List.append_cancel_left (List.append_cancel_left h)
      rw [dec_inj this]

/-- The line is a delimiter for the boundary. -/
def isDelim (b l : Str) : Prop := Opens b l ∨ Closes b l

theorem delim_inj {token m n : Nat} {l : Str} (h1 : isDelim (candidate token m) l) (h2 : isDelim (candidate token n) l) : m = n := by
  have key : ∀ m n, candidate token m = candidate token n ++ c!"--" → False := by
    intro m n h
    apply no_dash (token := token) (n := m)
    rw [h]; simp
  unfold isDelim Opens Closes at *
  rcases h1 with h1 | h1 <;> rcases h2 with h2 | h2 <;> rw [h1] at h2
  · exact candidate_inj (List.append_cancel_left h2)
  · rw [List.append_assoc] at h2
    exact (key _ _ (List.append_cancel_left h2)).elim
  · rw [List.append_assoc] at h2
    exact (key _ _ (List.append_cancel_left h2).symm).elim
  · exact candidate_inj (List.append_cancel_left (List.append_cancel_right h2))

theorem occurs_iff (text b : Str) : occurs text b = true ↔ ∃ l ∈ splitChar '\n' text, isDelim b l := by
  simp [occurs, isDelim, Opens, Closes]

theorem tryFrom_free (token : Nat) (text : Str) : ∀ fuel n (rem : List Str), rem.length ≤ fuel →
    (∀ l ∈ splitChar '\n' text, ∀ k, n ≤ k → isDelim (candidate token k) l → l ∈ rem) →
    (∃ k, tryFrom token text fuel n = candidate token k) ∧ occurs text (tryFrom token text fuel n) = false := by
  intro fuel
  induction fuel with
  | zero =>
    intro n rem hl hr
    refine ⟨⟨n, rfl⟩, ?_⟩
    cases ho : occurs text (tryFrom token text 0 n) with
    | false => rfl
    | true =>
      obtain ⟨l, hm, hd⟩ := (occurs_iff _ _).1 ho
      have := hr l hm n (Nat.le_refl _) hd
      rw [List.length_eq_zero_iff.1 (Nat.le_zero.1 hl)] at this
      cases this
  | succ fuel ih =>
    intro n rem hl hr
    unfold tryFrom
    split
    · rename_i ho
      obtain ⟨l, hm, hd⟩ := (occurs_iff _ _).1 ho
      have hin := hr l hm n (Nat.le_refl _) hd
      refine ih (n + 1) (rem.erase l) ?_ ?_
      · rw [List.length_erase_of_mem hin]; omega
      · intro l' hm' k hk hd'
        refine (List.mem_erase_of_ne ?_).2 (hr l' hm' k (by omega) hd')
        rintro rfl
        have := delim_inj hd hd'
        omega
    · rename_i ho
      exact ⟨⟨n, rfl⟩, by simpa using ho⟩

/-- The boundary found is one of those tried, and no line of the text is a delimiter for it. -/
theorem boundary_free (token : Nat) (text : Str) :
    (∃ k, makeBoundary token text = candidate token k) ∧ Inside (makeBoundary token text) (splitChar '\n' text) := by
  have := tryFrom_free token text (splitChar '\n' text).length 0 (splitChar '\n' text) (Nat.le_refl _) (fun l hl _ _ _ => hl)
  refine ⟨this.1, ?_⟩
  intro l hl
  have h2 : ¬ occurs text (makeBoundary token text) = true := by
    rw [show makeBoundary token text = _ from rfl, makeBoundary, this.2]; decide
  rw [occurs_iff] at h2
  constructor
  · intro h; exact h2 ⟨l, hl, .inl h⟩
  · intro h; exact h2 ⟨l, hl, .inr h⟩

/-! ### Reading a multipart message -/

theorem parts_unique {b : Str} {ls ps : List Str} (h : PartsFrom b ls ps) : ∀ {qs}, PartsFrom b ls qs → ps = qs := by
  have split : ∀ {p p' r r' : List Str} {d d' : Str}, Inside b p → Inside b p' → isDelim b d → isDelim b d' →
      p ++ d :: r = p' ++ d' :: r' → p = p' ∧ d = d' ∧ r = r' := by
    intro p
    induction p with
    | nil =>
      intro p' r r' d d' _ h2 h3 _ h
      cases p' with
      | nil => simp at h; exact ⟨rfl, h.1, h.2⟩
      | cons x xs =>
        simp only [List.nil_append, List.cons_append, List.cons.injEq] at h
        have := h2 x (by simp)
        rw [← h.1] at this
        rcases h3 with h3 | h3
        · exact absurd h3 this.1
        · exact absurd h3 this.2
    | cons y ys ih =>
      intro p' r r' d d' h1 h2 h3 h4 h
      cases p' with
      | nil =>
        simp only [List.nil_append, List.cons_append, List.cons.injEq] at h
        have := h1 y (by simp)
        rw [h.1] at this
        rcases h4 with h4 | h4
        · exact absurd h4 this.1
        · exact absurd h4 this.2
      | cons x xs =>
        simp only [List.cons_append, List.cons.injEq] at h
        obtain ⟨a, b', c⟩ := ih (fun l hl => h1 l (by simp [hl])) (fun l hl => h2 l (by simp [hl])) h3 h4 h.2
        exact ⟨by rw [h.1, a], b', c⟩
  have apart : ∀ {l : Str}, Opens b l → ¬ Closes b l := by
    intro l h1 h2
    unfold Opens at h1
    unfold Closes at h2
    rw [h1] at h2
    have := congrArg List.length h2
    simp at this
  induction h with
  | last h1 h2 =>
    intro qs hq
    generalize hls : _ ++ _ :: _ = ls at hq
    cases hq with
    | last g1 g2 =>
      obtain ⟨a, _, _⟩ := split h1 g1 (.inr h2) (.inr g2) hls
      rw [a]
    | more g1 g2 g3 =>
      obtain ⟨_, a, _⟩ := split h1 g1 (.inr h2) (.inl g2) hls
      rw [a] at h2
      exact absurd h2 (apart g2)
  | more h1 h2 h3 ih =>
    intro qs hq
    generalize hls : _ ++ _ :: _ = ls at hq
    cases hq with
    | last g1 g2 =>
      obtain ⟨_, a, _⟩ := split h1 g1 (.inl h2) (.inr g2) hls
      rw [← a] at g2
      exact absurd g2 (apart h2)
    | more g1 g2 g3 =>
      obtain ⟨a, _, c⟩ := split h1 g1 (.inl h2) (.inl g2) hls
      subst c
      rw [a, ih g3]

theorem linesOf_split (t : Str) : LinesOf t (splitChar '\n' t) :=
  ⟨(join_split '\n' t).1, fun l hl => splitChar_sep '\n' t l hl, (join_split '\n' t).2.symm⟩

theorem linesOf_eq {t : Str} {ls : List Str} (h : LinesOf t ls) : ls = splitChar '\n' t := by
  obtain ⟨h1, h2, h3⟩ := h
  rw [h3]
  exact (Py.splitChar_join '\n' ls h1 h2).symm

/-- There is one way to take a multipart message apart. -/
theorem C142_parts_determined {b body : Str} {ps qs : List Str} (h1 : HasParts b body ps) (h2 : HasParts b body qs) : ps = qs := by
  obtain ⟨l1, p1, f1, r1, a1, a2, a3, a4, a5⟩ := h1
  obtain ⟨l2, p2, f2, r2, b1, b2, b3, b4, b5⟩ := h2
  have e := (linesOf_eq a1).trans (linesOf_eq b1).symm
  subst e
  have x := PartsFrom.more a3 a4 a5
  have y := PartsFrom.more b3 b4 b5
  rw [← a2] at x
  rw [← b2] at y
  have := parts_unique x y
  simp only [List.cons.injEq] at this
  exact this.2

/-- Two texts between the three delimiters are read back, if the boundary is not in them. -/
theorem read_two (b p1 p2 : Str) (hb : '\n' ∉ b) (hp : b ≠ []) (h1 : Inside b (splitChar '\n' p1)) (h2 : Inside b (splitChar '\n' p2))
    (pre : Str) (hpre : '\n' ∉ pre) (hpre' : Inside b [pre]) :
    HasParts b (pre ++ c!"\n" ++ c!"--" ++ b ++ c!"\n" ++ p1 ++ c!"\n--" ++ b ++ c!"\n" ++ p2 ++ c!"\n--" ++ b ++ c!"--\n") [p1, p2] := by
  have o : '\n' ∉ c!"--" ++ b := by simp [hb]
  have c : '\n' ∉ c!"--" ++ b ++ c!"--" := by simp [hb]
  have hl : splitChar '\n' (pre ++ c!"\n" ++ c!"--" ++ b ++ c!"\n" ++ p1 ++ c!"\n--" ++ b ++ c!"\n" ++ p2 ++ c!"\n--" ++ b ++ c!"--\n") =
      [pre] ++ (c!"--" ++ b) :: (splitChar '\n' p1 ++ (c!"--" ++ b) :: (splitChar '\n' p2 ++ (c!"--" ++ b ++ c!"--") :: [[]])) := by
    have e : pre ++ c!"\n" ++ c!"--" ++ b ++ c!"\n" ++ p1 ++ c!"\n--" ++ b ++ c!"\n" ++ p2 ++ c!"\n--" ++ b ++ c!"--\n" =
        pre ++ '\n' :: ((c!"--" ++ b) ++ '\n' :: (p1 ++ '\n' :: ((c!"--" ++ b) ++ '\n' :: (p2 ++ '\n' :: ((c!"--" ++ b ++ c!"--") ++ '\n' :: []))))) := by
      simp [List.append_assoc]
    rw [e, splitChar_append_any, splitChar_append_any, splitChar_append_any, splitChar_append_any, splitChar_append_any, splitChar_append_any,
      dot_single _ hpre, dot_single _ o, dot_single _ c]
    simp [splitChar]
  refine ⟨_, [pre], c!"--" ++ b, _, linesOf_split _, hl, hpre', rfl, ?_⟩
  have x := PartsFrom.more (rest := splitChar '\n' p2 ++ (c!"--" ++ b ++ c!"--") :: [[]]) h1 (show Opens b (c!"--" ++ b) from rfl)
    (PartsFrom.last (rest := [[]]) h2 (show Closes b (c!"--" ++ b ++ c!"--") from rfl))
  rw [(join_split '\n' p1).2, (join_split '\n' p2).2] at x
  exact x

/-! ### The parts -/

theorem normNl_same (s : Str) : SameLines s (normNl s) := by
  have key : ∀ n (s : Str), s.length ≤ n → SameLines s (normNl s) := by
    intro n
    induction n with
    | zero =>
      intro s hs
      rw [List.length_eq_zero_iff.1 (Nat.le_zero.1 hs)]
      exact .nil
    | succ n ih =>
      intro s hs
      cases s with
      | nil => exact .nil
      | cons c cs =>
        simp only [List.length_cons] at hs
        unfold normNl
        split
        · rename_i hc
          subst hc
          split
          · rename_i t
            simp only [List.length_cons] at hs
            have := ih t (by omega)
            rw [show normNl ('\n' :: t) = '\n' :: normNl t by rw [normNl.eq_def]; rfl]
            exact .crlf this
          · rename_i hn
            refine .cr ?_ (ih cs (by omega))
            intro h
            cases cs with
            | nil => cases h
            | cons x xs =>
              simp only [List.head?_cons, Option.some.injEq] at h
              exact hn xs (by rw [h])
        · rename_i hc
          exact .char hc (ih cs (by omega))
  exact key _ s (Nat.le_refl _)

theorem normNl_id {s : Str} (h : '\r' ∉ s) : normNl s = s := by
  induction s with
  | nil => rfl
  | cons c cs ih =>
    simp only [List.mem_cons, not_or] at h
    unfold normNl
    rw [if_neg (fun e => h.1 e.symm), ih h.2]

theorem normNl_no_cr (s : Str) : '\r' ∉ normNl s := by
  have := normNl_same s
  generalize normNl s = t at this
  induction this with
  | nil => simp
  | char hc _ ih => simp only [List.mem_cons, not_or]; exact ⟨fun e => hc e.symm, ih⟩
  | crlf _ ih => simp only [List.mem_cons, not_or]; exact ⟨by decide, ih⟩
  | cr _ _ ih => simp only [List.mem_cons, not_or]; exact ⟨by decide, ih⟩

/-- The header lines of the attachment. -/
def attachLines (type : Str) : List Str :=
  [c!"Content-Type: " ++ type ++ c!"; x-spam-type=\"original\"", c!"MIME-Version: 1.0", c!"Content-Disposition: inline",
   c!"Content-Description: original message before OrangeAssassin"]

theorem attachment_content (reportSafe : Int) (raw : Str) :
    HasContent (attachment reportSafe raw) (attachLines (attachType reportSafe)) (if reportSafe = 2 then normNl raw else raw) := by
  refine ⟨?_, ?_, by simp [attachLines]⟩
  · unfold attachType
    split <;> decide
  · simp [attachment, headText, attachHeaders, attachLines, join, List.append_assoc]

theorem content_unique {part : Str} {h1 h2 : List Str} {c1 c2 : Str} (a : HasContent part h1 c1) (b : HasContent part h2 c2) :
    h1 = h2 ∧ c1 = c2 := by
  have key : ∀ (h1 h2 : List Str) (t1 t2 : List Str), (∀ h ∈ h1, h ≠ []) → (∀ h ∈ h2, h ≠ []) →
      h1 ++ [] :: t1 = h2 ++ [] :: t2 → h1 = h2 ∧ t1 = t2 := by
    intro h1
    induction h1 with
    | nil =>
      intro h2 t1 t2 _ g2 e
      cases h2 with
      | nil => simpa using e
      | cons x xs =>
        simp only [List.nil_append, List.cons_append, List.cons.injEq] at e
        exact absurd e.1.symm (g2 x (by simp))
    | cons y ys ih =>
      intro h2 t1 t2 g1 g2 e
      cases h2 with
      | nil =>
        simp only [List.nil_append, List.cons_append, List.cons.injEq] at e
        exact absurd e.1 (g1 y (by simp))
      | cons x xs =>
        simp only [List.cons_append, List.cons.injEq] at e
        obtain ⟨p, q⟩ := ih xs t1 t2 (fun h hh => g1 h (by simp [hh])) (fun h hh => g2 h (by simp [hh])) e.2
        exact ⟨by rw [e.1, p], q⟩
  have lines : ∀ {h : List Str} {c : Str}, HasContent part h c → splitChar '\n' part = h ++ [] :: splitChar '\n' c := by
    intro h c hh
    obtain ⟨a1, a2, a3⟩ := hh
    rw [a2, show join c!"\n" h ++ c!"\n\n" ++ c = join c!"\n" h ++ '\n' :: ([] ++ '\n' :: c) by simp [List.append_assoc],
      splitChar_append_any, splitChar_append_any, Py.splitChar_join '\n' h a3 (fun l hl => (a1 l hl).2)]
    rfl
  have e := (lines a).symm.trans (lines b)
  obtain ⟨p, q⟩ := key _ _ _ _ (fun l hl => (a.1 l hl).1) (fun l hl => (b.1 l hl).1) e
  refine ⟨p, ?_⟩
  have := congrArg (join c!"\n") q
  rwa [(join_split '\n' c1).2, (join_split '\n' c2).2] at this

/-! ### The headers -/

/-- The header is one of those that modifications can touch. -/
def isXSpam (p : Str × Str) : Bool := startsWith c!"x-spam-" (lower p.1)

theorem xspam_of_prefix {n a : Str} (h : c!"X-Spam-" <+: n) (e : lower a = lower n) : startsWith c!"x-spam-" (lower a) = true := by
  obtain ⟨t, rfl⟩ := h
  rw [e]
  simp only [startsWith, lower, List.map_append]
  rw [show (c!"X-Spam-").map Char.toLower = c!"x-spam-" by decide]
  simp

theorem adjust_keeps (val : Str → Option Str) (ms : List Mod) (h h' : Hdrs) (hm : ∀ m ∈ ms, c!"X-Spam-" <+: m.name)
    (e : adjustHeaders val ms h = some h') : h'.filter (fun p => !isXSpam p) = h.filter (fun p => !isXSpam p) := by
  have u := C56_untouched val ms h h' e
  have f : ∀ l : Hdrs, (l.filter (fun p => decide (∀ m ∈ ms, ¬ SameName p.1 m.name))).filter (fun p => !isXSpam p) = l.filter (fun p => !isXSpam p) := by
    intro l
    rw [List.filter_filter]
    apply List.filter_congr
    intro p _
    cases hx : isXSpam p with
    | true => simp
    | false =>
      simp only [Bool.not_false, Bool.true_and, decide_eq_true_eq]
      intro m hmm hs
      have := xspam_of_prefix (hm m hmm) hs
      unfold isXSpam at hx
      rw [hx] at this
      cases this
  have := congrArg (List.filter (fun p => !isXSpam p)) u
  rw [f, f] at this
  exact this

/-- The headers of the wrapping message that do not begin with `X-Spam-`: the roles of sender and recipient are
exchanged. -/
def wrapperHeaders (b received date : Str) (from_ to_ subject : Option Str) : Hdrs :=
  [(c!"Content-Type", c!"multipart/mixed; boundary=\"" ++ b ++ c!"\""), (c!"MIME-Version", c!"1.0"), (c!"Received", received)] ++
  (to_.map (fun v => (c!"From", v))).toList ++ (from_.map (fun v => (c!"To", v))).toList ++
  (subject.map (fun v => (c!"Subject", v))).toList ++ [(c!"Date", date)]

theorem setBoundary_filter (b : Str) (h : Hdrs) :
    (setBoundary b h).filter (fun p => !isXSpam p) = setBoundary b (h.filter (fun p => !isXSpam p)) := by
  unfold setBoundary
  rw [List.filter_map]
  congr 1
  apply List.filter_congr
  intro p _
  simp only [Function.comp_apply]
  split <;> rfl

theorem bounce_plain (received now : Str) (get : Str → Option Str) (b : Str) :
    setBoundary b ((bounceHeaders received now get).filter (fun p => !isXSpam p)) =
      wrapperHeaders b received (((get c!"Date").filter (· ≠ [])).getD now) (get c!"From") (get c!"To") (get c!"Subject") := by
  unfold bounceHeaders
  generalize get c!"Date" = date
  cases date with
  | none => cases get c!"To" <;> cases get c!"From" <;> cases get c!"Subject" <;> rfl
  | some d =>
    by_cases hd : d = []
    · subst hd
      cases get c!"To" <;> cases get c!"From" <;> cases get c!"Subject" <;> rfl
    · simp only [if_neg hd, show ((some d).filter (· ≠ [])).getD now = d by simp [Option.filter, hd]]
      cases get c!"To" <;> cases get c!"From" <;> cases get c!"Subject" <;> rfl

/-! ### The wrapped message -/

variable {S X : Type} [PyNum S]

/-- **C142**.  When a message is spam and `report_safe` is not 0, what the user gets from PROCESS is a message of exactly two parts.
Whatever lines the message and the report have, a reader finds the parts: the delimiter named in the header is no line of
either.  The first part is the report.  The second holds the received message: the same text, character for character
(unless `report_safe` is 2: then the same lines, which end in `\n`).  The headers are the exchanged ones of the message
and those of the modifications. -/
theorem C142_wrapped_partial (e : Engine S X) (s : MsgSt S X) (fold : Hdrs → Str) (base64 : Str → Str) (token : Nat) (received now : Str)
    (st : MsgSt S X) (raw body text : Str) (orig : Hdrs) (get : Str → Option Str)
    (adds removes : List Str) (hmods : readMods adds removes = some e.mods)
    (hspam : e.conf.required ≤ s.score) (hsafe : e.conf.reportSafe ≠ 0)
    (hx : adjustedMessage e (mail fold base64 token received now e.conf.reportSafe st raw body orig get) s false = .ok text) :
    ∃ (hdrs : Hdrs) (b inner p1 p2 : Str) (l1 l2 : List Str) (c1 c2 r1 r2 : Str),
      text = fold hdrs ++ inner ∧
      hdrs.filter (fun p => !startsWith c!"x-spam-" (lower p.1)) =
        wrapperHeaders b received (((get c!"Date").filter (· ≠ [])).getD now) (get c!"From") (get c!"To") (get c!"Subject") ∧
      HasParts b inner [p1, p2] ∧
      reportText e s e.conf.report = .ok r1 ∧ reportText e s e.conf.unsafeReport = .ok r2 ∧
      HasContent p1 l1 c1 ∧ ((∀ c ∈ r1 ++ r2, c.toNat < 128) → SameLines (r1 ++ r2) c1) ∧
      HasContent p2 l2 c2 ∧ c!"Content-Disposition: inline" ∈ l2 ∧
      (e.conf.reportSafe ≠ 2 → c2 = raw) ∧ (e.conf.reportSafe = 2 → SameLines raw c2) ∧ ('\r' ∉ raw → c2 = raw) := by
  obtain ⟨h3, a1, -, a3, -⟩ := C07_headers e _ s false text hx
  obtain ⟨r1, r2, q1, q2, q3⟩ := a3 rfl hspam hsafe
  have hxs := C56_only_x_spam adds removes e.mods hmods
  -- the headers
  have hk : h3.filter (fun p => !isXSpam p) = (bounceHeaders received now get).filter (fun p => !isXSpam p) := by
    unfold adjusted at a1
    simp only [hspam, decide_true, Bool.not_true, Bool.false_or, hsafe, decide_false, Bool.false_eq_true, if_false, if_true, Option.bind_some] at a1
    cases hall : adjustHeaders (fun t => (texted e s t).toOption) e.mods.all (bounceHeaders received now get) with
    | none =>
      rw [show (mail fold base64 token received now e.conf.reportSafe st raw body orig get : Mail S X).bounce = bounceHeaders received now get from rfl, hall] at a1
      cases a1
    | some h2 =>
      rw [show (mail fold base64 token received now e.conf.reportSafe st raw body orig get : Mail S X).bounce = bounceHeaders received now get from rfl, hall] at a1
      simp only [Option.bind_some] at a1
      rw [adjust_keeps _ e.mods.spam h2 h3 (fun m hm => hxs m (by simp [hm])) a1,
        adjust_keeps _ e.mods.all _ h2 (fun m hm => hxs m (by simp [hm])) hall]
  -- the text
  let p1 := reportPart base64 (r1 ++ r2)
  let p2 := attachment e.conf.reportSafe raw
  let b := makeBoundary token (p1 ++ c!"\n" ++ p2)
  obtain ⟨⟨k, hb⟩, hin⟩ := boundary_free token (p1 ++ c!"\n" ++ p2)
  have hsp : splitChar '\n' (p1 ++ c!"\n" ++ p2) = splitChar '\n' p1 ++ splitChar '\n' p2 := by
    rw [show p1 ++ c!"\n" ++ p2 = p1 ++ '\n' :: p2 by simp, splitChar_append_any]
  rw [hsp] at hin
  have hnl : '\n' ∉ b := by show '\n' ∉ makeBoundary _ _; rw [hb]; exact no_newline
  have hdash : '-' ∉ b := by show '-' ∉ makeBoundary _ _; rw [hb]; exact no_dash
  have hbne : b ≠ [] := by
    show makeBoundary _ _ ≠ []
    rw [hb]
    cases k <;> simp [candidate, firstBoundary]
  have parts := read_two b p1 p2 hnl hbne (fun l hl => hin l (by simp [hl])) (fun l hl => hin l (by simp [hl]))
    c!"This is a multi-part message in MIME format." (by decide) (by
      intro l hl
      simp only [List.mem_cons, List.not_mem_nil, or_false] at hl
      subst hl
      constructor <;> intro hh
      · unfold Opens at hh; simp at hh
      · unfold Closes at hh; simp at hh)
  have pre : reportPart base64 (r1 ++ r2) = p1 := rfl
  have c1 : ∃ l1 c1, HasContent p1 l1 c1 ∧ ((∀ c ∈ r1 ++ r2, c.toNat < 128) → SameLines (r1 ++ r2) c1) := by
    rw [← pre]
    unfold reportPart
    split
    · refine ⟨[c!"Content-Type: text/plain; charset=\"us-ascii\"", c!"MIME-Version: 1.0", c!"Content-Transfer-Encoding: 7bit"],
        normNl (r1 ++ r2), ⟨by decide, by simp [headText, join], by simp⟩, fun _ => normNl_same _⟩
    · rename_i hna
      refine ⟨[c!"Content-Type: text/plain; charset=\"utf-8\"", c!"MIME-Version: 1.0", c!"Content-Transfer-Encoding: base64"],
        normNl (base64 (r1 ++ r2)), ⟨by decide, by simp [headText, join], by simp⟩, fun ha => ?_⟩
      exact absurd (List.all_eq_true.2 (fun c hc => decide_eq_true (ha c hc))) hna
  obtain ⟨l1, t1, hc1, hs1⟩ := c1
  refine ⟨setBoundary b h3, b, _, p1, p2, l1, _, t1, _, r1, r2, ?_, ?_, parts, q1, q2, hc1, hs1, attachment_content _ _, ?_, ?_, ?_, ?_⟩
  · rw [q3]
    show wrappedText _ _ _ _ _ _ _ = _
    have hbe : makeBoundary token (reportPart base64 (r1 ++ r2) ++ c!"\n" ++ attachment e.conf.reportSafe raw) = b := rfl
    unfold wrappedText
    dsimp only
    rw [hbe, show attachment e.conf.reportSafe raw = p2 from rfl, pre]
    generalize b = b, p1 = p1, p2 = p2
    simp [List.append_assoc]
  · rw [show (fun p : Str × Str => !startsWith c!"x-spam-" (lower p.1)) = (fun p => !isXSpam p) from rfl, setBoundary_filter, hk, bounce_plain]
  · simp [attachLines]
  · intro h2; rw [if_neg h2]
  · intro h2; rw [if_pos h2]; exact normNl_same raw
  · intro h2
    split
    · exact normNl_id h2
    · rfl

/-- **C142 is violated**: the attached message is never marked as a message.  Its type is `message/rfc882`, which no mail reader
knows, for every setting but 2, and `text/plain` for 2; `message/rfc822` is not among its headers. -/
theorem C142_type_violated (reportSafe : Int) (raw : Str) :
    ∃ hdrs content, HasContent (attachment reportSafe raw) hdrs content ∧
      (reportSafe ≠ 2 → c!"Content-Type: message/rfc882; x-spam-type=\"original\"" ∈ hdrs) ∧
      ∀ h ∈ hdrs, ¬ c!"Content-Type: message/rfc822" <+: h := by
  refine ⟨_, _, attachment_content _ _, ?_, ?_⟩
  · intro h2
    simp [attachLines, attachType, h2]
  · unfold attachType
    split <;> decide

/-- **C142 is violated** with `report_safe 2`: every message with a carriage return, so every one received with the line
ends of SMTP, is changed. -/
theorem C142_line_ends_violated (raw : Str) (h : '\r' ∈ raw) :
    ∃ hdrs content, HasContent (attachment 2 raw) hdrs content ∧ content ≠ raw := by
  refine ⟨_, _, attachment_content _ _, ?_⟩
  intro e
  rw [if_pos rfl] at e
  exact normNl_no_cr raw (by rw [e]; exact h)

/-- **C142 is violated**: HEADERS does not give the headers of the message that PROCESS gives.  For wrapped spam without
modifications the first are those of the original, and in the second the sender is the original's recipient. -/
theorem C142_headers_violated (e : Engine S X) (s : MsgSt S X) (fold : Hdrs → Str) (base64 : Str → Str) (token : Nat) (received now : Str)
    (st : MsgSt S X) (raw body t1 t2 : Str) (orig : Hdrs) (get : Str → Option Str) (hmods : e.mods = ⟨[], [], []⟩)
    (hspam : e.conf.required ≤ s.score) (hsafe : e.conf.reportSafe ≠ 0)
    (h1 : adjustedMessage e (mail fold base64 token received now e.conf.reportSafe st raw body orig get) s false = .ok t1)
    (h2 : adjustedMessage e (mail fold base64 token received now e.conf.reportSafe st raw body orig get) s true = .ok t2) :
    (∃ hdrs inner, t1 = fold hdrs ++ inner ∧ (∀ v, (c!"From", v) ∈ hdrs ↔ get c!"To" = some v) ∧
      (∀ v, (c!"To", v) ∈ hdrs ↔ get c!"From" = some v)) ∧
    ∃ a, t2 = a ++ c!"\n\n" ∧ (fold orig ++ body = a ∨ ∃ b, fold orig ++ body = a ++ c!"\n\n" ++ b) := by
  constructor
  · obtain ⟨hdrs, b, inner, p1, p2, l1, l2, c1, c2, r1, r2, e1, e2, -⟩ := C142_wrapped_partial e s fold base64 token received now st raw body t1 orig get
      [] [] (by rw [hmods]; rfl) hspam hsafe h1
    refine ⟨hdrs, inner, e1, ?_, ?_⟩
    · intro v
      have : (c!"From", v) ∈ hdrs ↔ (c!"From", v) ∈ hdrs.filter (fun p => !startsWith c!"x-spam-" (lower p.1)) := by
        rw [List.mem_filter]
        exact ⟨fun h => ⟨h, rfl⟩, fun h => h.1⟩
      rw [this, e2]
      unfold wrapperHeaders
      cases get c!"To" <;> cases get c!"From" <;> cases get c!"Subject" <;> simp <;> exact ⟨Eq.symm, Eq.symm⟩
    · intro v
      have : (c!"To", v) ∈ hdrs ↔ (c!"To", v) ∈ hdrs.filter (fun p => !startsWith c!"x-spam-" (lower p.1)) := by
        rw [List.mem_filter]
        exact ⟨fun h => ⟨h, rfl⟩, fun h => h.1⟩
      rw [this, e2]
      unfold wrapperHeaders
      cases get c!"To" <;> cases get c!"From" <;> cases get c!"Subject" <;> simp <;> exact ⟨Eq.symm, Eq.symm⟩
  · obtain ⟨h3, a1, -, -, a4⟩ := C07_headers e _ s true t2 h2
    have : h3 = orig := by
      rw [hmods] at a1
      unfold adjusted at a1
      simp only [Bool.or_true, Bool.true_or, if_true, hsafe, if_false, Option.bind_some, adjustHeaders, ite_self, Option.some.injEq] at a1
      exact a1.symm
    subst this
    obtain ⟨a, b1, b2⟩ := a4 rfl
    exact ⟨a, b1, b2.imp (fun h => h.1) id⟩

/-! ### An example -/

/-- A message with a line that looks like the delimiter. -/
def wrapRaw : Str := c!"From: a@x\n\n--===============0000000000000000007==\n"

example : makeBoundary 7 wrapRaw = c!"===============0000000000000000007==.0" := by decide +kernel

example : let t := wrappedText (fun h => headText h) id 7 1 wrapRaw c!"Spam!\n" [(c!"Content-Type", c!"multipart/mixed")]
    t = c!"Content-Type: multipart/mixed; boundary=\"===============0000000000000000007==.0\"\n\nThis is a multi-part message in MIME format.\n" ++
      c!"--===============0000000000000000007==.0\nContent-Type: text/plain; charset=\"us-ascii\"\nMIME-Version: 1.0\nContent-Transfer-Encoding: 7bit\n\nSpam!\n\n" ++
      c!"--===============0000000000000000007==.0\nContent-Type: message/rfc882; x-spam-type=\"original\"\nMIME-Version: 1.0\n" ++
      c!"Content-Disposition: inline\nContent-Description: original message before OrangeAssassin\n\n" ++ wrapRaw ++
      c!"\n--===============0000000000000000007==.0--\n" := by
  decide +kernel

/-- The hypotheses of the theorems are met: a score of 7, a required score of 5, a report. -/
example : let e := demoEngine c!"%(YESNO)s, spam" 1 ⟨7, [], [], ()⟩
    let s : MsgSt Int Unit := ⟨7, [], [], ()⟩
    readMods [] [] = some e.mods ∧ e.conf.required ≤ s.score ∧ e.conf.reportSafe ≠ 0 ∧
    (∃ text, adjustedMessage e (mail headText id 7 c!"r" c!"now" 1 s wrapRaw c!"b" [(c!"From", c!"a@x")] (fun n => Dict.get? [(c!"From", c!"a@x")] n)) s false = .ok text ∧
      c!"Yes, spam\n" <:+: text ∧ wrapRaw <:+: text) ∧
    adjustedMessage e (mail headText id 7 c!"r" c!"now" 1 s wrapRaw c!"b" [(c!"From", c!"a@x")] (fun n => Dict.get? [(c!"From", c!"a@x")] n)) s true =
      .ok c!"From: a@x\n\n" := by
  refine ⟨by decide, by decide, by decide, ⟨_, rfl, by decide +kernel, by decide +kernel⟩, by decide +kernel⟩

end Verif.Props
