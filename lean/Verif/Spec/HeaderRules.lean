import Verif.Model.HeaderRules

/-! # Specification: subjects without marks of replies, and users in subjects -/

namespace Verif.HeaderRules
open Verif Py

/-- `t` is what follows the mark of a reply or of a forwarded message at the beginning of `s`, or `s` if there is none. -/
inductive Unmarked : Str → Str → Prop
  | mark (w t : Str) (h : lower w ∈ [c!"re:", c!"fwd:", c!"fw:", c!"aw:", c!"antwort:", c!"sv:"]) : Unmarked (w ++ t) t
  | plain (s : Str) (h : ∀ w t, lower w ∈ [c!"re:", c!"fwd:", c!"fw:", c!"aw:", c!"antwort:", c!"sv:"] → s ≠ w ++ t) :
    Unmarked s s

/-- A text in capital letters: without the white space around it it has ten characters or more, white space between words, some
capital letter and no other letters. -/
def Caps (up low : Char → Bool) (t : Str) : Prop :=
  10 ≤ (strip t).length ∧ (∃ c ∈ strip t, isSpace c = true) ∧ (∃ c ∈ strip t, up c = true) ∧ ∀ c ∈ strip t, low c = false

/-- A text of white space. -/
def Blank (s : Str) : Prop := ∀ c ∈ s, isSpace c = true

/-- The user of an address: what is before the last `@` of its first word. -/
def UserOf (to user : Str) : Prop :=
  ∃ dom tail, to = user ++ '@' :: (dom ++ tail) ∧ user ≠ [] ∧ (∀ c ∈ user, isSpace c = false) ∧ '@' ∉ dom ∧
    (∀ c ∈ dom, isSpace c = false) ∧ ∀ c, tail.head? = some c → isSpace c = true

/-- The domain of an address: what is after the last `@`, or all of it. -/
def DomainOf (addr d : Str) : Prop := (∃ l, addr = l ++ '@' :: d ∧ '@' ∉ d) ∨ ('@' ∉ addr ∧ d = addr)

/-- The forms in which a subject is taken to speak to the user: the user alone; after `re:` or `fw:`, perhaps with one word
between; the user and a punctuation mark at the end; or the user, a punctuation mark and white space at the beginning.  `nl` is
a line break that may follow at the end. -/
inductive Speaks (u : Char → Bool) (user : Str) : Str → Prop
  | alone (nl : Str) (h : nl = [] ∨ nl = c!"\n") : Speaks u user (user ++ nl)
  | reply (a mark sp nl : Str) (hm : mark = c!"re:" ∨ mark = c!"fw:") (hs : Blank sp) (h : nl = [] ∨ nl = c!"\n") :
    Speaks u user (a ++ mark ++ sp ++ user ++ nl)
  | replyWord (a mark sp word sp' nl : Str) (hm : mark = c!"re:" ∨ mark = c!"fw:") (hs : Blank sp)
    (hw : word ≠ [] ∧ ∀ c ∈ word, Content.isWord u c = true) (hs' : sp' ≠ [] ∧ Blank sp') (h : nl = [] ∨ nl = c!"\n") :
    Speaks u user (a ++ mark ++ sp ++ word ++ sp' ++ user ++ nl)
  | last (a : Str) (p : Char) (nl : Str) (hp : p ∈ c!",:;!?-") (h : nl = [] ∨ nl = c!"\n") : Speaks u user (a ++ user ++ p :: nl)
  | first (sp : Str) (p c : Char) (b : Str) (hs : Blank sp) (hp : p ∈ c!",:;!?-") (hc : isSpace c = true) :
    Speaks u user (user ++ sp ++ p :: c :: b)

/-- A relay, with the envelope sender it is known to have been given. -/
def knownSenders (relays : List (Option Str)) : List Str := (relays.filterMap id).filter (fun e => !e.isEmpty)

end Verif.HeaderRules
