import Verif.Spec.DkimKey
import Verif.Props.SenderAuth
import Verif.Props.Dns

/-!
# C179: the keys of DKIM signatures
-/

namespace Verif.Props
open Verif Py Dns SenderAuth DkimKey

theorem find_txt (sets : List RRset) (s : RRset) :
    sets.find? RRset.txt = some s ↔ ∃ before after, sets = before ++ s :: after ∧ (∀ b ∈ before, b.txt = false) ∧ s.txt = true := by
  rw [List.find?_eq_some_iff_append]
  constructor
  · rintro ⟨h, a, b, e, h2⟩
    exact ⟨a, b, e, fun x hx => by simpa using h2 x hx, h⟩
  · rintro ⟨a, b, e, h2, h⟩
    exact ⟨h, a, b, e, fun x hx => by simp [h2 x hx]⟩

theorem ascii_iff (name : Str) : name.all (fun c => decide (c.toNat < 128)) = true ↔ Ascii name := by
  simp [Ascii]

/-- **C179**.  The library is given a text as a key exactly if the name is ASCII, not restricted, DNS is available and answers with a
TXT record; the text is then all strings of the first TXT record, whatever comes before it in the answer.  Missing: library
versions with byte strings (`C179_bytes_violated`). -/
theorem C179_key_partial (r : Read) (d : Iface) (dns : Str → Reply) (name k : Str) :
    getTxt false r d dns name = some (some k) ↔
      Ascii name ∧ (query r name d).1 = true ∧ ∃ sets, dns name = .answer sets ∧ Key sets k := by
  unfold getTxt DkimKey.asked
  rw [← ascii_iff]
  by_cases ha : name.all (fun c => decide (c.toNat < 128)) = true
  · rw [if_pos ha]
    by_cases hq : (query r name d).1 = true
    · rw [if_pos hq]
      unfold getTxtDnspython
      cases hd : dns name with
      | nothing => simp
      | raises => simp
      | answer sets =>
        simp only [ha, hq, true_and, Reply.answer.injEq, exists_eq_left']
        cases hf : sets.find? RRset.txt with
        | none =>
          simp only [Option.some.injEq, reduceCtorEq, false_iff]
          rintro ⟨a, s, b, st, mo, e, -, h, -⟩
          have := List.find?_eq_none.mp hf s (by rw [e]; simp)
          exact this h
        | some s =>
          obtain ⟨a, b, e, h1, h2⟩ := (find_txt sets s).mp hf
          have uniq : ∀ k, Key sets k ↔ ∃ st mo, s.items = st :: mo ∧ k = st.flatten := by
            intro k
            constructor
            · rintro ⟨a', s', b', st, mo, e', h1', h2', hi, hk⟩
              have := (find_txt sets s').mpr ⟨a', b', e', h1', h2'⟩
              rw [hf] at this
              injection this with this
              subst this
              exact ⟨st, mo, hi, hk⟩
            · rintro ⟨st, mo, hi, hk⟩
              exact ⟨a, s, b, st, mo, e, h1, h2, hi, hk⟩
          rw [uniq]
          dsimp only
          cases hi : s.items with
          | nil => simp
          | cons st mo =>
            simp only [Bool.false_and, Bool.false_eq_true, if_false, Option.some.injEq, List.cons.injEq]
            constructor
            · intro h; exact ⟨st, mo, ⟨rfl, rfl⟩, h.symm⟩
            · rintro ⟨st', mo', ⟨rfl, rfl⟩, h⟩; exact h.symm
    · rw [if_neg hq]
      simp [getTxtDnspython, hq]
  · rw [if_neg ha]
    simp [ha]

/-- **C179**, part.  In a new process, the first rule that is evaluated says that a signature is valid only if its key was found and
the library has verified the message with that key. -/
theorem C179_first_partial (r : Read) (d : Iface) (dns : Str → Reply) (m : Signed)
    (hnone : m.lib none ≠ .good) (h : (dkimRule .valid (seen false r d dns m) DkimSt.init).1 = true) :
    ∃ sets k, dns m.name = .answer sets ∧ Key sets k ∧ m.lib (some k) = .good := by
  obtain ⟨hg, -⟩ := (C65_valid_partial _).mp h
  have hg : verifyWith m.lib (getTxt false r d dns m.name) = .good := hg
  cases hk : getTxt false r d dns m.name with
  | none => rw [hk] at hg; cases hg
  | some o =>
    rw [hk] at hg
    cases o with
    | none => exact absurd hg hnone
    | some k =>
      obtain ⟨-, -, sets, h1, h2⟩ := (C179_key_partial r d dns m.name k).mp hk
      exact ⟨sets, k, h1, h2, hg⟩

/-- **C179**, part.  For a name with other than ASCII characters nothing is asked: whatever DNS knows, the library is told that there is no
key, and no exception is raised. -/
theorem C179_foreign_partial (bytes : Bool) (r : Read) (d : Iface) (dns : Str → Reply) (m : Signed) (hn : ¬ Ascii m.name) :
    getTxt bytes r d dns m.name = some none ∧ (seen bytes r d dns m).verify = m.lib none := by
  have hk : getTxt bytes r d dns m.name = some none := by
    unfold getTxt
    rw [if_neg (fun h => hn ((ascii_iff m.name).mp h))]
  refine ⟨hk, ?_⟩
  show verifyWith m.lib _ = _
  rw [hk]; rfl

/-- No answer is an exception. -/
theorem no_key (bytes : Bool) (r : Read) (d : Iface) (dns : Str → Reply) (name : Str) (hn : Ascii name)
    (h : (query r name d).1 = false ∨ dns name = .nothing) : getTxt bytes r d dns name = none := by
  unfold getTxt DkimKey.asked
  rw [if_pos ((ascii_iff name).mpr hn)]
  rcases h with h | h
  · rw [h]; rfl
  · split
    · rw [h]; rfl
    · rfl

/-- **C179**, negation.  Whenever the key of a signature of an author's domain can not be had (the name does not exist, there is no
answer, it is restricted, or DNS is not available), the first rule ends with an exception, and every later rule says that the
signature is valid, whatever the signature is. -/
theorem C179_missing_violated (bytes : Bool) (r : Read) (d : Iface) (dns : Str → Reply) (m : Signed) (hn : Ascii m.name)
    (h : (query r m.name d).1 = false ∨ dns m.name = .nothing) (dom : Str) (hp : m.msg.parsed = some (some dom)) (hd : dom ∈ m.msg.domains)
    (first : DkimRule) :
    (dkimRule first (seen bytes r d dns m) DkimSt.init).1 = false ∧
    (dkimRule .valid (seen bytes r d dns m) (dkimRule first (seen bytes r d dns m) DkimSt.init).2).1 = true := by
  have hv : (seen bytes r d dns m).verify = .otherError := by
    show verifyWith m.lib _ = _
    rw [no_key bytes r d dns m.name hn h]; rfl
  refine ⟨?_, (C65_error_violated _ first (.inr ⟨hv, dom, hd, hp⟩)).2⟩
  generalize hs : seen bytes r d dns m = x at hv
  have hp' : x.parsed = some (some dom) := by rw [← hs]; exact hp
  unfold dkimRule checkSignature
  simp [DkimSt.init, hp', hv]

/-- **C179**, negation.  With a library that gives byte strings, every key that is found is an exception as well, so that every
signature of an author's domain is valid from the second rule on. -/
theorem C179_bytes_violated (r : Read) (d : Iface) (dns : Str → Reply) (m : Signed) (hn : Ascii m.name) (sets : List RRset)
    (ha : dns m.name = .answer sets) (before after : List RRset) (s : RRset) (strings : List Str) (more : List (List Str)) (hs : sets = before ++ s :: after)
    (hb : ∀ b ∈ before, b.txt = false) (ht : s.txt = true) (hi : s.items = strings :: more) (hne : strings ≠ [])
    (dom : Str) (hp : m.msg.parsed = some (some dom)) (hd : dom ∈ m.msg.domains) (first : DkimRule) :
    getTxt true r d dns m.name = none ∧
    (dkimRule .valid (seen true r d dns m) (dkimRule first (seen true r d dns m) DkimSt.init).2).1 = true := by
  have hk : getTxt true r d dns m.name = none := by
    unfold getTxt DkimKey.asked
    rw [if_pos ((ascii_iff _).mpr hn)]
    split
    · rw [ha]
      unfold getTxtDnspython
      have hf := (find_txt sets s).mpr ⟨before, after, hs, hb, ht⟩
      simp [hf, hi, hne]
    · rfl
  have hv : (seen true r d dns m).verify = .otherError := by
    show verifyWith m.lib _ = _
    rw [hk]; rfl
  exact ⟨hk, (C65_error_violated _ first (.inr ⟨hv, dom, hd, hp⟩)).2⟩

/-- **C179**, negation.  The library asks for names that end in a dot.  No restriction for a name without a dot at its end applies
to them: denying a domain does not keep the keys of its signatures from being looked up. -/
theorem C179_restricted_violated (r : Read) (d : Iface) (dns : Str → Reply) (name : Str)
    (ht : ∀ a, Dict.has d.restrictions a = true → a ≠ [] ∧ a.getLast? ≠ some '.') :
    query r (name ++ c!".") d = available r d ∧
    ((available r d).1 = true → DkimKey.asked r d dns (name ++ c!".") = dns (name ++ c!".")) := by
  have hq : query r (name ++ c!".") d = available r d := by
    apply C32_allowed
    rintro ⟨a, hc, hg, -⟩
    obtain ⟨h1, h2⟩ := ht a (by unfold Dict.has; rw [hg]; rfl)
    apply h2
    rcases hc with h | ⟨p, h⟩
    · rw [h]; simp
    · have e := congrArg List.getLast? h
      cases hl : a.getLast? with
      | none => exact absurd (List.getLast?_eq_none_iff.mp hl) h1
      | some y =>
        simp [List.getLast?_append, List.getLast?_cons, hl] at e
        rw [← e]
  refine ⟨hq, fun h => ?_⟩
  unfold DkimKey.asked
  rw [hq, if_pos h]

/-! ## The hypotheses can be met -/

def keyIface : Iface := { Iface.init 0 with restrictions := [(c!"example.com", true)] }

def keyRead : Read := ⟨5, 5, []⟩

/-- An alias and the key in two strings. -/
def keyDns (name : Str) : Reply :=
  if name = c!"s._domainkey.example.com." then .answer [⟨false, [[c!"alias"]]⟩, ⟨true, [[c!"v=DKIM1; p=", c!"AAAA"]]⟩] else .nothing

def keyMsg (name : Str) : Signed := ⟨dkimMsg, name, fun k => if k = some c!"v=DKIM1; p=AAAA" then .good else .libError⟩

example : getTxt false keyRead keyIface keyDns c!"s._domainkey.example.com." = some (some c!"v=DKIM1; p=AAAA") ∧
    (query keyRead c!"s._domainkey.example.com." keyIface).1 = true ∧ (query keyRead c!"s._domainkey.example.com" keyIface).1 = false ∧
    (dkimRule .valid (seen false keyRead keyIface keyDns (keyMsg c!"s._domainkey.example.com.")) DkimSt.init).1 = true := by
  decide +kernel

/-- A forged signature with a selector that does not exist. -/
example : keyDns c!"none._domainkey.example.com." = .nothing ∧
    (dkimRule .valid (seen false keyRead keyIface keyDns (keyMsg c!"none._domainkey.example.com."))
      (dkimRule .signed (seen false keyRead keyIface keyDns (keyMsg c!"none._domainkey.example.com.")) DkimSt.init).2).1 = true := by
  decide +kernel

end Verif.Props
