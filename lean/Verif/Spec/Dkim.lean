import Verif.Model.Dkim
import Verif.Spec.Wlbl
import Verif.Spec.SenderAuth

/-!
# Specification of DKIM whitelists, signing practices and named domains
-/

namespace Verif.Dkim
open Verif Py SenderAuth

/-- An entry of a whitelist as the documentation describes it: a pattern for author addresses, and the domains that may sign. -/
structure Entry where
  pattern : Str
  signers : List Str

/-- How an entry is written. -/
def Entry.text (e : Entry) : Str := join c!" " (e.pattern :: e.signers)

/-- A word that can be written in a list: no white space and no comma. -/
def Plainly (w : Str) : Prop := w ≠ [] ∧ ∀ c ∈ w, isSpace c = false ∧ c ≠ ','

/-- Characters with a meaning in expressions, other than `.` and `*`. -/
def meaningful : Str := c!"\\^$+?()[]{}|"

/-- Patterns for which the documentation gives a meaning: besides ordinary characters only `*`. -/
def Pattern (p : Str) : Prop := Plainly p ∧ ∀ c ∈ p, c ∉ meaningful

/-- An entry that can be written in a list. -/
def Entry.Fine (e : Entry) : Prop := Pattern e.pattern ∧ ∀ d ∈ e.signers, Plainly d

/-- The message is on the list: it has a verified signature of a domain of an author, an entry that has not been removed stands for
the address of an author, and the signature is of a domain the entry allows. -/
def OnList (entries : List Entry) (removed : List Str) (m : DkimMsg) : Prop :=
  Verified m ∧ ∃ a ∈ m.addrs, ∃ e ∈ entries, e.pattern ∉ removed ∧ Wlbl.Covers e.pattern a ∧
    (e.signers = [] ∨ ∃ d ∈ e.signers, m.parsed = some (some d))

/-- The value of an option of type `list` is these entries: they are in the last line with the option, separated by commas. -/
def Lists (lines entries : List Str) : Prop :=
  (lines = [] ∧ entries = []) ∨
    (entries ≠ [] ∧ (∀ e ∈ entries, ',' ∉ e) ∧ lines.getLast? = some (join c!"," entries))

/-- What the code makes of a pattern: `*` is any text and `.` any character (but no line break), and anything may follow. -/
inductive Begins : Str → Str → Prop where
  | nil (t : Str) : Begins [] t
  | star (p t u : Str) : '\n' ∉ t → Begins p u → Begins ('*' :: p) (t ++ u)
  | dot (p u : Str) (c : Char) : c ≠ '\n' → Begins p u → Begins ('.' :: p) (c :: u)
  | lit (p u : Str) (c : Char) : c ≠ '*' → c ≠ '.' → Begins p u → Begins (c :: p) (c :: u)

/-- What the code takes for the domain that must have signed: the last one of the entry. -/
def LastSigner (e : Entry) (d : Str) : Prop := e.signers.getLast? = some d

/-- The code looks for a pattern anywhere in a domain. -/
def Inside (p d : Str) : Prop := ∃ x y, d = x ++ y ∧ Begins p y

/-- The check of the signature ended without an exception. -/
def Checked (m : DkimMsg) : Prop := m.parsed ≠ none ∧ m.verify ≠ .otherError

/-- The keywords for signing practices and the letters for them. -/
def practices : List (Str × Str) :=
  [(c!"A", c!"all"), (c!"D", c!"discardable"), (c!"N", c!"nxdomain"), (c!"1", c!"custom_low"), (c!"2", c!"custom_med"),
   (c!"3", c!"custom_high"), (c!"U", c!"unknown")]

/-- An override, written like an entry of a whitelist, gives a domain the practice with that letter. -/
def Overrides (entries : List Entry) (removed : List Str) (letter d : Str) : Prop :=
  ∃ e ∈ entries, e.pattern ∉ removed ∧ Inside e.pattern d ∧ ∃ k, LastSigner e k ∧ (letter, lower k) ∈ practices

/-- No character with a special meaning. -/
def Literal (d : Str) : Prop := ∀ c ∈ d, c ∉ meaningful ∧ c ≠ '*'

/-- The domain is the named one or below it. -/
def Below (named d : Str) : Prop := d = named ∨ ∃ x, d = x ++ '.' :: named

/-- A name with a dot: what comes before the last two labels, and these. -/
def Labels (dom rest a b : Str) : Prop := '.' ∉ a ∧ '.' ∉ b ∧ (dom = a ++ '.' :: b ∧ rest = [] ∨ dom = rest ++ '.' :: a ++ '.' :: b)

/-- What the code takes for a named domain: the last two labels of a name of the rule occur somewhere in the domain. -/
def NamedIn (args : List Str) (d : Str) : Prop := ∃ dom ∈ args, ∃ rest a b, Labels dom rest a b ∧ (a ++ '.' :: b) <:+: d

end Verif.Dkim
