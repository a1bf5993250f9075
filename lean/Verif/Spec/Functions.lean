import Verif.Model.Functions
import Verif.Spec.Scan
import Verif.Spec.Redirect
import Verif.Spec.BodyEval
import Verif.Spec.Decimal
import Verif.Spec.HeaderRules
import Verif.Spec.HeaderChars
import Verif.Spec.Forgery
import Verif.Spec.Stock

/-!
# What functions of plugins say about a message
-/

namespace Verif.Spec
open Verif Py Functions

/-- Blanks and tabs. -/
def Blanks (s : Str) : Prop := ∀ c ∈ s, c = ' ' ∨ c = '\t'

/-- An argument as it is written in a rule: a number in decimal digits or a text in quotes, possibly with blanks around it. -/
inductive Literal : Str → Value → Prop
  | num {pre digits post} {n : Nat} : Blanks pre → Blanks post → Decimal digits n → Literal (pre ++ digits ++ post) (.num n)
  | neg {pre digits post} {n : Nat} : Blanks pre → Blanks post → Decimal digits n → Literal (pre ++ '-' :: digits ++ post) (.num (-(n : Int)))
  | text {pre s post} {q : Char} : Blanks pre → Blanks post → q = '"' ∨ q = '\'' → q ∉ s → '\\' ∉ s → '\n' ∉ s →
      Literal (pre ++ (q :: s ++ [q]) ++ post) (.str s)

/-- The text that a rule of this kind is about. -/
def aboutText (m : Facts) (target : Str) : Str := if target = c!"rawbody" then m.rawText else m.text

/-- The values of the headers with this name. -/
def under (m : Facts) (name : Str) : List Str := (m.headers.filter (fun p => lower p.1 == lower name)).map Prod.snd

/-- A share that is given as a number or as a text. -/
inductive Share (F : FunEnv) : Value → Rat → Prop
  | num {n : Int} : Share F (.num n) n
  | text {s r} : F.float s = some r → Share F (.str s) r

/-- What the functions ask about a message: function, arguments, kind of the rule, and when the answer is yes. -/
inductive Judges (F : FunEnv) (m : Facts) : Str → List Value → Str → Prop → Prop
  /-- An address leads to another host. -/
  | redirector {t} : (∀ u ∈ m.uris, '\n' ∉ u) →
      (∀ u ∈ m.uris, ∀ v src dest, Led (hostOf F.url) u v → Hop v src dest → F.url.parse src ≠ none ∧ F.url.parse dest ≠ none) →
      Judges F m c!"check_for_http_redirector" [] t
        (∃ u ∈ m.uris, ∃ v src dest, Led (hostOf F.url) u v ∧ Hop v src dest ∧ hostOf F.url src ≠ hostOf F.url dest)
  /-- No header tells to whom it goes. -/
  | missingTo {t} : Judges F m c!"check_for_missing_to_header" [] t (under m c!"To" = [] ∧ under m c!"Apparently-To" = [])
  /-- The number of headers is between two bounds. -/
  | countRange {t name} {lo hi : Int} : (under m name).Nodup →
      Judges F m c!"check_header_count_range" [.str name, .num lo, .num hi] t
        (lo ≤ ((under m name).length : Int) ∧ ((under m name).length : Int) ≤ hi)
  /-- White space in relation to the rest, in percent. -/
  | verticalWords {t} {lo hi : Int} :
      Judges F m c!"tvd_vertical_words" [.num lo, .num hi] t
        ((∃ c ∈ aboutText m t, isSpace c = false) ∧
          (lo : Rat) * (((aboutText m t).filter fun c => !isSpace c).length : Rat) ≤ (((aboutText m t).filter isSpace).length : Rat) * 100 ∧
          (((aboutText m t).filter isSpace).length : Rat) * 100 ≤ (hi : Rat) * (((aboutText m t).filter fun c => !isSpace c).length : Rat))
  /-- Empty lines in relation to all, in percent. -/
  | blankLines {t} {lo hi n : Int} : m.rawText.head? ≠ some '\n' → ¬ c!"\n\n\n" <:+: m.rawText →
      Judges F m c!"check_blank_line_ratio" [.num lo, .num hi, .num n] t
        (BodyEval.linesOf m.rawText ≠ [] ∧ n ≤ ((BodyEval.linesOf m.rawText).length : Int) ∧
          (lo : Rat) * ((BodyEval.linesOf m.rawText).length : Rat) ≤ ((BodyEval.linesOf m.rawText).count [] : Rat) * 100 ∧
          ((BodyEval.linesOf m.rawText).count [] : Rat) * 100 ≤ (hi : Rat) * ((BodyEval.linesOf m.rawText).length : Rat))
  /-- Without a third argument, one line is enough. -/
  | anyLines {t P} {lo hi : Int} : Judges F m c!"check_blank_line_ratio" [.num lo, .num hi, .num 1] t P →
      Judges F m c!"check_blank_line_ratio" [.num lo, .num hi] t P
  /-- The number of words with a term of the stock market in them. -/
  | stock {t l} {n : Int} : WordsOf (Content.isWord F.wide) true (aboutText m t) l → (∀ p ∈ l, OneTerm (Content.isWord F.wide) p) →
      Judges F m c!"check_stock_info" [.num n] t (n ≤ ((l.filter fun p => open Classical in decide (HasTerm (Content.isWord F.wide) p)).length : Int))
  /-- A subject is in capital letters. -/
  | capitals {t} : Judges F m c!"subject_is_all_caps" [] t
      (∃ s ∈ (under m c!"Subject").map m.dec, ∃ u, HeaderRules.Unmarked s u ∧ HeaderRules.Caps F.up F.low u)
  /-- The address of a recipient is in the first subject. -/
  | address {t} : Judges F m c!"check_for_to_in_subject" [.str c!"address"] t
      (∃ to ∈ addressesOf m.dec m.addrs m.headers c!"To", ∃ a y b, (under m c!"Subject").headD [] = a ++ y ++ b ∧ lower y = lower to)
  /-- The first subject speaks to a recipient. -/
  | user {t} : (∀ c, isSpace c = true → F.wide c = false) → Judges F m c!"check_for_to_in_subject" [.str c!"user"] t
      (∃ to ∈ addressesOf m.dec m.addrs m.headers c!"To", ∃ user, HeaderRules.UserOf to user ∧
        HeaderRules.Speaks F.wide user ((under m c!"Subject").headD []))
  /-- A line has a placeholder in it. -/
  | template {t lines} : lines ≠ [] → (∀ l ∈ lines, '\n' ∉ l) → m.raw = join c!"\n" lines →
      Judges F m c!"check_unresolved_template" [] t (∃ l ∈ lines, Forgery.Template l ∧ ¬ Forgery.Exempt l)
  /-- A relay of AOL that is none. -/
  | relay {t} : Judges F m c!"check_for_fake_aol_relay_in_rcvd" [] t
      (∃ h ∈ (under m c!"Received").map m.dec, Forgery.RelayName h ∧ ¬ Forgery.AolVersion h ∧ ¬ Forgery.AolId h)
  /-- A line of a gateway. -/
  | gateway {t} : Judges F m c!"check_for_forged_gw05_received_headers" [] t
      (∃ h ∈ (under m c!"Received").map m.dec, ∃ h1 h2 line rest, h = line ++ rest ∧ Forgery.Gateway h1 h2 line ∧ h2 ≠ c!".")
  /-- Characters that are not ASCII in a header. -/
  | illegal {t name v} {ratio : Rat} {count : Int} : name ≠ c!"ALL" → lower name ≠ c!"subject" → Share F v ratio →
      Judges F m c!"check_illegal_chars" [.str name, v, .num count] t
        (HeaderChars.TooMany (HeaderChars.nonAscii (under m name).flatten) (under m name).flatten.length ratio count)
  /-- In subjects one sign does not count, if no other is there. -/
  | illegalSubject {t name v} {ratio : Rat} {count : Int} : lower name = c!"subject" → Share F v ratio →
      Judges F m c!"check_illegal_chars" [.str name, v, .num count] t
        (HeaderChars.TooMany (HeaderChars.nonAscii (under m name).flatten -
            (if (c!"¢£®".filter fun c => decide (c ∈ (under m name).flatten)).length = 1 then 1 else 0))
          (under m name).flatten.length ratio count)

end Verif.Spec
