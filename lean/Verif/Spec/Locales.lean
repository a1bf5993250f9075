import Verif.Model.Locales

/-!
# Specification of charsets and locales
-/

namespace Verif.Locales
open Verif Py

/-- The name of a charset without punctuation, in capital letters. -/
def bare (cs : Str) : Str := (cs.map Char.toUpper).filter fun c => c.isUpper || c.isDigit

/-- Charsets that are acceptable everywhere. -/
def Universal (name : Str) : Prop :=
  name ∈ [c!"USASCII", c!"XUNKNOWN", c!"ISO"] ∨
    ∃ p ∈ [c!"ISO8859", c!"ISO10646", c!"UTF", c!"CP125", c!"WINDOWS", c!"UNICODE11UTF7", c!"UNICODE11UTF8"], p <+: name

/-- The charsets of a language. -/
def charsetsOf (lang : Str) : List Str :=
  if lang = c!"ja" then
    [c!"EUCJP", c!"ISO2022JP", c!"JIS7", c!"JISX0201", c!"JISX020119760", c!"JISX0208", c!"JISX020819830",
     c!"JISX020819900", c!"JISX020819970", c!"JISX0212", c!"JISX021219900", c!"JISX021320001", c!"JISX021320002",
     c!"SHIFTJIS", c!"SJIS"]
  else if lang = c!"ko" then [c!"EUCKR", c!"KSC56011987"]
  else if lang ∈ [c!"be", c!"bg", c!"ka", c!"ru", c!"tg", c!"uk"] then
    [c!"CP1251", c!"CP866", c!"GEORGIANPS", c!"ISOIR111", c!"KOI8R", c!"KOI8T", c!"KOI8U", c!"PT154"]
  else if lang = c!"th" then [c!"TIS620"]
  else if lang = c!"zh" then
    [c!"BIG5", c!"BIG5HKSCS", c!"EUCTW", c!"GB18030", c!"GB1988", c!"GB2312", c!"GB231219800", c!"GBK", c!"ISO2022CN"]
  else []

/-- A charset is acceptable in some of the locales. -/
def Acceptable (cs : Str) (locales : List Str) : Prop :=
  Universal (bare cs) ∨ ∃ l ∈ locales, bare cs ∈ charsetsOf (l.take 2)

end Verif.Locales
