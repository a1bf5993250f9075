import Verif.Model.Py

/-!
# Charsets and locales: `oa/locales.py`, and the rules about far-away charsets in
`oa/plugins/header_eval.py` 76-101 and `oa/plugins/mime_eval.py` 116-126

`email.header.decode_header` is a parameter.
-/

namespace Verif.Locales
open Verif Py

/-- The charsets of the Cyrillic entries (oa/locales.py 14-25). -/
def cyrillic : List Str :=
  [c!"KOI8R", c!"KOI8U", c!"KOI8T", c!"ISOIR111", c!"CP1251", c!"GEORGIANPS", c!"PT154", c!"CP866"]

/-- `UNUSUAL_CHARSETS_FOR_LOCALE` (oa/locales.py 5-34). -/
def unusual : Dict Str (List Str) :=
  [(c!"ja", [c!"EUCJP", c!"JISX020119760", c!"JISX020819830", c!"JISX020819900", c!"JISX020819970", c!"JISX021219900",
      c!"JISX021320001", c!"JISX021320002", c!"SHIFT_JIS", c!"SHIFTJIS", c!"ISO2022JP", c!"SJIS", c!"JIS7", c!"JISX0201",
      c!"JISX0208", c!"JISX0212"]),
   (c!"ko", [c!"EUCKR", c!"KSC56011987"]),
   (c!"ru", cyrillic), (c!"ka", cyrillic), (c!"tg", cyrillic), (c!"be", cyrillic), (c!"uk", cyrillic), (c!"bg", cyrillic),
   (c!"th", [c!"TIS620"]),
   (c!"zh", [c!"GB1988", c!"GB2312", c!"GB231219800", c!"GB18030", c!"GBK", c!"BIG5HKSCS", c!"BIG5", c!"EUCTW",
      c!"ISO2022CN"])]

/-- `ALWAYS_OK_CHARSETS_RE.match` (oa/locales.py 36-48) against a text of capital letters and digits. -/
def alwaysOk (cs : Str) : Bool :=
  decide (cs = c!"USASCII") || startsWith c!"ISO8859" cs || startsWith c!"ISO10646" cs || startsWith c!"UTF" cs ||
    startsWith c!"USC" cs || startsWith c!"CP125" cs || startsWith c!"WINDOWS" cs ||
    startsWith c!"UNICODE11UTF7" cs || startsWith c!"UNICODE11UTF8" cs || decide (cs = c!"XUNKNOWN") || decide (cs = c!"ISO")

/-- `INVALID_CHARACTERS_RE.sub("", charset.upper())` (oa/locales.py 49, 55-56). -/
def clean (cs : Str) : Str :=
  (upper cs).filter fun c => decide ('A' ≤ c) && decide (c ≤ 'Z') || decide ('0' ≤ c) && decide (c ≤ '9')

/-- The loop over the locales (oa/locales.py 61-68). -/
def inLocales (cs : Str) : List Str → Bool
  | [] => false
  | l :: ls =>
    let l := if l = c!"C" then c!"en" else l
    let set := (Dict.get? unusual (l.take 2)).getD []
    if set ≠ [] ∧ cs ∈ set then true else inLocales cs ls

/-- `charset_ok_for_locales` (oa/locales.py 52-68); a missing charset is the empty text. -/
def charsetOk (charset : Option Str) (locales : List Str) : Bool :=
  let cs := clean (charset.getD [])
  if alwaysOk cs then true else inLocales cs locales

/-- `check_for_faraway_charset_in_headers` (oa/plugins/header_eval.py 76-101): the charsets of the parts of each
`Subject` and `From` header, `none` for a header that `decode_header` rejects. -/
def farawayHeaders (okLocales : Str) (headers : List (Option (List (Option Str)))) : Bool :=
  if okLocales = [] ∨ lower okLocales = c!"all" then false
  else headers.any fun h =>
    match h with
    | none => false
    | some parts => parts.any fun cs => !charsetOk cs (splitWs okLocales)

/-- `re.match("[a-z]", charset, re.IGNORECASE)` for an ASCII charset. -/
def startsWithLetter : Str → Bool
  | c :: _ => c.isAlpha
  | [] => false

/-- `_update_faraway_charset` (oa/plugins/mime_eval.py 116-125). -/
def updateFaraway (okLocales : Str) (faraway : Bool) (charset : Option Str) : Bool :=
  match charset with
  | some (c :: cs) =>
    if startsWithLetter (c :: cs) then
      if faraway then faraway
      else if c!"all" ∈ splitWs okLocales then faraway
      else !charsetOk charset (splitWs okLocales)
    else faraway
  | _ => faraway

/-- `mime_faraway_charset` after all parts (oa/plugins/mime_eval.py 207). -/
def farawayMime (okLocales : Str) (charsets : List (Option Str)) : Bool :=
  charsets.foldl (updateFaraway okLocales) false

end Verif.Locales
