import Verif.Model.Tokens

/-!
# How the values of some headers are prepared for the classifier
-/

namespace Verif.Chew
open Verif Py Re Tokens

/-- `[0-9a-f]` -/
def hexSmall (c : Char) : Bool := c.isDigit || ('a' ≤ c && c ≤ 'f')

/-- `[a-fA-F0-9]` -/
def hexAny (c : Char) : Bool := c.isDigit || ('a' ≤ c && c ≤ 'f') || ('A' ≤ c && c ≤ 'F')

/-- `[A-F0-9]` -/
def hexBig (c : Char) : Bool := c.isDigit || ('A' ≤ c && c ≤ 'F')

/-- `[\dA-Z]` -/
def digitBig (c : Char) : Bool := c.isDigit || c.isUpper

/-- `[A-Za-z0-9]` -/
def alnum (c : Char) : Bool := c.isAlphanum

/-- `[-_\.=]` -/
def separator (c : Char) : Bool := c == '-' || c == '_' || c == '.' || c == '='

/-- One of some characters. -/
def oneOf (s : Str) : Re := .chr (fun c => s.contains c)

/-- `boundary=[\"\'](.*?)[\"\']` with `re.I` (oa/plugins/bayes.py 965). -/
def boundaryRe : Re := seqs [ilit c!"boundary=", oneOf c!"\"'", .group 1 (.star false dot), oneOf c!"\"'"]

/-- `\b(?:…)\b` -/
def wordRe (words : List Str) : Re := seqs [.wordb, alts (words.map lit), .wordb]

/-- `_pre_chew_content_type` (oa/plugins/bayes.py 961-974).  `" \1 "` is not a raw string, so it stands for the character U+0001. -/
def chewContentType (val : Str) : Str :=
  let val := match search boundaryRe val with
    | some t =>
      let boundary := sub (.chr hexAny) (fun _ => c!"H") ((t.get 1).getD [])
      let boundary := sub (.group 1 (plus separator)) (fun _ => [' ', Char.ofNat 1, ' ']) boundary
      val ++ boundary
    | none => val
  sub (wordRe [c!"text", c!"charset"]) (fun _ => []) val

/-- The expression for Outlook Express (oa/plugins/bayes.py 983-986). -/
def outlookRe : Re :=
  seqs [lit c!"<", .group 1 (times (.chr hexSmall) 4), times (.chr hexSmall) 4, times (.chr hexSmall) 4, lit c!"$",
    .group 2 (times (.chr hexSmall) 4), times (.chr hexSmall) 4, lit c!"$", .group 3 (times (.chr hexSmall) 8), lit c!"@",
    .group 4 (plus nonSpace), lit c!">"]

/-- What is put in its place (oa/plugins/bayes.py 987). -/
def outlookOut (t : St) : Str :=
  c!" OEA" ++ (t.get 1).getD [] ++ c!" OEB" ++ (t.get 2).getD [] ++ c!" OEC" ++ (t.get 3).getD [] ++ c!" " ++ (t.get 4).getD [] ++ c!" "

/-- The expression for Exim (oa/plugins/bayes.py 990). -/
def eximRe : Re :=
  seqs [lit c!"<", times (.chr alnum) 7, lit c!"-", times (.chr alnum) 6, lit c!"-0", .chr alnum, lit c!"@"]

/-- The expression for Sendmail (oa/plugins/bayes.py 993-994). -/
def sendmailRe : Re :=
  seqs [lit c!"<20", .chr digit, .chr digit, oneOf c!"01", .chr digit, oneOf c!"0123", .chr digit, oneOf c!"012", .chr digit,
    oneOf c!"012345", .chr digit, oneOf c!"012345", .chr digit, lit c!".", rep (.chr hexBig) 10 12, lit c!"@"]

/-- `_pre_chew_message_id` (oa/plugins/bayes.py 976-1001). -/
def chewMessageId (val : Str) : Str :=
  let val := sub outlookRe outlookOut val
  let val := sub eximRe (fun _ => []) val
  let val := sub sendmailRe (fun _ => []) val
  sub (.chr (fun c => !isWord c)) (fun _ => c!" ") val

/-- `\swith\sSMTP\sid\sg[\dA-Z]{10,12}\s` (oa/plugins/bayes.py 1007). -/
def smtpIdRe : Re := seqs [sp, lit c!"with", sp, lit c!"SMTP", sp, lit c!"id", sp, lit c!"g", rep (.chr digitBig) 10 12, sp]

/-- `\swith\sESMTP\sid\s[\dA-F]{10,12}\s` (oa/plugins/bayes.py 1008). -/
def esmtpIdRe : Re := seqs [sp, lit c!"with", sp, lit c!"ESMTP", sp, lit c!"id", sp, rep (.chr hexBig) 10 12, sp]

/-- `\bid\s[a-zA-Z0-9]{7,20}\b` (oa/plugins/bayes.py 1009). -/
def idRe : Re := seqs [.wordb, lit c!"id", sp, rep (.chr alnum) 7 20, .wordb]

/-- `\bid\s[A-Za-z0-9]{7}-[A-Za-z0-9]{6}-0[A-Za-z0-9]` (oa/plugins/bayes.py 1010-1011). -/
def eximIdRe : Re :=
  seqs [.wordb, lit c!"id", sp, times (.chr alnum) 7, lit c!"-", times (.chr alnum) 6, lit c!"-0", .chr alnum]

/-- `(?:\s*\(|\)|\s*(?:[+-][0-9]{4})|\s*(?:UT|[A-Z]{2,3}T))` (oa/plugins/bayes.py 1019). -/
def zoneRe : Re :=
  alts [.seq (.star true isSpace) (lit c!"("), lit c!")", seqs [.star true isSpace, oneOf c!"+-", times (.chr digit) 4],
    .seq (.star true isSpace) (.alt (lit c!"UT") (.seq (rep (.chr Char.isUpper) 2 3) (lit c!"T")))]

/-- The expression for dates (oa/plugins/bayes.py 1013-1019).  `n` bounds how often the last part is repeated; the length of the text
is enough, as every repetition takes a character. -/
def dateRe (n : Nat) : Re :=
  seqs [opt (seqs [alts ([c!"Mon", c!"Tue", c!"Wed", c!"Thu", c!"Fri", c!"Sat", c!"Sun"].map lit), lit c!",", sp]),
    opt (.chr (fun c => c!"0123".contains c || isSpace c)), .chr digit, sp,
    alts [lit c!"Jan", lit c!"Feb", .seq (lit c!"Ma") (oneOf c!"ry"), lit c!"Apr", .seq (lit c!"Ju") (oneOf c!"nl"), lit c!"Aug",
      lit c!"Sep", lit c!"Oct", lit c!"Nov", lit c!"Dec"], sp,
    opt (.alt (lit c!"19") (lit c!"20")), times (.chr digit) 2, sp,
    oneOf c!"012", .chr digit, rep (seqs [lit c!":", oneOf c!"012345", .chr digit]) 1 2, sp, upTo zoneRe n]

/-- The words that are trimmed (oa/plugins/bayes.py 1031). -/
def receivedWords : List Str := [c!"with", c!"from", c!"for", c!"SMTP", c!"ESMTP"]

/-- `_pre_chew_received` (oa/plugins/bayes.py 1003-1032). -/
def chewReceived (val : Str) : Str :=
  let val := sub smtpIdRe (fun _ => c!" ") val
  let val := sub esmtpIdRe (fun _ => c!" ") val
  let val := sub idRe (fun _ => c!" ") val
  let val := sub eximIdRe (fun _ => c!" ") val
  let val := sub (dateRe val.length) (fun _ => []) val
  sub (wordRe receivedWords) (fun _ => c!" ") val

/-- How the values are prepared. -/
def chews : Chew := ⟨chewMessageId, chewReceived, chewContentType⟩

end Verif.Chew
