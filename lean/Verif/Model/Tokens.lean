import Verif.Model.Re

/-!
# The tokens of a message: `oa/plugins/bayes.py` 500-526, 582-600, 765-959, 1034-1058

The tokens of a message are a set; here they are a list of which only the members count.  Hashing (`sha1`) is left out: it is
applied to each token.
-/

namespace Verif.Tokens
open Verif Py Re

/-! ### Expressions -/

/-- `re.sub` from some place on, for an expression that matches no empty text; `skip` characters belong to the match before. -/
def subGo (r : Re) (f : St → Str) : Nat → Str → Str → Str
  | _, _, [] => []
  | skip + 1, b, c :: cs => subGo r f skip (c :: b) cs
  | 0, b, c :: cs =>
    match m r ⟨b, c :: cs, []⟩ some with
    | none => c :: subGo r f 0 (c :: b) cs
    | some t => f t ++ subGo r f ((c :: cs).length - t.after.length - 1) (c :: b) cs

/-- `re.sub(r, f, text)`. -/
def sub (r : Re) (f : St → Str) (text : Str) : Str := subGo r f 0 [] text

/-- Characters from one code point to another. -/
def between (lo hi : Nat) (c : Char) : Bool := lo ≤ c.toNat && c.toNat ≤ hi

/-- `[A-Za-z0-9,@*!_'"\$.\s-]` (oa/plugins/bayes.py 794). -/
def runChar (c : Char) : Bool := c.isAlphanum || c!",@*!_'\"$.-".contains c || isSpace c

/-- The expression of oa/plugins/bayes.py 794-798.  Its last alternative, `\s.`, is never taken because the first one takes
white space. -/
def runsRe : Re := alts [
  plus runChar,
  .seq (.chr (between 0xC0 0xDF)) (.chr (between 0x80 0xBF)),
  .seq (.chr (between 0xE0 0xEF)) (times (.chr (between 0x80 0xBF)) 2),
  .seq (.chr (between 0xF0 0xF4)) (times (.chr (between 0x80 0xBF)) 3),
  .chr (between 0xA1 0xFF)]

/-- `\w`, for the characters that occur: those of Latin-1. -/
def wordChar (c : Char) : Bool :=
  c.isAlphanum || c == '_' || [0xAA, 0xB2, 0xB3, 0xB5, 0xB9, 0xBA, 0xBC, 0xBD, 0xBE].contains c.toNat ||
    (between 0xC0 0xFF c && c.toNat != 0xD7 && c.toNat != 0xF7)

/-- `(\w)(c{lo,6})(\w)` (oa/plugins/bayes.py 804-805). -/
def separatorRe (c : Char) (lo : Nat) : Re :=
  seqs [.group 1 (.chr wordChar), .group 2 (rep (.chr (fun d => d == c)) lo 6), .group 3 (.chr wordChar)]

/-- `\1 \2 \3`. -/
def apart (t : St) : Str := (t.get 1).getD [] ++ c!" " ++ (t.get 2).getD [] ++ c!" " ++ (t.get 3).getD []

/-- The line that is split into words (oa/plugins/bayes.py 794-805). -/
def clean (line : Str) : Str :=
  sub (separatorRe '-' 2) apart (sub (separatorRe '.' 3) apart (join c!" " (findAll runsRe line)))

/-! ### Words -/

/-- The texts that `GREY_AREA_TOKEN_RE` matches (oa/plugins/bayes.py 34-50). -/
def stopWords : List Str :=
  [c!"able", c!"already", c!"all", c!"and", c!"any", c!"are", c!"because", c!"both", c!"can", c!"come", c!"each", c!"email",
   c!"even", c!"few", c!"first", c!"for", c!"from", c!"give", c!"have", c!"has", c!"http", c!"information", c!"into", c!"it's",
   c!"just", c!"know", c!"like", c!"long", c!"look", c!"made", c!"mail", c!"mailing", c!"mailto", c!"make", c!"many", c!"more",
   c!"most", c!"much", c!"need", c!"not", c!"now", c!"number", c!"off", c!"only", c!"one", c!"out", c!"own", c!"people",
   c!"place", c!"right", c!"same", c!"see", c!"such", c!"that", c!"this", c!"through", c!"the", c!"time", c!"using", c!"web",
   c!"where", c!"why", c!"with", c!"without", c!"world", c!"work", c!"year", c!"years", c!"you", c!"you're", c!"your"]

/-- What is put into the set of tokens: a text, or, by mistake, the generator for an address (oa/plugins/bayes.py 848). -/
inductive Tok where
  | text (s : Str)
  | generator (addr : Str)
deriving DecidableEq

/-- `^[^\.]+\.(.+)$` (oa/plugins/bayes.py 853). -/
def domainRe : Re := seqs [.bol, plus (fun c => c != '.'), .chr (fun c => c == '.'), .group 1 (plus dot), .eol]

/-- The loop of oa/plugins/bayes.py 852-856: `none` if it has not ended after that many rounds.  The replacement `"\1"` is not a
raw string, so it is the character with number 1. -/
def domainLoop : Nat → Str → Option (List Tok)
  | 0, _ => none
  | fuel + 1, bit =>
    let bit := sub domainRe (fun _ => [Char.ofNat 1]) bit
    if bit = [] then some [] else (domainLoop fuel bit).map (fun l => .text (c!"UD:" ++ bit) :: l)

/-- The loop of oa/plugins/bayes.py 866-870. -/
def tuples : Str → List Tok
  | _ :: _ :: c :: rest => .text (c!"8:" ++ c :: rest) :: tuples (c :: rest)
  | _ => []

/-- `MAX_TOKEN_LENGTH` (oa/plugins/bayes.py 457). -/
def maxLength : Nat := 15

/-- What is cut off a word on both sides (oa/plugins/bayes.py 822-824). -/
def edgeChars : Str := c!"-'\".,"

/-- The end of the loop over words (oa/plugins/bayes.py 858-886), for a word that is kept. -/
def keep (tokprefix : Str) (region : Nat) (token : Str) : List Tok :=
  let long := token.length > maxLength && !token.contains '*'
  if long && (token.take 2).length = 2 && (token.take 2).all (between 0xA0 0xFF) then tuples token
  else
    let token := if long && (region = 0 || region = 1) then c!"sk:" ++ token.take 7 else token
    let decomposed := token.filter (fun c => wordChar c || c == ':' || c == '*')
    (if region = 1 || region = 2 then
      [.text (tokprefix ++ decomposed), .text (tokprefix ++ lower decomposed), .text (tokprefix ++ lower token)]
     else []) ++ [.text (tokprefix ++ token)]

/-- `re.match(r"\S\@\S", token)` (oa/plugins/bayes.py 847). -/
def startsAddress : Str → Bool
  | a :: b :: c :: _ => nonSpace a && b == '@' && nonSpace c
  | _ => false

/-- `re.match(r"\S\.[a-z]", token, re.I)` (oa/plugins/bayes.py 849). -/
def startsDomain : Str → Bool
  | a :: b :: c :: _ => nonSpace a && b == '.' && c.isAlpha
  | _ => false

/-- One round of the loop over words (oa/plugins/bayes.py 821-886): `none` if it does not end within that many rounds of the
inner loop.  The stores have no `magic_re`. -/
def wordTokens (fuel : Nat) (tokprefix : Str) (region : Nat) (word : Str) : Option (List Tok) :=
  let token := rstripBy (fun c => edgeChars.contains c) (lstripChars edgeChars word)
  if token.length < 3 then some []
  else if stopWords.contains token then some []
  else if (region = 1 || region = 2) && startsAddress token then
    some (.generator token :: keep tokprefix region token)
  else if (region = 1 || region = 2) && startsDomain token then
    (domainLoop fuel token).map (fun l => .text (c!"UD:" ++ token) :: (l ++ keep tokprefix region token))
  else some (keep tokprefix region token)

/-- `_tokenise_line` (oa/plugins/bayes.py 789-887). -/
def tokeniseLine (fuel : Nat) (line tokprefix : Str) (region : Nat) : Option (List Tok) :=
  ((splitWs (clean line)).mapM (wordTokens fuel tokprefix region)).map List.flatten

/-! ### Headers -/

/-- `_tokenise_mail_addrs` (oa/plugins/bayes.py 1050-1058): what follows each dot of the domain. -/
def parents : Str → List Str
  | [] => []
  | c :: cs => if c = '.' then cs :: parents cs else parents cs

/-- `_tokenise_mail_addrs` (oa/plugins/bayes.py 1050-1058). -/
def mailAddrs (addr : Str) : List Str :=
  match rsplit1 '@' addr with
  | none => []
  | some (localPart, domain) => (c!"U*" ++ localPart) :: (c!"D*" ++ domain) :: parents domain

/-- The characters of the local part in oa/plugins/bayes.py 1036. -/
def addrChar (c : Char) : Bool := c.isLower || c.isDigit || c!"-_+:=!#$%&*^?{}|~/.".contains c

/-- Those of the domain. -/
def hostChar (c : Char) : Bool := c.isLower || c.isDigit || c!"-_+:/".contains c

/-- The expression of oa/plugins/bayes.py 1036. -/
def addrRe : Re := seqs [opt (lit c!"mailto:"), sp,
  .group 1 (seqs [plus addrChar, .chr (fun c => c == '@'), plus hostChar]), plus hostChar]

/-- `find_all_addrs_in_line` (oa/plugins/bayes.py 1034-1041): the first character of each group. -/
def findAddrs (line : Str) : List Str :=
  match search addrRe line with
  | none => []
  | some t => [((t.get 1).getD []).take 1]

/-- `_pre_chew_addr_header` (oa/plugins/bayes.py 1043-1047). -/
def chewAddr (val : Str) : Str := join c!" " ((findAddrs val).flatMap mailAddrs)

/-- How the values of some headers are prepared: `_pre_chew_message_id`, `_pre_chew_received` and `_pre_chew_content_type`
(oa/plugins/bayes.py 961-1032). The functions here take them as parameters; they are modelled in `Verif.Model.Chew`. -/
structure Chew where
  messageId : Str → Str
  received : Str → Str
  contentType : Str → Str

/-- `ADDR_HEADERS` (oa/plugins/bayes.py 52-58). -/
def addrHeaders : List Str :=
  [c!"return-path", c!"from", c!"to", c!"cc", c!"reply-to", c!"errors-to", c!"mail-followup-to", c!"sender", c!"x-return-path",
   c!"x-from", c!"x-to", c!"x-cc", c!"x-reply-to", c!"x-errors-to", c!"x-mail-followup-to", c!"x-sender",
   c!"resent-return-path", c!"resent-from", c!"resent-to", c!"resent-cc", c!"resent-reply-to", c!"resent-errors-to",
   c!"resent-mail-followup-to", c!"resent-sender"]

/-- `IGNORED_HEADERS` (oa/plugins/bayes.py 213-368), in small letters. -/
def ignoredHeaders : List Str :=
  [c!"content-class", c!"content-length", c!"date", c!"delivered-to", c!"delivery-date", c!"envelope-to", c!"forwarded",
   c!"lines", c!"list-admin", c!"list-archive", c!"list-comment", c!"list-help", c!"list-host", c!"list-id", c!"list-manager",
   c!"list-name", c!"list-owner", c!"list-post", c!"list-subscribe", c!"list-unsubscribe", c!"list-url", c!"mail-followup-to",
   c!"mailing-list", c!"original-date", c!"original-from", c!"original-to", c!"replied", c!"resent-date", c!"resent-from",
   c!"resent-to", c!"sender", c!"spam", c!"status", c!"subject", c!"thread-index", c!"thread-topic", c!"x-antispam",
   c!"x-ap-spam-score", c!"x-ap-spam-status", c!"x-beenthere", c!"x-bogosity", c!"x-converted-to-plain-text",
   c!"x-egroups-from", c!"x-egroups-return", c!"x-envelope-to", c!"x-filtered-by", c!"x-flags", c!"x-gnus-mail-source",
   c!"x-imapbase", c!"x-keywords", c!"x-list", c!"x-list-admin", c!"x-list-archive", c!"x-list-comment", c!"x-list-help",
   c!"x-list-host", c!"x-list-id", c!"x-list-manager", c!"x-list-name", c!"x-list-owner", c!"x-list-post",
   c!"x-list-subscribe", c!"x-list-unsubscribe", c!"x-list-url", c!"x-loop", c!"x-mailing-list", c!"x-mailman-version",
   c!"x-mailscanner", c!"x-mailscanner-spamcheck", c!"x-mass-check-id", c!"x-mdaemon-deliver-to", c!"x-mdmailing-list",
   c!"x-mime-autoconverted", c!"x-original-date", c!"x-original-from", c!"x-original-to", c!"x-originalarrivaltime",
   c!"x-perlmx-spam", c!"x-pyzor", c!"x-rbl-warning", c!"x-resent-date", c!"x-resent-from", c!"x-resent-to",
   c!"x-ripe-spam-status", c!"x-scanned-by", c!"x-scanner", c!"x-sender", c!"x-smtpd", c!"x-smtpd spam-apparently-to",
   c!"x-smtpd x-spam-apparently-to", c!"x-spam", c!"x-spam-checker-version", c!"x-spam-flag-version", c!"x-spam-hits-version",
   c!"x-spam-level-version", c!"x-spam-report-version", c!"x-spam-score-version", c!"x-spam-status-version", c!"x-status",
   c!"x-uid", c!"x-uidl", c!"x-unsub", c!"x-unsubscribe", c!"x-virus-scanned", c!"x-vm-bookmark", c!"x-vm-imap-retrieved",
   c!"x-vm-labels", c!"x-vm-last-modified", c!"x-vm-message-order", c!"x-vm-pop-retrieved", c!"x-vm-summary-format",
   c!"x-vm-v0-data", c!"x-vm-v1-data", c!"x-vm-v2-data", c!"x-vm-v3-data", c!"x-vm-v4-data", c!"x-vm-v5-data",
   c!"x-vm-v6-data", c!"x-vm-v7-data", c!"x-vm-v8-data", c!"x-vm-v9-data", c!"x-vm-vheader", c!"x-xemacs-list", c!"xref"]

/-- `MARK_PRESENCE_ONLY_HEADERS` (oa/plugins/bayes.py 372-384), in small letters. -/
def presenceHeaders : List Str :=
  [c!"dkim-signature", c!"domainkey-signature", c!"x-face", c!"x-gnu-pg-fingerprint", c!"x-gnu-pg-key-fingerprint",
   c!"x-gnupg-fingerprint", c!"x-gnupg-key-fingerprint", c!"x-gpg-fingerprint", c!"x-gpg-key-fingerprint",
   c!"x-pgp-fingerprint", c!"x-pgp-key-fingerprint"]

/-- `HEADER_NAME_COMPRESSION.get(header, header)` (oa/plugins/bayes.py 419-437).  The names of headers are in small letters here
(oa/message.py 77-95), so only two entries can be found. -/
def compress (header : Str) : Str :=
  if header = c!"x-spam-relays-trusted" then c!"*RT"
  else if header = c!"x-spam-relays-untrusted" then c!"*RU"
  else header

/-- The value that is used (oa/plugins/bayes.py 931-942). -/
def chew (C : Chew) (h val : Str) : Str :=
  if [c!"message-id", c!"x-message-id", c!"resent-message-id"].contains h then C.messageId val
  else if addrHeaders.contains h then chewAddr val
  else if h = c!"received" then C.received val
  else if h = c!"content-type" then C.contentType val
  else if h = c!"mime-version" then replace c!"1.0" [] val
  else if presenceHeaders.contains h then c!"1"
  else val

/-- `_parse_special_header` (oa/plugins/bayes.py 930-959): the new name and the new dictionary.  `h` is the name of the header
and in small letters already. -/
def parseSpecial (C : Chew) (h : Str) (parsed : Dict Str Str) (val : Str) : Str × Dict Str Str :=
  let val := chew C h val
  let parsed := if [c!"in-reply-to", c!"references", c!"message-id"].contains h then Dict.set parsed c!"*MI" val else parsed
  let parsed := if [c!"from", c!"to", c!"cc"].contains h then Dict.set parsed c!"*Ad" val else parsed
  let parsed := if [c!"x-mailer", c!"user-agent"].contains h then Dict.set parsed c!"*UA" val else parsed
  let header := compress h
  match Dict.get? parsed header with
  | some old => (header, Dict.set parsed header (old ++ c!" " ++ val))
  | none => (header, Dict.set parsed header val)

/-- The loop over the values of a header (oa/plugins/bayes.py 916-927).  The name used for the next value is the one returned. -/
def headerValues (C : Chew) (ignored : List Str) : Str → List Str → Dict Str Str → Dict Str Str
  | _, [], parsed => parsed
  | h, v :: vs, parsed =>
    if ignored.contains (lower h) then headerValues C ignored h vs parsed
    else
      let r := parseSpecial C (lower h) parsed (rstripBy isSpace v)
      headerValues C ignored r.1 vs r.2

/-- `_tokenise_headers` (oa/plugins/bayes.py 889-928).  `headers` are the names, in small letters, with their values; the order is
that in which Python enumerates the set of names. -/
def tokeniseHeaders (C : Chew) (userIgnore : List Str) (headers : List (Str × List Str)) : Dict Str Str :=
  (headers.filter (fun h => !ignoredHeaders.contains h.1)).foldl (fun parsed h =>
    headerValues C (userIgnore.map lower) h.1
      (if h.1 = c!"received" then h.2.drop (h.2.length - 2) else h.2) parsed) []

/-! ### Messages -/

/-- Where `str.splitlines` splits. -/
def lineEnd (c : Char) : Bool :=
  (10 ≤ c.toNat && c.toNat ≤ 13) || (28 ≤ c.toNat && c.toNat ≤ 30) || [0x85, 0x2028, 0x2029].contains c.toNat

/-- `str.splitlines`, with the line begun; empty lines more or less are of no importance here, so `\r\n` ends two lines. -/
def splitLines : Str → Str → List Str
  | cur, [] => if cur = [] then [] else [cur]
  | cur, c :: cs => if lineEnd c then cur :: splitLines [] cs else splitLines (cur ++ [c]) cs

/-- `get_body_text_array_common` (oa/plugins/bayes.py 582-593).  The expression ` \t\n\r\x0b` has no brackets, so it stands for
these five characters one after the other. -/
def textLines (text : Str) : List Str :=
  let text := sub (seqs [plus (fun c => c == '\n'), .star true isSpace, plus (fun c => c == '\n')]) (fun _ => ['\x0c']) text
  let text := sub (lit [' ', '\t', '\n', '\r', '\x0b']) (fun _ => c!" ") text
  let text := sub (.chr (fun c => c == '\x0c')) (fun _ => ['\n']) text
  splitLines [] text

/-- What tokens are made from: the subject, the parts with their types and texts, and the headers as for `tokeniseHeaders`. -/
structure Mail where
  subject : Option Str
  parts : List (Str × Str)
  headers : List (Str × List Str)

/-- `rendered` (oa/plugins/bayes.py 507, 511-513, 522). -/
def rendered (msg : Mail) : Str :=
  join c!"\n" ((match msg.subject with
    | none => c!"\n"
    | some s => if s = [] then c!"\n" else s) ::
      (msg.parts.filter (fun p => p.1 = c!"text/plain")).map (fun p => p.2))

/-- `invisible_rendered` (oa/plugins/bayes.py 509, 523): nothing is ever added. -/
def invisible (_msg : Mail) : Str := join c!"\n" []

inductive Result where
  /-- not ended after so many rounds -/
  | running
  /-- the `AttributeError` at a generator -/
  | failed
  | tokens (l : List Str)
deriving DecidableEq

/-- `token.encode("utf8")` for all of them, without empty ones (oa/plugins/bayes.py 784-787). -/
def texts : List Tok → Option (List Str)
  | [] => some []
  | .generator _ :: _ => none
  | .text s :: l => (texts l).map (fun r => if s = [] then r else s :: r)

/-- The lines with the prefix of their tokens and the region (oa/plugins/bayes.py 767-779); the list of links is always empty
(526). -/
def sources (C : Chew) (userIgnore : List Str) (msg : Mail) : List (Str × Str × Nat) :=
  (textLines (rendered msg)).map (fun l => (l, [], 1)) ++
    (textLines (invisible msg)).map (fun l => (l, c!"I*:", 1)) ++
    (tokeniseHeaders C userIgnore msg.headers).map (fun h => (h.2, c!"H" ++ h.1 ++ c!":", 0))

/-- `tokenise` (oa/plugins/bayes.py 765-787), for that many rounds of the loop in `_tokenise_line`. -/
def tokenise (C : Chew) (userIgnore : List Str) (fuel : Nat) (msg : Mail) : Result :=
  match (sources C userIgnore msg).mapM (fun l => tokeniseLine fuel l.1 l.2.1 l.2.2) with
  | none => .running
  | some ts =>
    match texts ts.flatten with
    | none => .failed
    | some l => .tokens l.eraseDups

end Verif.Tokens
