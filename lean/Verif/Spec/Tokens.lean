import Verif.Model.Tokens

/-!
# Words in texts

What a reader of a message calls its words, without regard to how the code finds them.
-/

namespace Verif.Spec
open Verif Py

/-- The word stands in the text: next to it, on both sides, is white space or an end of the text. -/
def Stands (w text : Str) : Prop :=
  ∃ a b, text = a ++ w ++ b ∧ (∀ c, a.getLast? = some c → isSpace c = true) ∧ ∀ c, b.head? = some c → isSpace c = true

/-- What a word may be made of: letters and digits of ASCII, and some marks. -/
def wordMark (c : Char) : Prop := c.isAlphanum = true ∨ c ∈ c!",@*!_'\"$.-"

/-- Marks that are not part of a word at its ends. -/
def edgeMark (c : Char) : Prop := c ∈ c!"-'\".,"

/-- A word written in ASCII, without marks at its ends, and not two words joined by dots or dashes. -/
structure AsciiWord (w : Str) : Prop where
  chars : ∀ c ∈ w, wordMark c
  start : ∀ c, w.head? = some c → ¬ edgeMark c
  stop : ∀ c, w.getLast? = some c → ¬ edgeMark c
  noDots : ¬ c!"..." <:+: w
  noDashes : ¬ c!"--" <:+: w

/-- Two words with dots or dashes between them. -/
structure Joined (u : Str) (c : Char) (k : Nat) (v : Str) : Prop where
  left : AsciiWord u
  right : AsciiWord v
  leftEnd : ∃ x, u.getLast? = some x ∧ x.isAlphanum = true
  rightStart : ∃ d, v.head? = some d ∧ d.isAlphanum = true
  mark : c = '.' ∧ 3 ≤ k ∨ c = '-' ∧ 2 ≤ k

/-- The documented list of words that say nothing (http://wiki.apache.org/spamassassin/BayesStopList). -/
def sayNothing : List Str := [
  c!"able", c!"already", c!"all", c!"and", c!"any", c!"are", c!"because", c!"both", c!"can", c!"come", c!"each", c!"email",
  c!"even", c!"few", c!"first", c!"for", c!"from", c!"give", c!"have", c!"has", c!"http", c!"information", c!"into", c!"it's",
  c!"just", c!"know", c!"like", c!"long", c!"look", c!"made", c!"mail", c!"mailing", c!"mailto", c!"make", c!"many", c!"more",
  c!"most", c!"much", c!"need", c!"not", c!"now", c!"number", c!"off", c!"only", c!"one", c!"out", c!"own", c!"people",
  c!"place", c!"right", c!"same", c!"see", c!"such", c!"that", c!"this", c!"through", c!"the", c!"time", c!"using", c!"web",
  c!"where", c!"why", c!"with", c!"without", c!"world", c!"work", c!"year", c!"years", c!"you", c!"you're", c!"your"]

/-- A text that a reader sees: the subject or a part of type text/plain. -/
def ToRead (msg : Tokens.Mail) (text : Str) : Prop := msg.subject = some text ∨ (c!"text/plain", text) ∈ msg.parts

/-- The same message without anything to read. -/
def withoutText (msg : Tokens.Mail) : Tokens.Mail := { msg with subject := none, parts := [] }

/-- What may become of a word: itself, in small letters, without marks; and if it is long a part of it. -/
inductive Derived (w : Str) : Str → Prop where
  | same : Derived w w
  | lower {t} : Derived w t → Derived w (lower t)
  | letters {t} : Derived w t → Derived w (t.filter (fun c => Tokens.wordChar c || c == ':' || c == '*'))
  | short : 15 < w.length → Derived w (c!"sk:" ++ w.take 7)
  | tail (n : Nat) : 15 < w.length → Derived w (c!"8:" ++ w.drop n)

/-- The documented list of headers that are not used: they hold dates, addresses of mailing lists and the like. -/
def neverUsed : List Str :=
  [c!"content-class", c!"content-length", c!"date", c!"delivered-to", c!"delivery-date", c!"envelope-to", c!"forwarded",
   c!"lines", c!"list-admin", c!"list-archive", c!"list-comment", c!"list-help", c!"list-host", c!"list-id", c!"list-manager",
   c!"list-name", c!"list-owner", c!"list-post", c!"list-subscribe", c!"list-unsubscribe", c!"list-url", c!"mail-followup-to",
   c!"mailing-list", c!"original-date", c!"original-from", c!"original-to", c!"replied", c!"resent-date", c!"resent-from",
   c!"resent-to", c!"sender", c!"spam", c!"status", c!"subject", c!"thread-index", c!"thread-topic", c!"x-antispam",
   c!"x-ap-spam-score", c!"x-ap-spam-status", c!"x-beenthere", c!"x-bogosity", c!"x-converted-to-plain-text",
   c!"x-egroups-from", c!"x-egroups-return", c!"x-envelope-to", c!"x-filtered-by", c!"x-flags", c!"x-gnus-mail-source",
   c!"x-imapbase", c!"x-keywords", c!"x-list", c!"x-list-admin", c!"x-list-archive", c!"x-list-comment", c!"x-list-help",
   c!"x-list-host", c!"x-list-id", c!"x-list-manager", c!"x-list-name", c!"x-list-owner", c!"x-list-post",
   c!"x-list-subscribe", c!"x-list-unsubscribe", c!"x-list-url", c!"x-loop", c!"x-mailing-list", c!"x-mailman-version",
   c!"x-mailscanner", c!"x-mailscanner-spamcheck", c!"x-mass-check-id", c!"x-mdaemon-deliver-to", c!"x-mdmailing-list",
   c!"x-mime-autoconverted", c!"x-original-date", c!"x-original-from", c!"x-original-to", c!"x-originalarrivaltime",
   c!"x-perlmx-spam", c!"x-pyzor", c!"x-rbl-warning", c!"x-resent-date", c!"x-resent-from", c!"x-resent-to",
   c!"x-ripe-spam-status", c!"x-scanned-by", c!"x-scanner", c!"x-sender", c!"x-smtpd", c!"x-smtpd spam-apparently-to",
   c!"x-smtpd x-spam-apparently-to", c!"x-spam", c!"x-spam-checker-version", c!"x-spam-flag-version", c!"x-spam-hits-version",
   c!"x-spam-level-version", c!"x-spam-report-version", c!"x-spam-score-version", c!"x-spam-status-version", c!"x-status",
   c!"x-uid", c!"x-uidl", c!"x-unsub", c!"x-unsubscribe", c!"x-virus-scanned", c!"x-vm-bookmark", c!"x-vm-imap-retrieved",
   c!"x-vm-labels", c!"x-vm-last-modified", c!"x-vm-message-order", c!"x-vm-pop-retrieved", c!"x-vm-summary-format",
   c!"x-vm-v0-data", c!"x-vm-v1-data", c!"x-vm-v2-data", c!"x-vm-v3-data", c!"x-vm-v4-data", c!"x-vm-v5-data",
   c!"x-vm-v6-data", c!"x-vm-v7-data", c!"x-vm-v8-data", c!"x-vm-v9-data", c!"x-vm-vheader", c!"x-xemacs-list", c!"xref"]

/-- Headers that hold addresses. -/
def addressHeaders : List Str :=
  [c!"", c!"x-", c!"resent-"].flatMap (fun pre => [c!"return-path", c!"from", c!"to", c!"cc", c!"reply-to", c!"errors-to",
    c!"mail-followup-to", c!"sender"].map (fun h => pre ++ h))

/-- Headers whose values are different in every message. -/
def signatureHeaders : List Str :=
  [c!"dkim-signature", c!"domainkey-signature", c!"x-face"] ++
    [c!"gnu-pg", c!"gnupg", c!"gpg", c!"pgp"].flatMap (fun x => [c!"x-" ++ x ++ c!"-fingerprint", c!"x-" ++ x ++ c!"-key-fingerprint"])

/-- Headers whose values are used as they are. -/
structure OrdinaryHeader (h : Str) : Prop where
  small : lower h = h
  used : h ∉ neverUsed
  noAddress : h ∉ addressHeaders
  value : h ∉ signatureHeaders
  other : h ∉ [c!"message-id", c!"x-message-id", c!"resent-message-id", c!"received", c!"content-type", c!"mime-version"]
  noRelays : h ≠ c!"x-spam-relays-trusted" ∧ h ≠ c!"x-spam-relays-untrusted"

/-- Headers whose values go under one name as well. -/
def Sources (label : Str) (names : List Str) : Prop :=
  (label, names) = (c!"*MI", [c!"in-reply-to", c!"references", c!"message-id"]) ∨ (label, names) = (c!"*UA", [c!"x-mailer", c!"user-agent"])

/-- The bytes of one character in UTF-8, three or four of them, read as Latin-1 by mistake. -/
def Utf8Bytes (x : Str) : Prop :=
  ∃ a rest, x = a :: rest ∧ (∀ c ∈ rest, 0x80 ≤ c.toNat ∧ c.toNat ≤ 0xBF) ∧
    (0xE0 ≤ a.toNat ∧ a.toNat ≤ 0xEF ∧ rest.length = 2 ∨ 0xF0 ≤ a.toNat ∧ a.toNat ≤ 0xF4 ∧ rest.length = 3)

end Verif.Spec
