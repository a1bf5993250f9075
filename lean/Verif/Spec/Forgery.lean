import Verif.Model.Forgery

/-!
# Specification of the rules about forged headers
-/

namespace Verif.Forgery
open Verif Py

/-- A text has something in it. -/
def Has (w h : Str) : Prop := ∃ a b, h = a ++ w ++ b

/-- The name of a relay of AOL: ` rly-`, two letters, two digits and a dot. -/
def RelayName (h : Str) : Prop :=
  ∃ p x y d e, lower p = c!" rly-" ∧ x.isAlpha = true ∧ y.isAlpha = true ∧ d.isDigit = true ∧ e.isDigit = true ∧
    Has (p ++ [x, y, d, e, '.']) h

/-- Digits, one at least. -/
def Number (w : Str) : Prop := w ≠ [] ∧ ∀ c ∈ w, c.isDigit = true

/-- The mark that AOL's software leaves. -/
def AolVersion (h : Str) : Prop :=
  ∃ a b c, Number a ∧ Number b ∧ Number c ∧ Has (c!"/AOL-" ++ a ++ c!"." ++ b ++ c!"." ++ c ++ c!")") h

/-- The numbers that AOL's relays give. -/
def AolId (h : Str) : Prop := Has c!"ESMTP id RELAY" h ∨ Has c!"ESMTP id MAILRELAY" h ∨ Has c!"ESMTP id MAILIN" h

/-- White space. -/
def Gap (g : Str) : Prop := g ≠ [] ∧ ∀ c ∈ g, isSpace c = true

/-- A word: no white space. -/
def Solid (w : Str) : Prop := w ≠ [] ∧ ∀ c ∈ w, isSpace c = false

/-- A time with its date: `Thu, 12 Jan 2017 10:11:12 +0200` after white space. -/
def Stamp (t : Str) : Prop :=
  ∃ g1 d g2 n g3 m g4 y g5 hh mm ss g6 sign z, Gap g1 ∧ (Solid d ∧ d.length = 3) ∧ Gap g2 ∧ Number n ∧ Gap g3 ∧
    (Solid m ∧ m.length = 3) ∧ Gap g4 ∧ (Number y ∧ y.length = 4) ∧ Gap g5 ∧ (Number hh ∧ hh.length = 2) ∧
    (Number mm ∧ mm.length = 2) ∧ (Number ss ∧ ss.length = 2) ∧ Gap g6 ∧ (∀ c ∈ sign, c = '-' ∨ c = '+') ∧ (Number z ∧ z.length = 4) ∧
    t = g1 ++ (d ++ (c!"," ++ (g2 ++ (n ++ (g3 ++ (m ++ (g4 ++ (y ++ (g5 ++ (hh ++ (c!":" ++ (mm ++ (c!":" ++ (ss ++ (g6 ++ (sign ++ z))))))))))))))))

/-- A line `from h1 by h2 with ESMTP; ` with a time. -/
def Gateway (h1 h2 h : Str) : Prop :=
  ∃ f s1 s2 b s3 s4 w s5 e stamp, lower f = c!"from" ∧ isSpace s1 = true ∧ Solid h1 ∧ isSpace s2 = true ∧ lower b = c!"by" ∧
    isSpace s3 = true ∧ Solid h2 ∧ isSpace s4 = true ∧ lower w = c!"with" ∧ isSpace s5 = true ∧ lower e = c!"esmtp;" ∧ Stamp stamp ∧
    h = f ++ ([s1] ++ (h1 ++ ([s2] ++ (b ++ ([s3] ++ (h2 ++ ([s4] ++ (w ++ ([s5] ++ (e ++ stamp))))))))))

/-- A placeholder that has not been filled in: `%` and two capitals, or a capital with `_` or `-`. -/
def Template (line : Str) : Prop := ∃ x y, x.isUpper = true ∧ (y.isUpper = true ∨ y = '_' ∨ y = '-') ∧ Has ['%', x, y] line

/-- The line begins with the name of a header that may have anything in it. -/
def Exempt (line : Str) : Prop :=
  ∃ name ∈ [c!"x-vms-to", c!"x-uidl", c!"x-face", c!"to", c!"cc", c!"from", c!"subject", c!"references", c!"in-reply-to", c!"message-id",
    c!"x-message-id", c!"resent-message-id", c!"x-original-message-id"], ∃ n rest, line = n ++ ':' :: rest ∧ lower n = name

/-- What a plain text stands for in an expression: its dots are any character. -/
def Like : Str → Str → Prop
  | [], w => w = []
  | c :: cs, w => ∃ d ds, w = d :: ds ∧ (d = c ∨ c = '.' ∧ d ≠ '\n') ∧ Like cs ds

/-- No character with a special meaning in expressions. -/
def Plain (s : Str) : Prop := ∀ c ∈ s, c ∉ ['\\', '^', '$', '*', '+', '?', '(', ')', '[', ']', '{', '}', '|']

/-- The sender has a name in quotes and an address like this one. -/
def QuotedSender (g f : Str) : Prop :=
  ∃ n s g', n ≠ [] ∧ '"' ∉ n ∧ (∀ c ∈ s, isSpace c = true) ∧ Like g g' ∧ Has (c!"\"" ++ n ++ c!"\"" ++ s ++ c!"<" ++ g' ++ c!">") f

/-- A group of MSN. -/
def GroupAddress (to : Str) : Prop := ∃ l, l ≠ [] ∧ (∀ c ∈ l, isSpace c = false) ∧ Has (c!"<" ++ l ++ c!"@groups.msn.com>") to

/-- The host that a line is from calls itself something that ends in `hotmail.com`. -/
def ClaimsHotmail (h : Str) : Prop :=
  ∃ a pre n b, pre ∈ [c!"from ", c!"HELO ", c!"helo="] ∧ (∀ c ∈ n, isSpace c = false) ∧ h = a ++ pre ++ n ++ c!"hotmail.com" ++ b ∧
    (∀ c, b.head? = some c → Re.isWord c = false)

/-- The way of mail that Hotmail itself picks up. -/
def Pickup (h : Str) : Prop := Has c!"from mail pickup service by hotmail.com with Microsoft SMTPSVC;" h

/-- A Message-ID like those of Outlook, with the time in it. -/
def OutlookId (time id : Str) : Prop :=
  ∃ a b c rest, a.length = 4 ∧ time.length = 8 ∧ b.length = 8 ∧ c.length = 8 ∧
    (∀ x ∈ a ++ time ++ b ++ c, x.isDigit = true ∨ x ∈ ['a', 'b', 'c', 'd', 'e', 'f']) ∧
    id = c!"<" ++ a ++ time ++ c!"$" ++ b ++ c!"$" ++ c ++ c!"@" ++ rest

/-- A Message-ID with 28 capitals and a dot before the rest. -/
def RatwareId (g id : Str) : Prop :=
  ∃ caps, caps.length = 28 ∧ (∀ c ∈ caps, c.isUpper = true) ∧ g ≠ [] ∧ '>' ∉ g ∧ Has (c!"<" ++ caps ++ c!"." ++ g ++ c!">") id

/-- One of two neighbours is a letter, a digit or `_`, and the other is not. -/
def Boundary (a b : Str) : Prop :=
  ¬ ((∃ c, a.getLast? = some c ∧ Re.isWord c = true) ↔ (∃ c, b.head? = some c ∧ Re.isWord c = true))

/-- A name with one part before one of the known endings. -/
def Registered (tlds : List Str) (domain : Str) : Prop :=
  ' ' ∉ domain ∧ ∃ a rest, '.' ∉ a ∧ domain = a ++ '.' :: rest ∧ lower rest ∈ tlds

/-- The sender has the domain of the recipient, another character and the name of the recipient before an `@`. -/
def Mirrors (user domain sender : Str) : Prop :=
  ∃ a d x u b, Like domain d ∧ x ≠ '\n' ∧ Like user u ∧ sender = a ++ (d ++ [x] ++ u ++ c!"@") ++ b ∧ Boundary a (d ++ [x] ++ u ++ c!"@" ++ b)

/-- A server of MSN's groups. -/
def Server (s h : Str) : Prop :=
  ∃ d e a b, d.isDigit = true ∧ e.isDigit = true ∧ s = c!"p" ++ [d, e] ++ c!".groups.msn.com" ∧
    h = a ++ (c!"from mail pickup service by " ++ s) ++ b ∧ (∀ c, b.head? = some c → Re.isWord c = false)

/-- A text that begins with a date as in `Received`, and goes to its end. -/
def Dated (w : Str) : Prop :=
  ∃ s o n m y hh mm ss z rest, isSpace s = true ∧ (o = [] ∨ ∃ c, o = [c] ∧ c ≠ '\n') ∧ Number n ∧ Solid m ∧ m.length = 3 ∧ Number y ∧
    Number hh ∧ Number mm ∧ Number ss ∧ Solid z ∧ '\n' ∉ rest ∧
    w = [s] ++ (o ++ (n ++ (c!" " ++ (m ++ (c!" " ++ (y ++ (c!" " ++ (hh ++ (c!":" ++ (mm ++ (c!":" ++ (ss ++ (c!" " ++ (z ++ rest))))))))))))))

/-- A date in a header. -/
def DateIn (w h : Str) : Prop := Dated w ∧ ∃ a b, h = a ++ w ++ b ∧ (b = [] ∨ b = ['\n'])

/-- A number written in base 16. -/
def hexOf : Str → Nat
  | [] => 0
  | c :: cs => c!"0123456789abcdef".idxOf c * 16 ^ cs.length + hexOf cs

/-- Nearer than 250. -/
def Near (a : Nat) (b : Int) : Prop := (a : Int) - b < 250 ∧ b - (a : Int) < 250

/-- What an address for leaving a list looks like at the end of a header. -/
def ListAddress (h : Str) : Prop :=
  ∃ pre l d a b, h = a ++ (c!"<mailto:" ++ pre ++ c!"@" ++ d ++ c!">") ++ b ∧ Solid l ∧ Solid d ∧ (b = [] ∨ b = ['\n']) ∧
    (pre = c!"leave-" ++ l ∨ pre = l ++ c!"-unsubscribe")

end Verif.Forgery
