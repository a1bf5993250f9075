import Verif.Lemmas.Ipv6Re
import Verif.Lemmas.Postfix
import Verif.Spec.Skip

/-!
# The expressions of the list of ignored headers
-/

namespace Verif.ReceivedRe
open Verif Py Re Spec Received
open Verif.Spec.Skip (Reading Boundary LocalHost Ignored)

theorem search_bol {r : Re} {h : Str} : (search (.seq .bol r) h).isSome = true ↔ ∃ w z, h = w ++ z ∧ Reads r [] w z := by
  rw [search_isSome]
  constructor
  · rintro ⟨u, w, z, e, _, v, rfl, ⟨rfl, hu⟩, hr⟩
    have hu : u = [] := by simpa using hu
    subst hu
    exact ⟨v, z, by simpa using e, by simpa using hr⟩
  · rintro ⟨w, z, e, hr⟩
    exact ⟨[], w, z, by simpa using e, [], w, rfl, ⟨rfl, rfl⟩, by simpa using hr⟩

theorem reads_litSeq {s : Str} {r : Re} {b w a : Str} : Reads (.seq (lit s) r) b w a ↔ ∃ v, w = s ++ v ∧ Reads r (s.reverse ++ b) v a := by
  constructor
  · rintro ⟨u, v, rfl, hu, hv⟩
    have := Reads.lit.1 hu
    subst this
    exact ⟨v, rfl, hv⟩
  · rintro ⟨v, rfl, hv⟩
    exact ⟨s, v, rfl, Reads.lit.2 rfl, hv⟩

theorem reads_ilitSeq {s : Str} {r : Re} {b w a : Str} :
    Reads (.seq (ilit s) r) b w a ↔ ∃ u v, w = u ++ v ∧ u.map Char.toLower = s.map Char.toLower ∧ Reads r (u.reverse ++ b) v a := by
  constructor
  · rintro ⟨u, v, rfl, hu, hv⟩
    exact ⟨u, v, rfl, Reads.ilit.1 hu, hv⟩
  · rintro ⟨u, v, rfl, hu, hv⟩
    exact ⟨u, v, rfl, Reads.ilit.2 hu, hv⟩

theorem reads_words {b w a : Str} : Reads words b w a ↔ Skip.Word w := by
  unfold words
  rw [Reads.plus]
  simp [Skip.Word, nonSpace]

theorem reads_wordSeq {r : Re} {b w a : Str} : Reads (.seq words r) b w a ↔ ∃ u v, w = u ++ v ∧ Skip.Word u ∧ Reads r (u.reverse ++ b) v a := by
  constructor
  · rintro ⟨u, v, rfl, hu, hv⟩
    exact ⟨u, v, rfl, reads_words.1 hu, hv⟩
  · rintro ⟨u, v, rfl, hu, hv⟩
    exact ⟨u, v, rfl, reads_words.2 hu, hv⟩

theorem reads_groupSeq {n : Nat} {r : Re} {b w a : Str} :
    Reads (.seq (word n) r) b w a ↔ ∃ u v, w = u ++ v ∧ Skip.Word u ∧ Reads r (u.reverse ++ b) v a := reads_wordSeq (r := r)

theorem reads_spSeq {r : Re} {b w a : Str} : Reads (.seq sp r) b w a ↔ ∃ c v, w = c :: v ∧ isSpace c = true ∧ Reads r (c :: b) v a := by
  constructor
  · rintro ⟨_, v, rfl, ⟨c, rfl, hc⟩, hv⟩
    exact ⟨c, v, rfl, hc, hv⟩
  · rintro ⟨c, v, rfl, hc, hv⟩
    exact ⟨[c], v, rfl, ⟨c, rfl, hc⟩, hv⟩

/-- White space only as blanks. -/
def Blanks (h : Str) : Prop := ∀ c ∈ h, isSpace c = true → c = ' '

theorem avg_iff {h : Str} : (search avgSmtp h).isSome = true ↔
    ∃ v w rest, Skip.Word v ∧ Skip.Word w ∧ h = c!"127.0.0.1 (AVG SMTP " ++ v ++ c!" [" ++ w ++ c!"])" ++ rest := by
  unfold avgSmtp
  simp only [seqs, search_bol, reads_litSeq, reads_wordSeq, Reads.lit]
  constructor
  · rintro ⟨_, z, rfl, _, rfl, v, _, rfl, hv, _, rfl, w, _, rfl, hw, rfl⟩
    exact ⟨v, w, z, hv, hw, by simp⟩
  · rintro ⟨v, w, rest, hv, hw, rfl⟩
    exact ⟨_, rest, rfl, _, by simp only [List.append_assoc], v, _, rfl, hv, _, rfl, w, _, rfl, hw, rfl⟩

theorem from_iff {h : Str} : (search fromRe h).isSome = true ↔
    ∃ u d b rest, Skip.Word u ∧ Skip.Word d ∧ Skip.Word b ∧ h = u ++ c!"@" ++ d ++ c!" by " ++ b ++ c!" " ++ rest := by
  unfold fromRe
  simp only [seqs, search_bol, reads_litSeq, reads_wordSeq, Reads.lit]
  constructor
  · rintro ⟨_, z, rfl, u, _, rfl, hu, _, rfl, d, _, rfl, hd, _, rfl, b, _, rfl, hb, rfl⟩
    exact ⟨u, d, b, z, hu, hd, hb, by simp⟩
  · rintro ⟨u, d, b, rest, hu, hd, hb, rfl⟩
    exact ⟨_, rest, rfl, u, _, by simp only [List.append_assoc], hu, _, rfl, d, _, rfl, hd, _, rfl, b, _, rfl, hb, rfl⟩

/-- What qmail writes is also ignored as a line with a mail address. -/
theorem qmail_from {h : Str} (hq : (search qmail h).isSome = true) : (search fromRe h).isSome = true := by
  rw [from_iff]
  unfold qmail at hq
  simp only [seqs, search_bol, reads_litSeq, reads_wordSeq, Reads.lit] at hq
  obtain ⟨_, z, rfl, u, _, rfl, hu, _, rfl, d, _, rfl, hd, _, rfl, b, _, rfl, hb, _, rfl, x, _, rfl, hx, rfl⟩ := hq
  exact ⟨u, d, b, c!"by uid " ++ x ++ c!" " ++ z, hu, hd, hb, by simp⟩

theorem unknown_iff {h : Str} : (search unknownRe h).isSome = true ↔ ∃ rest, h = c!"Unknown/Local (" ++ rest := by
  unfold unknownRe
  simp only [seqs, search_bol, Reads.lit]
  constructor
  · rintro ⟨_, z, rfl, rfl⟩; exact ⟨z, rfl⟩
  · rintro ⟨z, rfl⟩; exact ⟨_, z, rfl, rfl⟩

theorem authSkip_iff {h : Str} : (search authSkip h).isSome = true ↔
    ∃ a b rest, Skip.Word a ∧ Skip.Word b ∧ h = c!"(AUTH: " ++ a ++ c!") by " ++ b ++ c!" with " ++ rest := by
  unfold authSkip
  simp only [seqs, search_bol, reads_litSeq, reads_wordSeq, Reads.lit]
  constructor
  · rintro ⟨_, z, rfl, _, rfl, v, _, rfl, hv, _, rfl, w, _, rfl, hw, rfl⟩
    exact ⟨v, w, z, hv, hw, by simp⟩
  · rintro ⟨v, w, rest, hv, hw, rfl⟩
    exact ⟨_, rest, rfl, _, by simp only [List.append_assoc], v, _, rfl, hv, _, rfl, w, _, rfl, hw, rfl⟩

theorem noName_iff {h : Str} : (search noName h).isSome = true ↔
    ∃ b rest, Skip.Word b ∧ h = c!"no.name.available by " ++ b ++ c!" via smtpd (for " ++ rest := by
  unfold noName
  simp only [seqs, search_bol, reads_litSeq, reads_wordSeq, Reads.lit]
  constructor
  · rintro ⟨_, z, rfl, _, rfl, v, _, rfl, hv, rfl⟩
    exact ⟨v, z, hv, by simp⟩
  · rintro ⟨v, rest, hv, rfl⟩
    exact ⟨_, rest, rfl, _, by simp only [List.append_assoc], v, _, rfl, hv, rfl⟩

theorem novell_iff {h : Str} : (search novell h).isSome = true ↔
    ∃ x b rest, x ≠ [] ∧ '.' ∉ x ∧ Skip.Word b ∧ h = x ++ c!" by " ++ b ++ c!" with Novell_GroupWise" ++ rest := by
  unfold novell
  simp only [seqs, search_bol, Reads.seq, Reads.lit, Reads.plus, reads_words]
  constructor
  · rintro ⟨_, z, rfl, x, _, rfl, ⟨h0, hx⟩, _, _, rfl, rfl, b, _, rfl, hb, rfl⟩
    exact ⟨x, b, z, h0, fun hd => by simpa using hx _ hd, hb, by simp⟩
  · rintro ⟨x, b, rest, h0, hx, hb, rfl⟩
    exact ⟨_, rest, rfl, x, _, by simp only [List.append_assoc], ⟨h0, fun c hc => by
      simp only [bne_iff_ne]; rintro rfl; exact hx hc⟩, _, _, rfl, rfl, b, _, rfl, hb, rfl⟩

theorem unix_iff {h : Str} (hs : Blanks h) : (search localSkip h).isSome = true ↔
    ∃ rest, h = c!"localhost (localhost [[UNIX: localhost]]) by " ++ rest := by
  unfold localSkip
  simp only [seqs, search_bol, reads_litSeq, reads_spSeq, Reads.lit]
  constructor
  · rintro ⟨_, z, rfl, _, rfl, c₁, _, rfl, h₁, _, rfl, c₂, _, rfl, h₂, _, rfl, c₃, _, rfl, h₃, _, rfl, c₄, _, rfl, h₄, _, rfl, ⟨c₅, rfl, h₅⟩⟩
    rw [hs c₁ (by simp) h₁, hs c₂ (by simp) h₂, hs c₃ (by simp) h₃, hs c₄ (by simp) h₄, hs c₅ (by simp) h₅]
    exact ⟨z, by simp⟩
  · rintro ⟨z, rfl⟩
    exact ⟨c!"localhost (localhost [[UNIX: localhost]]) by ", z, rfl, _, rfl, ' ', _, rfl, rfl, _, rfl, ' ', _, rfl, rfl, _, rfl, ' ', _, rfl, rfl, _, rfl,
      ' ', _, rfl, rfl, _, rfl, ⟨' ', rfl, rfl⟩⟩

theorem amazon_iff {h : Str} (hs : Blanks h) : (search amazon h).isSome = true ↔
    ∃ a b rest, Skip.Word a ∧ Skip.Word b ∧ h = a ++ c!".amazon.com by " ++ b ++ c!".amazon.com with ESMTP (peer crosscheck: " ++ rest := by
  unfold amazon
  simp only [seqs, search_bol, reads_litSeq, reads_wordSeq, reads_spSeq, Reads.lit]
  constructor
  · rintro ⟨_, z, rfl, a, _, rfl, ha, _, rfl, c₁, _, rfl, h₁, _, rfl, c₂, _, rfl, h₂, b, _, rfl, hb, _, rfl, c₃, _, rfl, h₃, _, rfl, c₄, _, rfl, h₄, _, rfl,
      c₅, _, rfl, h₅, _, rfl, c₆, _, rfl, h₆, _, rfl, ⟨c₇, rfl, h₇⟩⟩
    rw [hs c₁ (by simp) h₁, hs c₂ (by simp) h₂, hs c₃ (by simp) h₃, hs c₄ (by simp) h₄, hs c₅ (by simp) h₅, hs c₆ (by simp) h₆, hs c₇ (by simp) h₇]
    exact ⟨a, b, z, ha, hb, by simp⟩
  · rintro ⟨a, b, z, ha, hb, rfl⟩
    exact ⟨a ++ (c!".amazon.com by " ++ (b ++ c!".amazon.com with ESMTP (peer crosscheck: ")), z, by simp, a, _, rfl, ha, _, rfl, ' ', _, rfl, rfl, _, rfl, ' ', _, rfl, rfl,
      b, _, rfl, hb, _, rfl, ' ', _, rfl, rfl, _, rfl, ' ', _, rfl, rfl, _, rfl, ' ', _, rfl, rfl, _, rfl, ' ', _, rfl, rfl, _, rfl, ⟨' ', rfl, rfl⟩⟩

theorem pickup_iff {h : Str} (hs : Blanks h) : (search smtpsvc h).isSome = true ↔
    ∃ b, Skip.Word b ∧ h = c!"mail pickup service by " ++ b ++ c!" with Microsoft SMTPSVC" := by
  unfold smtpsvc
  simp only [seqs, search_bol, reads_litSeq, reads_groupSeq, reads_spSeq, Reads.lit]
  constructor
  · rintro ⟨_, z, rfl, _, rfl, c₁, _, rfl, h₁, _, rfl, c₂, _, rfl, h₂, _, rfl, c₃, _, rfl, h₃, _, rfl, c₄, _, rfl, h₄, b, _, rfl, hb, c₅, _, rfl, h₅, _, rfl,
      c₆, _, rfl, h₆, _, rfl, c₇, _, rfl, h₇, _, rfl, ⟨rfl, hz⟩⟩
    rw [hs c₁ (by simp) h₁, hs c₂ (by simp) h₂, hs c₃ (by simp) h₃, hs c₄ (by simp) h₄, hs c₅ (by simp) h₅, hs c₆ (by simp) h₆, hs c₇ (by simp) h₇]
    rcases hz with rfl | rfl
    · exact ⟨b, hb, by simp⟩
    · exact absurd (hs '\n' (by simp) (by decide)) (by decide)
  · rintro ⟨b, hb, rfl⟩
    exact ⟨c!"mail pickup service by " ++ (b ++ c!" with Microsoft SMTPSVC"), [], by simp, _, rfl, ' ', _, rfl, rfl, _, rfl, ' ', _, rfl, rfl, _, rfl, ' ', _, rfl, rfl,
      _, rfl, ' ', _, rfl, rfl, b, _, rfl, hb, ' ', _, rfl, rfl, _, rfl, ' ', _, rfl, rfl, _, rfl, ' ', _, rfl, rfl, [], rfl, ⟨rfl, .inl rfl⟩⟩

theorem bsmtp_iff {h : Str} : (search bsmtp h).isSome = true ↔
    ∃ w x b y rest, Skip.Word w ∧ Reading c!" by " x ∧ Skip.Word b ∧ Reading c!" with bsmtp" y ∧ h = w ++ x ++ b ++ y ++ rest := by
  unfold bsmtp
  simp only [seqs, search_bol, reads_ilitSeq, reads_wordSeq, Reads.ilit]
  constructor
  · rintro ⟨_, z, rfl, w, _, rfl, hw, x, _, rfl, hx, b, y, rfl, hb, hy⟩
    exact ⟨w, x, b, y, z, hw, hx, hb, hy, by simp⟩
  · rintro ⟨w, x, b, y, z, hw, hx, hb, hy, rfl⟩
    exact ⟨_, z, rfl, w, _, by simp only [List.append_assoc], hw, x, _, rfl, hx, b, y, rfl, hb, hy⟩

theorem reading_sp {c : Char} {s t : Str} (hc : c = ' ') (ht : t.map Char.toLower = s) : (c :: t).map Char.toLower = ' ' :: s := by
  subst hc; simp only [List.map_cons, ht]; rfl

theorem reading_append {a b s t : Str} (ha : a.map Char.toLower = s) (hb : b.map Char.toLower = t) : (a ++ b).map Char.toLower = s ++ t := by
  rw [List.map_append, ha, hb]

theorem reading_split {s t w : Str} (h : w.map Char.toLower = s ++ t) : ∃ u v, w = u ++ v ∧ u.map Char.toLower = s ∧ v.map Char.toLower = t := by
  obtain ⟨u, x, rfl, hu, hx⟩ := List.map_eq_append_iff.mp h
  exact ⟨u, x, rfl, hu, hx⟩

theorem contentTech_iff {h : Str} (hs : Blanks h) : (search contentTech h).isSome = true ↔
    ∃ w v x b y rest, Skip.Word w ∧ Skip.Word v ∧ Reading c!" by " x ∧ Skip.Word b ∧ Reading c!" (content technologies " y ∧
      h = w ++ c!" (" ++ v ++ c!")" ++ x ++ b ++ y ++ rest := by
  unfold contentTech
  simp only [seqs, search_bol, reads_litSeq, reads_ilitSeq, reads_spSeq, reads_wordSeq]
  constructor
  · rintro ⟨_, z, rfl, w, _, rfl, hw, c₁, _, rfl, h₁, _, rfl, v, _, rfl, hv, _, rfl, c₂, _, rfl, h₂, x, _, rfl, hx, c₃, _, rfl, h₃, b, _, rfl, hb,
      c₄, _, rfl, h₄, y, _, rfl, hy, c₅, _, rfl, h₅, t, _, rfl, ht, ⟨c₆, rfl, h₆⟩⟩
    refine ⟨w, v, c₂ :: (x ++ [c₃]), b, c₄ :: (y ++ c₅ :: (t ++ [c₆])), z, hw, hv, ?_, hb, ?_, ?_⟩
    · rw [hs c₂ (by simp) h₂, hs c₃ (by simp) h₃]
      exact reading_sp rfl (reading_append hx rfl)
    · rw [hs c₄ (by simp) h₄, hs c₅ (by simp) h₅, hs c₆ (by simp) h₆]
      exact reading_sp rfl (reading_append hy (reading_sp rfl (reading_append ht rfl)))
    · rw [hs c₁ (by simp) h₁]; simp
  · rintro ⟨w, v, x, b, y, z, hw, hv, hx, hb, hy, rfl⟩
    obtain ⟨x1, rfl, hx1⟩ := lower_lit hx
    obtain ⟨x, x2, rfl, hx', hx2⟩ := reading_split (s := c!"by") (t := c!" ") hx1
    obtain ⟨x3, rfl, hx3⟩ := lower_lit hx2
    obtain rfl : x3 = [] := by simpa using hx3
    obtain ⟨y1, rfl, hy1⟩ := lower_lit hy
    obtain ⟨y, y2, rfl, hy', hy2⟩ := reading_split (s := c!"(content") (t := c!" technologies ") hy1
    obtain ⟨y3, rfl, hy3⟩ := lower_lit hy2
    obtain ⟨t, y4, rfl, ht, hy4⟩ := reading_split (s := c!"technologies") (t := c!" ") hy3
    obtain ⟨y5, rfl, hy5⟩ := lower_lit hy4
    obtain rfl : y5 = [] := by simpa using hy5
    exact ⟨w ++ ' ' :: (c!"(" ++ (v ++ (c!")" ++ ' ' :: (x ++ ' ' :: (b ++ ' ' :: (y ++ ' ' :: (t ++ [' ']))))))), z, by simp, w, _, rfl, hw, ' ', _, rfl, rfl, _, rfl,
      v, _, rfl, hv, _, rfl, ' ', _, rfl, rfl, x, _, rfl, hx', ' ', _, rfl, rfl, b, _, rfl, hb, ' ', _, rfl, rfl, y, _, rfl, hy', ' ', _, rfl, rfl, t, _, rfl, ht,
      ⟨' ', rfl, rfl⟩⟩

theorem fetchmail_iff {h : Str} (hs : Blanks h) : (search fetchmail h).isSome = true ↔
    ∃ pre w b p rest, Skip.Word w ∧ Skip.Word b ∧ Skip.Word p ∧
      h = pre ++ c!" " ++ w ++ c!" by " ++ b ++ c!" with " ++ p ++ c!" (fetchmail" ++ rest := by
  rw [search_isSome]
  unfold fetchmail
  simp only [seqs]
  constructor
  · rintro ⟨pre, _, z, rfl, d, _, rfl, _, hr⟩
    simp only [reads_spSeq, reads_groupSeq] at hr
    obtain ⟨c₁, _, rfl, h₁, w, _, rfl, hw, c₂, _, rfl, h₂, o, _, rfl, ho, hr⟩ := hr
    simp only [reads_litSeq, reads_wordSeq, reads_spSeq, reads_groupSeq, Reads.lit] at hr
    obtain ⟨_, rfl, c₃, _, rfl, h₃, b, _, rfl, hb, c₄, _, rfl, h₄, _, rfl, c₅, _, rfl, h₅, p, _, rfl, hp, c₆, _, rfl, h₆, rfl⟩ := hr
    rw [hs c₁ (by simp) h₁, hs c₂ (by simp) h₂, hs c₃ (by simp) h₃, hs c₄ (by simp) h₄, hs c₅ (by simp) h₅, hs c₆ (by simp) h₆]
    rcases ho with ho | rfl
    · obtain ⟨_, v, rfl, h1, i, _, rfl, hi, _, t, rfl, h2, ⟨c₇, rfl, h₇⟩⟩ := ho
      rw [Reads.lit.1 h1, Reads.lit.1 h2, hs c₇ (by simp) h₇]
      refine ⟨pre ++ d ++ c!" " ++ w, c!"[" ++ i ++ c!"]", b, p, z, ⟨by simp, ?_⟩, hb, hp, by simp⟩
      intro c hc
      simp only [List.mem_append, List.mem_singleton] at hc
      rcases hc with (rfl | hc) | rfl
      · decide
      · have := hi.only only_ip c hc
        rcases this with h | h | rfl | rfl
        · exact isSpace_alnum (by simp [Char.isAlphanum, h])
        · exact isSpace_alnum (by simp [Char.isAlphanum, h])
        · decide
        · decide
      · decide
    · exact ⟨pre ++ d, w, b, p, z, hw, hb, hp, by simp⟩
  · rintro ⟨pre, w, b, p, rest, hw, hb, hp, rfl⟩
    refine ⟨pre, ' ' :: (w ++ ' ' :: (c!"by" ++ ' ' :: (b ++ ' ' :: (c!"with" ++ ' ' :: (p ++ ' ' :: c!"(fetchmail"))))), rest, by simp, [], _, rfl, by simp [dotsLazy, Reads], ?_⟩
    rw [reads_spSeq]
    refine ⟨' ', _, rfl, rfl, ?_⟩
    rw [reads_groupSeq]
    refine ⟨w, _, rfl, hw, ?_⟩
    rw [reads_spSeq]
    refine ⟨' ', _, rfl, rfl, [], _, rfl, .inr rfl, ?_⟩
    simp only [reads_litSeq, reads_wordSeq, reads_spSeq, reads_groupSeq, Reads.lit]
    exact ⟨_, rfl, ' ', _, rfl, rfl, b, _, rfl, hb, ' ', _, rfl, rfl, _, rfl, ' ', _, rfl, rfl, p, _, rfl, hp, ' ', _, rfl, rfl, rfl⟩

theorem withLocal_iff {h : Str} : (search withLocal h).isSome = true ↔
    ∃ pre w o rest, Boundary pre ∧ Reading c!"with local" w ∧ (o = [] ∨ ∃ x, Skip.Word x ∧ o = c!"-" ++ x) ∧ h = pre ++ w ++ o ++ c!" " ++ rest := by
  have word : ∀ {w z : Str}, Reading c!"with local" w → wordAt (w ++ z) = true := by
    intro w z h
    cases w with
    | nil => simp [Reading] at h
    | cons c w =>
      have hc : c.toLower = 'w' := by simp [Reading] at h; exact h.1
      show isWord c = true
      unfold Char.toLower at hc
      split at hc
      · rename_i hu
        simp only [isWord, Char.isAlphanum, Char.isAlpha, Char.isUpper, Bool.or_eq_true, decide_eq_true_eq]
        exact .inl (.inl (.inl hu))
      · rw [hc]; decide
  have bound : ∀ {pre : Str}, Boundary pre ↔ wordAt pre.reverse = false := by
    intro pre
    rcases List.eq_nil_or_concat pre with rfl | ⟨l, c, rfl⟩
    · simp [Boundary, wordAt]
    · simp [Boundary, wordAt, isWord]
  rw [search_isSome]
  unfold withLocal
  simp only [seqs]
  constructor
  · rintro ⟨pre, _, z, rfl, _, _, rfl, ⟨rfl, hb⟩, w, _, rfl, hw, o, _, rfl, ho, hl⟩
    rw [Reads.lit.1 hl]
    have hw := Reads.ilit.1 hw
    refine ⟨pre, w, o, z, ?_, hw, ?_, by simp⟩
    · rw [bound]
      have hb : wordAt pre.reverse ≠ wordAt (w ++ (o ++ _) ++ z) := hb
      rw [List.append_assoc, word hw] at hb
      simpa using hb
    · rcases ho with ⟨_, x, rfl, h1, hx⟩ | rfl
      · exact .inr ⟨x, reads_words.1 hx, by rw [Reads.lit.1 h1]⟩
      · exact .inl rfl
  · rintro ⟨pre, w, o, z, hb, hw, ho, rfl⟩
    refine ⟨pre, w ++ (o ++ c!" "), z, by simp, [], _, rfl, ⟨rfl, ?_⟩, w, _, rfl, Reads.ilit.2 hw, o, _, rfl, ?_, Reads.lit.2 rfl⟩
    · show wordAt pre.reverse ≠ wordAt (w ++ (o ++ _) ++ z)
      rw [bound.1 hb, List.append_assoc, word hw]; simp
    · rcases ho with rfl | ⟨x, hx, rfl⟩
      · exact .inr rfl
      · exact .inl ⟨_, x, rfl, Reads.lit.2 rfl, reads_words.2 hx⟩

end Verif.ReceivedRe
