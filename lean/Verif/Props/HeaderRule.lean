import Verif.Lemmas.HeaderRule
import Verif.Props.Header
import Verif.Props.Message

/-!
# C16: what header rules mean
-/

namespace Verif.Props
open Verif Py Mail Spec

variable {R : Type}

/-- **C16** (partial).  `NAME =~ /re/`, `NAME !~ /re/` and their variants `NAME:raw`, `NAME:addr`,
`NAME:name` are read as a rule that, on every message and whatever was looked at before, matches
exactly if some text of the chosen view of the headers called `NAME` satisfies the pattern.

Missing from the full statement: patterns after `!~` that contain `=~` (`C16_operator_violated`)
and messages with headers that cannot be decoded (`C16_undecodable_violated`). -/
theorem C16_pattern_partial (L : ReLib R) (view : HView) (neg : Bool) (name sp1 sp2 pat : Str) (p : Pat R)
    (hname : PlainName name) (hspecial : name ∉ [c!"ALL", c!"ToCc", c!"MESSAGEID"] ∨ view ≠ .decoded)
    (h1 : Blank sp1) (h2 : Blank sp2) (hp : perl2re L pat neg = .ok p)
    (hop : neg = true → ¬ c!"=~" <:+: pat)
    {ML : MailLib} {hs : List (Str × Str)} {dec : Str → Str} {A : Str → List (Str × Str)}
    (r : Reads ML hs dec A) (mhs : List (Str × Str)) (ops : List Access) :
    ∃ rule, headerRule L (sp1 ++ name ++ viewSuffix view ++ sp2 ++ opText neg ++ pat) = .ok (some rule) ∧
      (rule.run ML L (accessed ML hs mhs ops)).1 =
        some ((viewTexts dec A hs name view).any (p.test L)) := by
  have g := accessed_good ML hs mhs ops
  have hcolon : ':' ∉ name := fun h => (hname.2 _ h).2.1 rfl
  have htilde : '~' ∉ name := fun h => (hname.2 _ h).2.2 rfl
  have hb : ∀ {s : Str}, Blank s → '~' ∉ s := fun hs h => by have := hs _ h; revert this; decide
  have hkey : headerRule L (sp1 ++ name ++ viewSuffix view ++ sp2 ++ opText neg ++ pat) =
      .ok (some (.pattern view name p)) := by
    rw [headerRule_split L neg _ pat (by
      simp only [List.mem_append, not_or]
      refine ⟨⟨⟨hb h1, htilde⟩, by cases view <;> decide⟩, hb h2⟩) hop, hp]
    have hsuf : strip (sp1 ++ name ++ viewSuffix view ++ sp2) = name ++ viewSuffix view := by
      rw [List.append_assoc sp1]
      apply strip_around h1 h2
      · obtain ⟨hne, hc⟩ := hname
        cases name with
        | nil => exact absurd rfl hne
        | cons c cs => exact ⟨c, _, rfl, (hc c (by simp)).1⟩
      · cases view with
        | decoded =>
          obtain ⟨hne, hc⟩ := hname
          rcases List.eq_nil_or_concat name with rfl | ⟨cs, c, rfl⟩
          · exact absurd rfl hne
          · exact ⟨cs, c, by simp [viewSuffix], (hc c (by simp)).1⟩
        | raw => exact ⟨name ++ c!":ra", 'w', by simp [viewSuffix], by decide⟩
        | addr => exact ⟨name ++ c!":add", 'r', by simp [viewSuffix], by decide⟩
        | name => exact ⟨name ++ c!":nam", 'e', by simp [viewSuffix], by decide⟩
    rw [hsuf]
    have hstrip : strip name = name := by
      have := plainName_strip (sp1 := []) (sp2 := []) hname (by simp [Blank]) (by simp [Blank])
      simpa using this
    have hns : ∀ (s t : Str), ':' ∉ t → name ++ ':' :: s ≠ t := by
      intro s t ht e; apply ht; rw [← e]; simp
    cases view with
    | decoded =>
      simp only [viewSuffix, List.append_nil, ne_eq, not_true, or_false, List.mem_cons, List.not_mem_nil,
        not_or] at *
      rw [if_neg hspecial.1, if_neg hspecial.2.1, if_neg hspecial.2.2, rsplit1_none hcolon, hstrip]
    | raw =>
      simp only [viewSuffix]
      have f1 : ¬ (name ++ c!":raw" = c!"ALL") := hns _ _ (by decide)
      have f2 : ¬ (name ++ c!":raw" = c!"ToCc") := hns _ _ (by decide)
      have f3 : ¬ (name ++ c!":raw" = c!"MESSAGEID") := hns _ _ (by decide)
      have f4 : rsplit1 ':' (name ++ c!":raw") = some (name, c!"raw") := rsplit1_append name (by decide)
      simp [f1, f2, f3, f4, hstrip]
    | addr =>
      simp only [viewSuffix]
      have f1 : ¬ (name ++ c!":addr" = c!"ALL") := hns _ _ (by decide)
      have f2 : ¬ (name ++ c!":addr" = c!"ToCc") := hns _ _ (by decide)
      have f3 : ¬ (name ++ c!":addr" = c!"MESSAGEID") := hns _ _ (by decide)
      have f4 : rsplit1 ':' (name ++ c!":addr") = some (name, c!"addr") := rsplit1_append name (by decide)
      simp [f1, f2, f3, f4, hstrip]
    | name =>
      simp only [viewSuffix]
      have f1 : ¬ (name ++ c!":name" = c!"ALL") := hns _ _ (by decide)
      have f2 : ¬ (name ++ c!":name" = c!"ToCc") := hns _ _ (by decide)
      have f3 : ¬ (name ++ c!":name" = c!"MESSAGEID") := hns _ _ (by decide)
      have f4 : rsplit1 ':' (name ++ c!":name") = some (name, c!"name") := rsplit1_append name (by decide)
      simp [f1, f2, f3, f4, hstrip]
  refine ⟨_, hkey, ?_⟩
  cases view with
  | decoded =>
    simp only [HRule.run]
    rw [(getDecoded_good g name).1, decoded_reads r.decodes, anyValue_some]
    rfl
  | raw =>
    simp only [HRule.run]
    rw [getRaw_eq g.raw, anyValue_some]
    rfl
  | addr =>
    have := (C35_first_address r mhs ops name).1
    simp only [HRule.run]
    rcases hg : getAddr ML name (accessed ML hs mhs ops) with ⟨a, m1⟩
    rw [hg] at this
    simp only at this
    subst this
    simp only [anyValue_some]
  | name =>
    have := (C35_first_address r mhs ops name).2
    simp only [HRule.run]
    rcases hg : getName ML name (accessed ML hs mhs ops) with ⟨a, m1⟩
    rw [hg] at this
    simp only at this
    subst this
    simp only [anyValue_some]

example : PlainName c!"Subject" ∧
    ∃ rule, headerRule textLib c!" Subject:raw !~ /b/" = .ok (some rule) ∧
      (rule.run (plainMail false) textLib (accessed (plainMail false) demoHeaders [] [])).1 = some true := by
  refine ⟨?_, _, rfl, by decide⟩
  unfold PlainName; decide

theorem perl2re_neg (L : ReLib R) {pat : Str} {neg : Bool} {p : Pat R} (h : perl2re L pat neg = .ok p) : p.neg = neg := by
  unfold perl2re at h
  split at h
  · cases h
  · split at h
    · cases h
    · split at h
      · cases h
      · split at h <;> cases h
        rfl

/-- **C16** is violated: if `=~` occurs anywhere in the value, as in the pattern of `Subject !~ /a=~b/`, the rule looks for values that
match, not for values that do not. -/
theorem C16_operator_violated (L : ReLib R) (v : Str) (h : c!"=~" <:+: v) (rule : HRule R) (hr : headerRule L v = .ok (some rule)) :
    ∃ p : Pat R, p.neg = false ∧ (rule = .all p ∨ (∃ hs, rule = .multi hs p) ∨ ∃ view n, rule = .pattern view n p) := by
  unfold headerRule at hr
  simp only [(hasSub_iff _ _).2 h, if_true] at hr
  split at hr
  · cases hr
  · split at hr
    · cases hr
    · rename_i p hp
      refine ⟨p, perl2re_neg L hp, ?_⟩
      split at hr
      · cases hr; exact Or.inl rfl
      · split at hr
        · cases hr; exact Or.inr (Or.inl ⟨_, rfl⟩)
        · split at hr
          · cases hr; exact Or.inr (Or.inl ⟨_, rfl⟩)
          · split at hr
            · split at hr
              · cases hr; exact Or.inr (Or.inr ⟨_, _, rfl⟩)
              · split at hr
                · cases hr; exact Or.inr (Or.inr ⟨_, _, rfl⟩)
                · split at hr
                  · cases hr; exact Or.inr (Or.inr ⟨_, _, rfl⟩)
                  · cases hr
            · cases hr; exact Or.inr (Or.inr ⟨_, _, rfl⟩)

/-- **C16** is violated: a value that cannot be decoded makes the rule fail, whatever the values after it are. -/
theorem C16_undecodable_violated (L : ReLib R) (ML : MailLib) (name : Str) (p : Pat R) (hs mhs : List (Str × Str)) (ops : List Access)
    (before after : List Str) (bad : Str) (hv : rawValues hs name = before ++ bad :: after) (hbad : ML.decode bad = none)
    (hb : ∀ v ∈ before, ∀ t, ML.decode v = some t → p.test L t = false) :
    ((HRule.pattern .decoded name p).run ML L (accessed ML hs mhs ops)).1 = none := by
  have h1 := (getDecoded_good (accessed_good ML hs mhs ops) name).1
  have key : ∀ l : List Str, (∀ v ∈ l, ∀ t, ML.decode v = some t → p.test L t = false) →
      anyValue L p (l.map ML.decode ++ none :: after.map ML.decode) = none := by
    intro l
    induction l with
    | nil => intro _; rfl
    | cons v l ih =>
      intro h
      cases hd : ML.decode v with
      | none => simp [hd, anyValue]
      | some t =>
        simp only [List.map_cons, List.cons_append, hd, anyValue, h v (by simp) t hd, Bool.false_eq_true, if_false]
        exact ih (fun x hx => h x (by simp [hx]))
  have h2 : (getDecoded ML name (accessed ML hs mhs ops)).1 = before.map ML.decode ++ none :: after.map ML.decode := by
    rw [h1]
    unfold decodedValues
    rw [hv]
    simp [hbad]
  unfold HRule.run
  simp only [h2]
  exact key before hb

example :
    perl2re textLib c!" /a=~b/" true = .ok { re := (c!"a=~b", ⟨false, false, false, false⟩), neg := true } ∧
    headerRule textLib c!"Subject !~ /a=~b/" = .error .invalidRegex := by decide

example :
    ∃ ML : MailLib, ∃ rule, headerRule textLib c!"X =~ /a/" = .ok (some rule) ∧
      (rule.run ML textLib (Msg.ofHeaders [(c!"X", c!"=?bad"), (c!"X", c!"a")] [])).1 = none ∧
      ML.decode c!"a" = some c!"a" :=
  ⟨{ decode := fun v => if startsWith c!"=?" v then none else some v, addresses := fun _ => some [],
     lazy := false }, _, rfl, by decide, by decide⟩

/-- **C16**.  `ToCc` stands for the headers `To` and `Cc`, `MESSAGEID` for `Message-Id`,
`Resent-Message-Id` and `X-Message-Id`. -/
theorem C16_groups (L : ReLib R) (neg : Bool) (group : Str) (members : List Str) (sp1 sp2 pat : Str) (p : Pat R)
    (hgroup : (group, members) ∈ [(c!"ToCc", [c!"To", c!"Cc"]),
      (c!"MESSAGEID", [c!"Message-Id", c!"Resent-Message-Id", c!"X-Message-Id"])])
    (h1 : Blank sp1) (h2 : Blank sp2) (hp : perl2re L pat neg = .ok p)
    (hop : neg = true → ¬ c!"=~" <:+: pat)
    {ML : MailLib} {hs : List (Str × Str)} {dec : Str → Str}
    (hd : ∀ q ∈ hs, ML.decode q.2 = some (dec q.2)) (mhs : List (Str × Str)) (ops : List Access) :
    ∃ rule, headerRule L (sp1 ++ group ++ sp2 ++ opText neg ++ pat) = .ok (some rule) ∧
      (rule.run ML L (accessed ML hs mhs ops)).1 =
        some (members.any (fun h => (rawValues hs h).any (fun v => p.test L (dec v)))) := by
  have g := accessed_good ML hs mhs ops
  have hb : ∀ {s : Str}, Blank s → '~' ∉ s := fun hs h => by have := hs _ h; revert this; decide
  have hrun : ∀ (ms : List Str) (m : Msg), Good ML hs mhs m →
      (anyHeader ML L p ms m).1 =
        some (ms.any (fun h => (rawValues hs h).any (fun v => p.test L (dec v)))) := by
    intro ms
    induction ms with
    | nil => intro m _; rfl
    | cons k ks ih =>
      intro m g
      obtain ⟨e1, e2⟩ := getDecoded_good g k
      rw [decoded_reads hd] at e1
      simp only [anyHeader]
      rw [e1, anyValue_some]
      have e3 : (List.map dec (rawValues hs k)).any (p.test L) =
          (rawValues hs k).any (fun v => p.test L (dec v)) := by
        rw [List.any_map]; rfl
      rw [e3, List.any_cons]
      cases hany : (rawValues hs k).any (fun v => p.test L (dec v)) with
      | false => simp only [Bool.false_or]; exact ih _ e2
      | true => simp
  have hg2 : PlainName group ∧ '~' ∉ group := by
    simp only [List.mem_cons, Prod.mk.injEq, List.not_mem_nil, or_false] at hgroup
    rcases hgroup with ⟨rfl, rfl⟩ | ⟨rfl, rfl⟩
    · constructor
      · unfold PlainName; decide
      · decide
    · constructor
      · unfold PlainName; decide
      · decide
  have hkey : headerRule L (sp1 ++ group ++ sp2 ++ opText neg ++ pat) = .ok (some (.multi members p)) := by
    rw [headerRule_split L neg _ pat (by
      simp only [List.mem_append, not_or]
      exact ⟨⟨hb h1, hg2.2⟩, hb h2⟩) hop, hp]
    rw [plainName_strip hg2.1 h1 h2]
    simp only [List.mem_cons, Prod.mk.injEq, List.not_mem_nil, or_false] at hgroup
    rcases hgroup with ⟨rfl, rfl⟩ | ⟨rfl, rfl⟩ <;> rfl
  exact ⟨_, hkey, hrun members _ g⟩

example : ∃ rule, headerRule textLib c!"ToCc =~ /x/" = .ok (some rule) ∧
    (rule.run (plainMail false) textLib (accessed (plainMail false) demoHeaders [] [])).1 = some true :=
  ⟨_, rfl, by decide⟩

/-- **C16** (partial).  `ALL` tests every header of the message as `name: value` — but with the
name in lower case.  Missing: the name as it is written in the message (`C16_all_violated`). -/
theorem C16_all_partial (L : ReLib R) (neg : Bool) (sp1 sp2 pat : Str) (p : Pat R)
    (h1 : Blank sp1) (h2 : Blank sp2) (hp : perl2re L pat neg = .ok p)
    (hop : neg = true → ¬ c!"=~" <:+: pat)
    {ML : MailLib} {hs : List (Str × Str)} {dec : Str → Str}
    (hd : ∀ q ∈ hs, ML.decode q.2 = some (dec q.2)) (mhs : List (Str × Str)) (ops : List Access) :
    ∃ rule, headerRule L (sp1 ++ c!"ALL" ++ sp2 ++ opText neg ++ pat) = .ok (some rule) ∧
      (rule.run ML L (accessed ML hs mhs ops)).1 =
        some (hs.any (fun q => p.test L (lower q.1 ++ c!": " ++ dec q.2))) := by
  have hb : ∀ {s : Str}, Blank s → '~' ∉ s := fun hs h => by have := hs _ h; revert this; decide
  have hpn : PlainName c!"ALL" := by unfold PlainName; decide
  have hkey : headerRule L (sp1 ++ c!"ALL" ++ sp2 ++ opText neg ++ pat) = .ok (some (.all p)) := by
    rw [headerRule_split L neg _ pat (by
      simp only [List.mem_append, not_or]
      exact ⟨⟨hb h1, by decide⟩, hb h2⟩) hop, hp]
    rw [plainName_strip hpn h1 h2]
    rfl
  refine ⟨_, hkey, ?_⟩
  obtain ⟨names, _, hn2, hn3⟩ := C35_all hd mhs ops
  simp only [HRule.run]
  rw [hn3, anyValue_some]
  congr 1
  rw [Bool.eq_iff_iff, List.any_eq_true, List.any_eq_true]
  constructor
  · rintro ⟨t, ht, hx⟩
    obtain ⟨n, hn, ht⟩ := List.mem_flatMap.1 ht
    obtain ⟨v, hv, rfl⟩ := List.mem_map.1 ht
    obtain ⟨q, hq, rfl, hl⟩ := rawValues_mem hv
    obtain ⟨q', _, e⟩ := (hn2 n).1 hn
    have : lower q.1 = n := by rw [hl, ← e, lower_idem]
    exact ⟨q, hq, by rw [this]; exact hx⟩
  · rintro ⟨q, hq, hx⟩
    refine ⟨_, List.mem_flatMap.2 ⟨lower q.1, (hn2 _).2 ⟨q, hq, rfl⟩, List.mem_map_of_mem (a := q.2) ?_⟩, hx⟩
    unfold rawValues
    exact List.mem_map_of_mem (List.mem_filter.2 ⟨hq, by simp [lower_idem]⟩)

example : ∃ rule, headerRule textLib c!"ALL =~ /x-mailer: m/" = .ok (some rule) ∧
    (rule.run (plainMail false) textLib (accessed (plainMail false) demoHeaders [] [])).1 = some true :=
  ⟨_, rfl, by decide⟩

/-- Full statement of C16 for `ALL`: the rule is about the headers as they are written.  It fails for every expression that matches a header as it is written
and none of the headers with their names in lower case: the rule misses the message. -/
theorem C16_all_violated (L : ReLib R) (sp1 sp2 pat : Str) (p : Pat R)
    (h1 : Blank sp1) (h2 : Blank sp2) (hp : perl2re L pat false = .ok p)
    {ML : MailLib} {hs : List (Str × Str)} {dec : Str → Str}
    (hd : ∀ q ∈ hs, ML.decode q.2 = some (dec q.2)) (mhs : List (Str × Str)) (ops : List Access)
    (q : Str × Str) (hq : q ∈ hs) (hm : p.test L (q.1 ++ c!": " ++ dec q.2) = true)
    (hl : ∀ q ∈ hs, p.test L (lower q.1 ++ c!": " ++ dec q.2) = false) :
    hs.any (fun q => p.test L (q.1 ++ c!": " ++ dec q.2)) = true ∧
      ∃ rule, headerRule L (sp1 ++ c!"ALL" ++ sp2 ++ opText false ++ pat) = .ok (some rule) ∧
        (rule.run ML L (accessed ML hs mhs ops)).1 = some false := by
  refine ⟨List.any_eq_true.2 ⟨q, hq, hm⟩, ?_⟩
  obtain ⟨rule, hr, he⟩ := C16_all_partial L false sp1 sp2 pat p h1 h2 hp (by intro h; cases h) hd mhs ops
  refine ⟨rule, hr, he.trans ?_⟩
  congr 1
  rw [List.any_eq_false]
  intro q hq
  rw [hl q hq]
  simp

/-- A rule looking for `Subject: a` in all headers misses the header `Subject: a`. -/
example : ∃ p, perl2re textLib c!" /Subject: a/" false = .ok p ∧ p.test textLib (c!"Subject" ++ c!": " ++ c!"a") = true ∧
    (c!"Subject", c!"a") ∈ demoHeaders ∧ ∀ q ∈ demoHeaders, p.test textLib (lower q.1 ++ c!": " ++ q.2) = false ∧
      (plainMail false).decode q.2 = some q.2 :=
  ⟨_, rfl, by decide, by decide, by decide⟩

example : ∃ rule, headerRule textLib c!"ALL =~ /Subject: a/" = .ok (some rule) ∧
      (c!"Subject", c!"a") ∈ demoHeaders ∧
      (rule.run (plainMail false) textLib (Msg.ofHeaders demoHeaders [])).1 = some false :=
  ⟨_, rfl, by decide, by decide⟩

/-- **C16** (partial).  `exists:NAME` matches exactly if the message has a header called `NAME`.
Missing: names that begin with one of the letters of `exists` (`C16_exists_violated`), or that
contain a match operator. -/
theorem C16_exists_partial (L : ReLib R) (name trail : Str) (hname : PlainName name) (ht : Blank trail)
    (hfirst : ∀ c, name.head? = some c → c ∉ c!"exist")
    (ML : MailLib) (hs mhs : List (Str × Str)) (ops : List Access) :
    ∃ rule, headerRule L (c!"exists:" ++ name ++ trail) = .ok (some rule) ∧
      ((rule.run ML L (accessed ML hs mhs ops)).1 = some true ↔ ∃ p ∈ hs, lower p.1 = lower name) ∧
      ((rule.run ML L (accessed ML hs mhs ops)).1 = some false ↔ ¬ ∃ p ∈ hs, lower p.1 = lower name) := by
  have hb : ∀ {s : Str}, Blank s → '~' ∉ s := fun hs h => by have := hs _ h; revert this; decide
  have htilde : '~' ∉ c!"exists:" ++ name ++ trail := by
    simp only [List.mem_append, not_or]
    exact ⟨⟨by decide, fun h => (hname.2 _ h).2.2 rfl⟩, hb ht⟩
  have hn : ∀ c, hasSub [c, '~'] (c!"exists:" ++ name ++ trail) = false := by
    intro c
    cases hx : hasSub [c, '~'] (c!"exists:" ++ name ++ trail) with
    | false => rfl
    | true => exact absurd (hasSub_iff _ _ |>.1 hx) (no_infix_of_not_mem htilde)
  have hkey : headerRule L (c!"exists:" ++ name ++ trail) = .ok (some (.exists_ name)) := by
    unfold headerRule
    simp only [hn, Bool.false_eq_true, if_false]
    have hs : startsWith c!"exists:" (c!"exists:" ++ name ++ trail) = true := by
      unfold startsWith
      rw [List.isPrefixOf_iff_prefix]
      exact ⟨name ++ trail, by simp⟩
    rw [hs, if_pos rfl]
    have hl : lstripChars c!"exists:" (c!"exists:" ++ name ++ trail) = name ++ trail := by
      unfold lstripChars lstripBy
      rw [List.append_assoc, dropWhile_all _ (by decide)]
      cases name with
      | nil => exact absurd rfl hname.1
      | cons c cs =>
        rw [List.cons_append, dropWhile_head]
        have h1 := hfirst c rfl
        have h2 := (hname.2 c (by simp)).2.1
        simp only [List.mem_cons, List.not_mem_nil, or_false, not_or] at h1
        simp [h1, h2]
    rw [hl]
    have := plainName_strip (sp1 := []) hname (by simp [Blank]) ht
    simp only [List.nil_append] at this
    rw [this]
  refine ⟨_, hkey, ?_, ?_⟩
  · have := C35_presence ML hs mhs ops name
    simpa [HRule.run] using this
  · have := C35_presence ML hs mhs ops name
    simp only [HRule.run, Option.some.injEq]
    rw [← this]
    simp

example : PlainName c!"To" ∧ ∃ rule, headerRule textLib c!"exists:To " = .ok (some rule) ∧
    (rule.run (plainMail false) textLib (accessed (plainMail false) demoHeaders [] [])).1 = some true := by
  refine ⟨?_, _, rfl, by decide⟩
  unfold PlainName; decide

/-- **C16** is violated: letters of `exists:` at the beginning of the name are dropped, so that another header is looked for, like `-mailer`
for `exists:x-mailer`. -/
theorem C16_exists_violated (L : ReLib R) (pre name : Str) (hpre : ∀ c ∈ pre, c ∈ c!"exists:") (h1 : '~' ∉ name) :
    headerRule L (c!"exists:" ++ (pre ++ name)) = headerRule L (c!"exists:" ++ name) := by
  have hsub : ∀ (x : Char) (s : Str), '~' ∉ s → hasSub [x, '~'] s = false := by
    intro x s hs
    cases hx : hasSub [x, '~'] s with
    | false => rfl
    | true =>
      obtain ⟨a, b, rfl⟩ := (hasSub_iff _ _).1 hx
      simp at hs
  have e1 : '~' ∉ c!"exists:" ++ name := by
    simp only [List.mem_append, not_or]
    exact ⟨by decide, h1⟩
  have e2 : '~' ∉ c!"exists:" ++ (pre ++ name) := by
    simp only [List.mem_append, not_or]
    exact ⟨by decide, fun h => absurd (hpre _ h) (by decide), h1⟩
  have e3 : ∀ x, startsWith c!"exists:" (c!"exists:" ++ x) = true := fun x => by
    unfold startsWith
    rw [List.isPrefixOf_iff_prefix]
    exact List.prefix_append _ _
  have e4 : ∀ x, lstripChars c!"exists:" (c!"exists:" ++ x) = lstripChars c!"exists:" x := by
    intro x
    unfold lstripChars lstripBy
    exact dropWhile_all _ (by decide)
  have e5 : lstripChars c!"exists:" (pre ++ name) = lstripChars c!"exists:" name := by
    unfold lstripChars lstripBy
    exact dropWhile_all _ (fun c hc => by simpa using hpre c hc)
  unfold headerRule
  rw [show hasSub c!"=~" (c!"exists:" ++ (pre ++ name)) = false from hsub '=' _ e2,
    show hasSub c!"!~" (c!"exists:" ++ (pre ++ name)) = false from hsub '!' _ e2,
    show hasSub c!"=~" (c!"exists:" ++ name) = false from hsub '=' _ e1,
    show hasSub c!"!~" (c!"exists:" ++ name) = false from hsub '!' _ e1]
  simp only [Bool.false_eq_true, if_false]
  rw [e3, e3, e4, e4, e5]

example :
    headerRule textLib c!"exists:x-mailer" = .ok (some (.exists_ c!"-mailer")) ∧
    (∃ p ∈ demoHeaders, lower p.1 = c!"x-mailer") ∧
    ((HRule.exists_ c!"-mailer" : HRule (Str × ReFlags)).run (plainMail false) textLib
      (Msg.ofHeaders demoHeaders [])).1 = some false := by decide

/-- **C16** (partial).  `mimeheader` rules test the headers of all parts of the message in the same
way, decoded or `:raw`.  Missing: as for `C16_pattern_partial`. -/
theorem C16_mime_partial (L : ReLib R) (raw neg : Bool) (name sp1 sp2 pat : Str) (p : Pat R)
    (hname : PlainName name) (h1 : Blank sp1) (h2 : Blank sp2) (hp : perl2re L pat neg = .ok p)
    (hop : neg = true → ¬ c!"=~" <:+: pat)
    {ML : MailLib} {mhs : List (Str × Str)} {dec : Str → Str}
    (hd : ∀ q ∈ mhs, ML.decode q.2 = some (dec q.2)) (hs : List (Str × Str)) (ops : List Access) :
    ∃ rule, mimeHeaderRule L (sp1 ++ name ++ (if raw then c!":raw" else []) ++ sp2 ++ opText neg ++ pat) =
        .ok (some rule) ∧
      (rule.run ML L (accessed ML hs mhs ops)).1 =
        some ((rawValues mhs name).any (fun v => p.test L (if raw then v else dec v))) := by
  have g := accessed_good ML hs mhs ops
  have hcolon : ':' ∉ name := fun h => (hname.2 _ h).2.1 rfl
  have htilde : '~' ∉ name := fun h => (hname.2 _ h).2.2 rfl
  have hb : ∀ {s : Str}, Blank s → '~' ∉ s := fun hs h => by have := hs _ h; revert this; decide
  have hstrip : strip name = name := by
    have := plainName_strip (sp1 := []) (sp2 := []) hname (by simp [Blank]) (by simp [Blank])
    simpa using this
  obtain ⟨x, xs, hx⟩ : ∃ x xs, name = x :: xs := by
    cases name with
    | nil => exact absurd rfl hname.1
    | cons x xs => exact ⟨x, xs, rfl⟩
  have hxs : isSpace x = false := (hname.2 x (by simp [hx])).1
  have hkey : mimeHeaderRule L (sp1 ++ name ++ (if raw then c!":raw" else []) ++ sp2 ++ opText neg ++ pat) =
      .ok (some (.mime raw name p)) := by
    have e : sp1 ++ name ++ (if raw then c!":raw" else []) ++ sp2 ++ opText neg ++ pat =
        sp1 ++ (name ++ ((if raw then c!":raw" else []) ++ sp2)) ++ opText neg ++ pat := by simp
    rw [e, mimeHeaderRule_split L neg sp1 _ x (xs ++ ((if raw then c!":raw" else []) ++ sp2)) pat h1
      (by rw [hx]; rfl) hxs (by
        simp only [List.mem_append, not_or]
        exact ⟨htilde, by cases raw <;> decide, hb h2⟩) hop, hp]
    cases raw with
    | false =>
      have e2 : strip (name ++ ((if false = true then c!":raw" else []) ++ sp2)) = name := by
        have := plainName_strip (sp1 := []) hname (by simp [Blank]) h2
        simpa using this
      rw [e2, rsplit1_none hcolon, hstrip]
    | true =>
      have e2 : strip (name ++ ((if true = true then c!":raw" else []) ++ sp2)) = name ++ c!":raw" := by
        have := strip_around (lead := []) (core := name ++ c!":raw") (trail := sp2) (by simp) h2
          ⟨x, xs ++ c!":raw", by rw [hx]; rfl, hxs⟩ ⟨name ++ c!":ra", 'w', by simp, by decide⟩
        simpa using this
      have f4 : rsplit1 ':' (name ++ c!":raw") = some (name, c!"raw") := rsplit1_append name (by decide)
      rw [e2, f4]
      simp [hstrip]
  refine ⟨_, hkey, ?_⟩
  cases raw with
  | false =>
    simp only [HRule.run]
    rw [(getMime_good g name).1, decoded_reads hd, anyValue_some, List.any_map]
    rfl
  | true =>
    simp only [HRule.run]
    have e : getRawMime (accessed ML hs mhs ops) name = rawValues mhs name := (C35_raw ML hs mhs ops name).2
    rw [e, anyValue_some]
    rfl

example : ∃ rule, mimeHeaderRule textLib c!" Content-Type:raw =~ /text/ " = .ok (some rule) ∧
    (rule.run (plainMail false) textLib (accessed (plainMail false) []
      [(c!"content-type", c!"text/plain")] [])).1 = some true := ⟨_, rfl, by decide⟩

/-- A `mimeheader` rule without match operator is rejected as an invalid rule. -/
theorem C16_mime_operator (L : ReLib R) (value : Str) (h : '~' ∉ value) :
    mimeHeaderRule L value = .error .invalidRule := by
  have hn : ∀ c, hasSub [c, '~'] (strip value) = false := by
    intro c
    cases hx : hasSub [c, '~'] (strip value) with
    | false => rfl
    | true =>
      have := (hasSub_iff _ _).1 hx
      exfalso
      have hm : '~' ∈ strip value := this.subset (by simp)
      apply h
      unfold strip stripBy rstripBy lstripBy at hm
      have := (List.dropWhile_sublist _).subset (List.mem_reverse.1 hm)
      exact (List.dropWhile_sublist _).subset (List.mem_reverse.1 this)
  unfold mimeHeaderRule
  simp only [hn, Bool.false_eq_true, if_false]

end Verif.Props
