import Verif.Lemmas.Strip
import Verif.Spec.Header

namespace Verif.Mail
open Verif Py Spec

theorem toLower_idem (c : Char) : c.toLower.toLower = c.toLower := by
  by_cases h : c.val ≥ 'A'.val ∧ c.val ≤ 'Z'.val
  · have hn : ¬ (c.toLower.val ≥ 'A'.val ∧ c.toLower.val ≤ 'Z'.val) := by
      unfold Char.toLower
      rw [dif_pos h]
      have h' := h
      simp only [ge_iff_le, UInt32.le_iff_toNat_le] at h'
      simp only [ge_iff_le, UInt32.le_iff_toNat_le, UInt32.toNat_add]
      have e1 : 'A'.val.toNat = 65 := rfl
      have e2 : 'Z'.val.toNat = 90 := rfl
      have e3 : ('a'.val - 'A'.val).toNat = 32 := rfl
      omega
    generalize c.toLower = d at hn
    unfold Char.toLower
    rw [dif_neg hn]
  · have e : c.toLower = c := by unfold Char.toLower; rw [dif_neg h]
    rw [e, e]

theorem lower_idem (s : Str) : lower (lower s) = lower s := by
  simp [lower, toLower_idem]

variable {V : Type}

theorem find_put (h : Headers V) (n n' : Str) (vs : List V) :
    (h.put n vs).find n' = if lower n = lower n' then some vs else h.find n' := by
  unfold Headers.put Headers.find
  rw [Dict.get?_set]

theorem find_congr (h : Headers V) {n n' : Str} (e : lower n = lower n') : h.find n = h.find n' := by
  unfold Headers.find; rw [e]

theorem rawValues_congr (hs : List (Str × Str)) {n n' : Str} (e : lower n = lower n') :
    rawValues hs n = rawValues hs n' := by
  unfold rawValues; rw [e]

theorem decodedValues_congr (L : MailLib) (hs : List (Str × Str)) {n n' : Str} (e : lower n = lower n') :
    decodedValues L hs n = decodedValues L hs n' := by
  unfold decodedValues; rw [rawValues_congr hs e]

theorem collect_find (hs : List (Str × Str)) (n : Str) :
    (collect hs).find n = if rawValues hs n = [] then none else some (rawValues hs n) := by
  have gen : ∀ (hs : List (Str × Str)) (h : Headers Str),
      (hs.foldl (fun (h : Headers Str) (p : Str × Str) => h.append p.1 p.2) h).find n =
        if rawValues hs n = [] then h.find n else some ((h.find n).getD [] ++ rawValues hs n) := by
    intro hs
    induction hs with
    | nil => intro h; simp [rawValues]
    | cons p ps ih =>
      intro h
      rw [List.foldl_cons, ih]
      unfold Headers.append
      rw [find_put]
      by_cases e : lower p.1 = lower n
      · have e1 : rawValues (p :: ps) n = p.2 :: rawValues ps n := by simp [rawValues, e]
        rw [e1, find_congr h e]
        simp only [e, if_true]
        by_cases he : rawValues ps n = [] <;> simp [he]
      · have e1 : rawValues (p :: ps) n = rawValues ps n := by simp [rawValues, e]
        rw [e1]
        simp [e]
  rw [collect, gen]
  simp [Headers.find]

theorem getRaw_eq {m : Msg} {hs : List (Str × Str)} (h : m.raw = collect hs) (n : Str) :
    getRaw m n = rawValues hs n := by
  unfold getRaw
  rw [h, collect_find]
  split <;> simp_all

/-- What accesses preserve. -/
structure Good (L : MailLib) (hs mhs : List (Str × Str)) (m : Msg) : Prop where
  raw : m.raw = collect hs
  rawMime : m.rawMime = collect mhs
  headers : ∀ n vs, m.headers.find n = some vs → vs = decodedValues L hs n
  empty : L.lazy = true → m.headers = []
  addr : ∀ n vs, m.addr.find n = some vs → firstOf L.addresses Prod.snd (decodedValues L hs n) = some vs
  name : ∀ n vs, m.name.find n = some vs → firstOf L.addresses Prod.fst (decodedValues L hs n) = some vs
  mime : ∀ n vs, m.mime.find n = some vs → vs = decodedValues L mhs n

theorem Good.init (L : MailLib) (hs mhs : List (Str × Str)) : Good L hs mhs (Msg.ofHeaders hs mhs) := by
  constructor <;> simp [Msg.ofHeaders, Headers.find]

variable {L : MailLib} {hs mhs : List (Str × Str)} {m : Msg}

theorem getDecoded_good (g : Good L hs mhs m) (n : Str) :
    (getDecoded L n m).1 = decodedValues L hs n ∧ Good L hs mhs (getDecoded L n m).2 := by
  unfold getDecoded
  have e := getRaw_eq g.raw n
  by_cases hl : L.lazy = true
  · simp only [hl, if_true]
    rw [g.empty hl, e]
    exact ⟨by simp [Headers.find, decodedValues], g⟩
  · simp only [hl]
    cases hf : m.headers.find n with
    | some vs => exact ⟨g.headers n vs hf, g⟩
    | none =>
      simp only [e, Option.getD_none, List.append_nil, Bool.false_eq_true, if_false]
      refine ⟨rfl, ⟨g.raw, g.rawMime, ?_, fun h => absurd h hl, g.addr, g.name, g.mime⟩⟩
      intro n' vs hv
      simp only [find_put] at hv
      split at hv
      · rename_i en
        simp only [Option.some.injEq] at hv
        rw [← hv]
        exact decodedValues_congr L hs en
      · exact g.headers n' vs hv

theorem getAddr_good (g : Good L hs mhs m) (n : Str) :
    (getAddr L n m).1 = firstOf L.addresses Prod.snd (decodedValues L hs n) ∧
      Good L hs mhs (getAddr L n m).2 := by
  obtain ⟨h1, h2⟩ := getDecoded_good g n
  unfold getAddr
  rcases hg : getDecoded L n m with ⟨vs0, m1⟩
  rw [hg] at h1 h2
  simp only at h1 h2
  subst h1
  simp only
  by_cases hl : L.lazy = true
  · simp only [hl, if_true]; exact ⟨trivial, h2⟩
  · simp only [hl, Bool.false_eq_true, if_false]
    cases hf : m.addr.find n with
    | some vs => exact ⟨(g.addr n vs hf).symm, g⟩
    | none =>
      cases hr : firstOf L.addresses Prod.snd (decodedValues L hs n) with
      | none => exact ⟨rfl, h2⟩
      | some a =>
        refine ⟨rfl, ⟨h2.raw, h2.rawMime, h2.headers, h2.empty, ?_, h2.name, h2.mime⟩⟩
        intro n' vs hv
        simp only [find_put] at hv
        split at hv
        · rename_i en
          simp only [Option.some.injEq] at hv
          rw [← hv, ← decodedValues_congr L hs en, hr]
        · exact h2.addr n' vs hv

theorem getName_good (g : Good L hs mhs m) (n : Str) :
    (getName L n m).1 = firstOf L.addresses Prod.fst (decodedValues L hs n) ∧
      Good L hs mhs (getName L n m).2 := by
  obtain ⟨h1, h2⟩ := getDecoded_good g n
  unfold getName
  rcases hg : getDecoded L n m with ⟨vs0, m1⟩
  rw [hg] at h1 h2
  simp only at h1 h2
  subst h1
  simp only
  by_cases hl : L.lazy = true
  · simp only [hl, if_true]; exact ⟨trivial, h2⟩
  · simp only [hl, Bool.false_eq_true, if_false]
    cases hf : m.name.find n with
    | some vs => exact ⟨(g.name n vs hf).symm, g⟩
    | none =>
      cases hr : firstOf L.addresses Prod.fst (decodedValues L hs n) with
      | none => exact ⟨rfl, h2⟩
      | some a =>
        refine ⟨rfl, ⟨h2.raw, h2.rawMime, h2.headers, h2.empty, h2.addr, ?_, h2.mime⟩⟩
        intro n' vs hv
        simp only [find_put] at hv
        split at hv
        · rename_i en
          simp only [Option.some.injEq] at hv
          rw [← hv, ← decodedValues_congr L hs en, hr]
        · exact h2.name n' vs hv

theorem getMime_good (g : Good L hs mhs m) (n : Str) :
    (getMime L n m).1 = decodedValues L mhs n ∧ Good L hs mhs (getMime L n m).2 := by
  have e : getRawMime m n = rawValues mhs n := by
    unfold getRawMime
    rw [g.rawMime, collect_find]
    split <;> simp_all
  unfold getMime
  rw [e]
  by_cases hl : L.lazy = true
  · simp only [hl, if_true]; exact ⟨rfl, g⟩
  · simp only [hl, Bool.false_eq_true, if_false]
    cases hf : m.mime.find n with
    | some vs => exact ⟨g.mime n vs hf, g⟩
    | none =>
      refine ⟨rfl, ⟨g.raw, g.rawMime, g.headers, g.empty, g.addr, g.name, ?_⟩⟩
      intro n' vs hv
      simp only [find_put] at hv
      split at hv
      · rename_i en
        simp only [Option.some.injEq] at hv
        rw [← hv]
        exact decodedValues_congr L mhs en
      · exact g.mime n' vs hv

theorem iterFrom_good (g : Good L hs mhs m) (ns : List Str) :
    (iterFrom L ns m).1 = ns.flatMap (fun n => (decodedValues L hs n).map
        (fun v => n ++ c!": " ++ v.getD c!"None")) ∧
      Good L hs mhs (iterFrom L ns m).2 := by
  induction ns generalizing m with
  | nil => exact ⟨rfl, g⟩
  | cons n ns ih =>
    obtain ⟨h1, h2⟩ := getDecoded_good g n
    obtain ⟨h3, h4⟩ := ih h2
    simp only [iterFrom, h1, h3, List.flatMap_cons]
    exact ⟨trivial, h4⟩

theorem getAllAddr_good (g : Good L hs mhs m) (n : Str) :
    (getAllAddr L n m).1 = allAddrs L.addresses (decodedValues L hs n) ∧
      Good L hs mhs (getAllAddr L n m).2 := by
  obtain ⟨h1, h2⟩ := getDecoded_good g n
  unfold getAllAddr
  rw [← h1]
  exact ⟨rfl, h2⟩

theorem access_good (g : Good L hs mhs m) (a : Access) : Good L hs mhs (a.run L m) := by
  cases a with
  | decoded n => exact (getDecoded_good g n).2
  | addr n => exact (getAddr_good g n).2
  | name n => exact (getName_good g n).2
  | mime n => exact (getMime_good g n).2
  | all => exact (iterFrom_good g _).2

theorem accessed_good (L : MailLib) (hs mhs : List (Str × Str)) (ops : List Access) :
    Good L hs mhs (accessed L hs mhs ops) := by
  unfold accessed
  have gen : ∀ (ops : List Access) (m : Msg), Good L hs mhs m →
      Good L hs mhs (ops.foldl (fun (m : Msg) (a : Access) => a.run L m) m) := by
    intro ops
    induction ops with
    | nil => intro m g; exact g
    | cons a as ih => intro m g; exact ih _ (access_good g a)
  exact gen ops _ (Good.init L hs mhs)

end Verif.Mail

namespace Verif.Mail
open Verif Py Spec

variable {L : MailLib} {hs mhs : List (Str × Str)} {dec : Str → Str} {A : Str → List (Str × Str)}

theorem rawValues_mem {n v : Str} (h : v ∈ rawValues hs n) : ∃ p ∈ hs, p.2 = v ∧ lower p.1 = lower n := by
  unfold rawValues at h
  obtain ⟨p, hp, rfl⟩ := List.mem_map.1 h
  rw [List.mem_filter] at hp
  exact ⟨p, hp.1, rfl, by simpa using hp.2⟩

theorem decoded_reads (hd : ∀ p ∈ hs, L.decode p.2 = some (dec p.2)) (n : Str) :
    decodedValues L hs n = ((rawValues hs n).map dec).map some := by
  unfold decodedValues
  rw [List.map_map]
  apply List.map_congr_left
  intro v hv
  obtain ⟨p, hp, rfl, _⟩ := rawValues_mem hv
  exact hd p hp

theorem firstOf_reads (hA : ∀ v, L.addresses (some v) = some (A v)) (pick : Str × Str → Str) (vs : List Str) :
    firstOf L.addresses pick (vs.map some) =
      some (vs.filterMap (fun v => firstNonEmpty ((A v).map pick))) := by
  induction vs with
  | nil => rfl
  | cons v vs ih =>
    simp only [List.map_cons, firstOf, hA, ih, List.filterMap_cons, firstNonEmpty]
    cases List.find? (fun a => decide (a ≠ [])) (List.map pick (A v)) <;> rfl

theorem allAddrs_reads (hA : ∀ v, L.addresses (some v) = some (A v)) (vs : List Str) :
    allAddrs L.addresses (vs.map some) =
      some ((vs.flatMap (fun v => (A v).map Prod.snd)).filter (fun a => a ≠ [])) := by
  induction vs with
  | nil => rfl
  | cons v vs ih =>
    simp only [List.map_cons, allAddrs, hA, ih, List.flatMap_cons, List.filter_append]

theorem allAddrs_of (r : Reads L hs dec A) (n : Str) :
    allAddrs L.addresses (decodedValues L hs n) = some (addressesOf dec A hs n) := by
  rw [decoded_reads r.decodes, allAddrs_reads r.parses]
  unfold addressesOf
  rw [List.flatMap_map]

theorem addrsOfKeys_good (r : Reads L hs dec A) (ks : List Str) {m : Msg} (g : Good L hs mhs m) :
    (addrsOfKeys L ks m).1 = some (ks.flatMap (addressesOf dec A hs)) ∧
      Good L hs mhs (addrsOfKeys L ks m).2 := by
  induction ks generalizing m with
  | nil => exact ⟨rfl, g⟩
  | cons k ks ih =>
    obtain ⟨h1, h2⟩ := getAllAddr_good g k
    rw [allAddrs_of r] at h1
    simp only [addrsOfKeys]
    rcases hg : getAllAddr L k m with ⟨a, m1⟩
    rw [hg] at h1 h2
    simp only at h1 h2
    subst h1
    simp only
    obtain ⟨h3, h4⟩ := ih h2
    rcases hg2 : addrsOfKeys L ks m1 with ⟨b, m2⟩
    rw [hg2] at h3 h4
    simp only at h3 h4
    subst h3
    exact ⟨by simp, h4⟩

/-! ### Line breaks -/

/-- Character-wise description of the translation. -/
def normEol : Str → Str
  | [] => []
  | '\r' :: '\n' :: cs => '\n' :: normEol cs
  | '\r' :: cs => '\n' :: normEol cs
  | c :: cs => c :: normEol cs

theorem replace_cr (s : Str) : replace c!"\r" c!"\n" s = s.map (fun c => if c = '\r' then '\n' else c) := by
  induction s with
  | nil => rfl
  | cons c cs ih =>
    rw [replace_cons _ _ (by simp)]
    by_cases h : c = '\r'
    · subst h; simp [List.isPrefixOf, ih]
    · simp [List.isPrefixOf, h, ih, Ne.symm h]

theorem translate_norm (s : Str) : translateLineBreaks s = normEol s := by
  unfold translateLineBreaks
  rw [replace_cr]
  induction s using normEol.induct with
  | case1 => rfl
  | case2 cs ih =>
    rw [replace_cons _ _ (by simp), normEol]
    simp [List.isPrefixOf] 
    simpa using ih
  | case3 cs hne ih =>
    rw [replace_cons _ _ (by simp), normEol]
    · have : List.isPrefixOf c!"\r\n" ('\r' :: cs) = false := by
        cases cs with
        | nil => rfl
        | cons x xs =>
          have : x ≠ '\n' := fun e => hne xs (by rw [e])
          simp [List.isPrefixOf, Ne.symm this]
      rw [this]
      simp only [Bool.false_eq_true, if_false, List.map_cons, ih, if_true]
    · exact hne
  | case4 c cs h1 h2 ih =>
    rw [replace_cons _ _ (by simp), normEol]
    · have : List.isPrefixOf c!"\r\n" (c :: cs) = false := by
        have : c ≠ '\r' := fun e => h2 e
        simp [List.isPrefixOf, Ne.symm this]
      rw [this]
      have : c ≠ '\r' := fun e => h2 e
      simp only [Bool.false_eq_true, if_false, List.map_cons, ih, this]
    · exact h1
    · exact h2

end Verif.Mail

namespace Verif.Mail
open Verif Py Spec

/-- All headers but `Received` read as written. -/
structure Readable (L : MailLib) (hs : List (Str × Str)) (m : Msg) : Prop where
  raw : m.raw = collect hs
  headers : ∀ n vs, lower n ≠ c!"received" → m.headers.find n = some vs → vs = decodedValues L hs n
  empty : L.lazy = true → m.headers = []

variable {L : MailLib} {hs mhs : List (Str × Str)} {m : Msg}

theorem Readable.ofGood (g : Good L hs mhs m) : Readable L hs m :=
  ⟨g.raw, fun n vs _ h => g.headers n vs h, g.empty⟩

theorem getDecoded_except (g : Readable L hs m) (n : Str) :
    (lower n ≠ c!"received" → (getDecoded L n m).1 = decodedValues L hs n) ∧
    Readable L hs (getDecoded L n m).2 ∧
    (L.lazy = true → (getDecoded L n m).1 = decodedValues L hs n) := by
  unfold getDecoded
  have e := getRaw_eq g.raw n
  by_cases hl : L.lazy = true
  · simp only [hl, if_true]
    rw [g.empty hl, e]
    exact ⟨by simp [Headers.find, decodedValues], g, by simp [Headers.find, decodedValues]⟩
  · simp only [hl]
    cases hf : m.headers.find n with
    | some vs => exact ⟨fun h => g.headers n vs h hf, g, by simp⟩
    | none =>
      simp only [e, Option.getD_none, List.append_nil, Bool.false_eq_true, if_false]
      refine ⟨fun _ => rfl, ⟨g.raw, ?_, fun h => absurd h hl⟩, by simp⟩
      intro n' vs hn hv
      simp only [find_put] at hv
      split at hv
      · rename_i en
        simp only [Option.some.injEq] at hv
        rw [← hv]
        exact decodedValues_congr L hs en
      · exact g.headers n' vs hn hv

theorem Readable.put (g : Readable L hs m) (vs : List (Option Str)) (hl : L.lazy = false) :
    Readable L hs { m with headers := m.headers.put c!"Received" vs } := by
  refine ⟨g.raw, ?_, fun h => by rw [hl] at h; cases h⟩
  intro n vs' hn hv
  simp only [find_put] at hv
  split at hv
  · rename_i en
    exfalso; apply hn; rw [← en]; decide
  · exact g.headers n vs' hn hv

end Verif.Mail
