import Verif.Model.Stock
import Verif.Spec.Stock
import Verif.Lemmas.ReLocal
import Mathlib.Tactic.Linarith

/-!
# C173: the rule about words of the stock market
-/

namespace Verif.Props
open Verif Py Re BodyEval Spec

/-! ### What the expression reads -/

/-- The expression reads the texts of a list, in letters of any case. -/
def InAny (r : Re) (L : List Str) : Prop := ∀ b w a, Re.Reads r b w a ↔ w.map Char.toLower ∈ L

theorem InAny.ilit {s : Str} (h : s.map Char.toLower = s) : InAny (ilit s) [s] := by
  intro b w a
  rw [Re.Reads.ilit, h, List.mem_singleton]

theorem InAny.alt {x y : Re} {L M : List Str} (hx : InAny x L) (hy : InAny y M) : InAny (.alt x y) (L ++ M) := by
  intro b w a
  rw [Re.Reads.alt, hx, hy, List.mem_append]

theorem InAny.opt {x : Re} {L : List Str} (hx : InAny x L) : InAny (opt x) (L ++ [[]]) := by
  intro b w a
  rw [Re.Reads.opt, hx, List.mem_append, List.mem_singleton, List.map_eq_nil_iff]

def products (L M : List Str) : List Str := L.flatMap fun x => M.map (x ++ ·)

theorem InAny.seq {x y : Re} {L M : List Str} (hx : InAny x L) (hy : InAny y M) : InAny (.seq x y) (products L M) := by
  intro b w a
  rw [Re.Reads.seq]
  simp only [products, List.mem_flatMap, List.mem_map]
  constructor
  · rintro ⟨u, v, rfl, h1, h2⟩
    exact ⟨_, (hx _ _ _).1 h1, _, (hy _ _ _).1 h2, (List.map_append ..).symm⟩
  · rintro ⟨s, hs, t, ht, e⟩
    obtain ⟨u, v, rfl, rfl, rfl⟩ := List.map_eq_append_iff.1 e.symm
    exact ⟨u, v, rfl, (hx _ _ _).2 hs, (hy _ _ _).2 ht⟩

/-- The first letter, perhaps another character, and then what `P` says. -/
def Step (word : Char → Bool) (l : Char) (P : Str → Prop) (w : Str) : Prop :=
  ∃ c w', c.toLower = l ∧ (w = c :: w' ∧ P w' ∨ ∃ f, word f = true ∧ w = c :: f :: w' ∧ P w')

theorem reads_step {word : Char → Bool} {R : Re} {P : Str → Prop} {l : Char} (hl : l.toLower = l) (hR : ∀ b w a, Re.Reads R b w a ↔ P w)
    (b w a : Str) : Re.Reads (.seq (ilit [l]) (.seq (opt (.chr word)) R)) b w a ↔ Step word l P w := by
  simp only [Re.Reads.seq, Re.Reads.opt, Re.Reads.ilit, Re.Reads.chr, hR]
  constructor
  · rintro ⟨u, v, rfl, h1, u', v', rfl, h2, h3⟩
    obtain ⟨c, rfl, hc⟩ : ∃ c, u = [c] ∧ c.toLower = l := by
      have : u.map Char.toLower = [l] := by simpa [hl] using h1
      simpa [List.map_eq_cons_iff] using this
    rcases h2 with ⟨f, rfl, hf⟩ | rfl
    · exact ⟨c, v', hc, .inr ⟨f, hf, rfl, h3⟩⟩
    · exact ⟨c, v', hc, .inl ⟨rfl, h3⟩⟩
  · rintro ⟨c, w', hc, ⟨rfl, h⟩ | ⟨f, hf, rfl, h⟩⟩
    · exact ⟨[c], w', rfl, by simp [hc, hl], [], w', rfl, .inr rfl, h⟩
    · exact ⟨[c], f :: w', rfl, by simp [hc, hl], [f], w', rfl, .inl ⟨f, rfl, hf⟩, h⟩

theorem spelled_step {word : Char → Bool} {l : Char} {ls w : Str} (h : ls ≠ []) :
    Spelled word (l :: ls) w ↔ Step word l (Spelled word ls) w := by
  constructor
  · intro hs
    cases hs with
    | last _ => exact absurd rfl h
    | next hc hs => exact ⟨_, _, hc, .inl ⟨rfl, hs⟩⟩
    | filled hc hf hs => exact ⟨_, _, hc, .inr ⟨_, hf, rfl, hs⟩⟩
  · rintro ⟨c, w', hc, ⟨rfl, h⟩ | ⟨f, hf, rfl, h⟩⟩
    · exact .next hc h
    · exact .filled hc hf h

theorem spelled_one {word : Char → Bool} {l : Char} {w : Str} : Spelled word [l] w ↔ ∃ c, w = [c] ∧ c.toLower = l := by
  constructor
  · intro h
    cases h with
    | last h => exact ⟨_, rfl, h⟩
    | next _ h => cases h
    | filled _ _ h => cases h
  · rintro ⟨c, rfl, h⟩
    exact .last h

theorem step_or {word : Char → Bool} {l : Char} {P Q : Str → Prop} {w : Str} :
    Step word l (fun x => P x ∨ Q x) w ↔ Step word l P w ∨ Step word l Q w := by
  constructor
  · rintro ⟨c, w', hc, ⟨rfl, h | h⟩ | ⟨f, hf, rfl, h | h⟩⟩
    · exact .inl ⟨c, w', hc, .inl ⟨rfl, h⟩⟩
    · exact .inr ⟨c, w', hc, .inl ⟨rfl, h⟩⟩
    · exact .inl ⟨c, w', hc, .inr ⟨f, hf, rfl, h⟩⟩
    · exact .inr ⟨c, w', hc, .inr ⟨f, hf, rfl, h⟩⟩
  · rintro (⟨c, w', hc, ⟨rfl, h⟩ | ⟨f, hf, rfl, h⟩⟩ | ⟨c, w', hc, ⟨rfl, h⟩ | ⟨f, hf, rfl, h⟩⟩)
    · exact ⟨c, w', hc, .inl ⟨rfl, .inl h⟩⟩
    · exact ⟨c, w', hc, .inr ⟨f, hf, rfl, .inl h⟩⟩
    · exact ⟨c, w', hc, .inl ⟨rfl, .inr h⟩⟩
    · exact ⟨c, w', hc, .inr ⟨f, hf, rfl, .inr h⟩⟩

theorem reads_last {word : Char → Bool} {l : Char} (hl : l.toLower = l) (b w a : Str) : Re.Reads (ilit [l]) b w a ↔ Spelled word [l] w := by
  rw [Re.Reads.ilit, spelled_one]
  constructor
  · intro h
    have : w.map Char.toLower = [l] := by simpa [hl] using h
    simpa [List.map_eq_cons_iff] using this
  · rintro ⟨c, rfl, h⟩
    simp [h, hl]

theorem reads_spelled {word : Char → Bool} {R : Re} {ls : Str} {l : Char} (hl : l.toLower = l) (h : ls ≠ [])
    (hR : ∀ b w a, Re.Reads R b w a ↔ Spelled word ls w) (b w a : Str) :
    Re.Reads (.seq (ilit [l]) (.seq (opt (.chr word)) R)) b w a ↔ Spelled word (l :: ls) w := by
  rw [reads_step hl hR, spelled_step h]

theorem reads_s {word : Char → Bool} (b w a : Str) :
    Re.Reads (seqs [ilit c!"s", opt (.chr word), .alt
      (seqs [ilit c!"t", opt (.chr word), ilit c!"o", opt (.chr word), ilit c!"c", opt (.chr word), ilit c!"k"])
      (seqs [ilit c!"y", opt (.chr word), ilit c!"m",
        opt (seqs [opt (.chr word), ilit c!"b", opt (.chr word), ilit c!"o", opt (.chr word), ilit c!"l"])])]) b w a ↔
      Spelled word c!"stock" w ∨ Spelled word c!"sym" w ∨ Spelled word c!"symbol" w := by
  have tock : ∀ b w a, Re.Reads (seqs [ilit c!"t", opt (.chr word), ilit c!"o", opt (.chr word), ilit c!"c", opt (.chr word), ilit c!"k"]) b w a ↔
      Spelled word c!"tock" w :=
    reads_spelled rfl (by simp) (reads_spelled rfl (by simp) (reads_spelled rfl (by simp) (reads_last rfl)))
  have mbol : ∀ b w a, Re.Reads (.seq (ilit c!"m") (seqs [opt (.chr word), ilit c!"b", opt (.chr word), ilit c!"o", opt (.chr word), ilit c!"l"])) b w a ↔
      Spelled word c!"mbol" w :=
    reads_spelled rfl (by simp) (reads_spelled rfl (by simp) (reads_spelled rfl (by simp) (reads_last rfl)))
  have m' : ∀ b w a, Re.Reads (.seq (ilit c!"m") (opt (seqs [opt (.chr word), ilit c!"b", opt (.chr word), ilit c!"o", opt (.chr word), ilit c!"l"]))) b w a ↔
      (Spelled word c!"m" w ∨ Spelled word c!"mbol" w) := by
    intro b w a
    rw [← mbol b w a, ← reads_last (word := word) (l := 'm') rfl b w a, Re.Reads.seq, Re.Reads.seq]
    constructor
    · rintro ⟨u, v, rfl, h1, h2 | h2⟩
      · exact .inr ⟨u, v, rfl, h1, h2⟩
      · have h2 : v = [] := h2
        subst h2
        refine .inl ?_
        rw [Re.Reads.ilit] at h1 ⊢
        simpa using h1
    · rintro (h | ⟨u, v, rfl, h1, h2⟩)
      · refine ⟨w, [], by simp, ?_, .inr rfl⟩
        rw [Re.Reads.ilit] at h ⊢
        exact h
      · exact ⟨u, v, rfl, h1, .inl h2⟩
  have ym : ∀ b w a, Re.Reads (seqs [ilit c!"y", opt (.chr word), ilit c!"m",
        opt (seqs [opt (.chr word), ilit c!"b", opt (.chr word), ilit c!"o", opt (.chr word), ilit c!"l"])]) b w a ↔
      (Spelled word c!"ym" w ∨ Spelled word c!"ymbol" w) := by
    intro b w a
    refine (reads_step (l := 'y') rfl m' b w a).trans ?_
    rw [step_or, ← spelled_step (by simp), ← spelled_step (by simp)]
  refine (reads_step (l := 's') (P := fun w => Spelled word c!"tock" w ∨ Spelled word c!"ym" w ∨ Spelled word c!"ymbol" w) rfl
    (fun b w a => (Re.Reads.alt ..).trans (or_congr (tock b w a) (ym b w a))) b w a).trans ?_
  rw [step_or, step_or, ← spelled_step (by simp), ← spelled_step (by simp), ← spelled_step (by simp)]

theorem reads_date (b w a : Str) :
    Re.Reads (seqs [.nbehind (fun c => c != '\n'), ilit c!"trad", .alt (ilit c!"e") (ilit c!"ing"), ilit c!"date"]) b w a ↔
      w.map Char.toLower ∈ dateTerms ∧ headIn (fun c => c != '\n') b = false := by
  have h : InAny (seqs [ilit c!"trad", .alt (ilit c!"e") (ilit c!"ing"), ilit c!"date"]) _ :=
    .seq (.ilit (by decide)) (.seq (.alt (.ilit (by decide)) (.ilit (by decide))) (.ilit (by decide)))
  have e : products [c!"trad"] (products ([c!"e"] ++ [c!"ing"]) [c!"date"]) = dateTerms := by decide
  rw [e] at h
  show Re.Reads (.seq (.nbehind (fun c => c != '\n')) (seqs [ilit c!"trad", .alt (ilit c!"e") (ilit c!"ing"), ilit c!"date"])) b w a ↔ _
  rw [Re.Reads.seq]
  constructor
  · rintro ⟨u, v, rfl, ⟨rfl, h1⟩, h2⟩
    exact ⟨(h _ _ _).1 h2, h1⟩
  · rintro ⟨h1, h2⟩
    exact ⟨[], w, rfl, ⟨rfl, h2⟩, (h _ _ _).2 h1⟩

theorem stock_alts {b w a : Str} : ∀ {l : List Re}, Re.Reads (alts l) b w a ↔ ∃ r ∈ l, Re.Reads r b w a
  | [] => by
    constructor
    · rintro ⟨c, _, h⟩; cases h
    · rintro ⟨r, h, _⟩; cases h
  | [r] => by simp [alts]
  | r :: r' :: rs => by
    rw [alts, Re.Reads.alt, stock_alts]
    · simp
    · simp

theorem reads_stock {word : Char → Bool} (b w a : Str) : Re.Reads (stockRe word) b w a ↔
    StockTerm word w ∨ w.map Char.toLower ∈ dateTerms ∧ headIn (fun c => c != '\n') b = false := by
  have l2 : InAny (seqs [ilit c!"company", opt (ilit c!"name")]) _ := .seq (.ilit (by decide)) (.opt (.ilit (by decide)))
  have l4 : InAny (seqs [ilit c!"t", .alt (ilit c!"arget") (ilit c!"icker")]) _ :=
    .seq (.ilit (by decide)) (.alt (.ilit (by decide)) (.ilit (by decide)))
  have l5 : InAny (seqs [.alt (ilit c!"opening") (ilit c!"current"), ilit c!"p", opt (ilit c!"rice")]) _ :=
    .seq (.alt (.ilit (by decide)) (.ilit (by decide))) (.seq (.ilit (by decide)) (.opt (.ilit (by decide))))
  have l6 : InAny (seqs [ilit c!"p", .alt (ilit c!"rojected") (ilit c!"osition")]) _ :=
    .seq (.ilit (by decide)) (.alt (.ilit (by decide)) (.ilit (by decide)))
  have l7 : InAny (ilit c!"expectations") _ := .ilit (by decide)
  have l8 : InAny (seqs [ilit c!"week", opt (ilit c!"s"), ilit c!"high"]) _ :=
    .seq (.ilit (by decide)) (.seq (.opt (.ilit (by decide))) (.ilit (by decide)))
  have l9 : InAny (ilit c!"marketperformance") _ := .ilit (by decide)
  have l10 : InAny (seqs [alts [ilit c!"year", ilit c!"week", ilit c!"month", ilit c!"day", ilit c!"price"],
      .alt (ilit c!"target") (seqs [ilit c!"estimate", opt (ilit c!"s")])]) _ :=
    .seq (.alt (.ilit (by decide)) (.alt (.ilit (by decide)) (.alt (.ilit (by decide)) (.alt (.ilit (by decide)) (.ilit (by decide))))))
      (.alt (.ilit (by decide)) (.seq (.ilit (by decide)) (.opt (.ilit (by decide)))))
  have l11 : InAny (ilit c!"sector") _ := .ilit (by decide)
  have l12 : InAny (seqs [ilit c!"r", .alt (ilit c!"ecommendation") (ilit c!"ating")]) _ :=
    .seq (.ilit (by decide)) (.alt (.ilit (by decide)) (.ilit (by decide)))
  have all : ∀ x : Str, x ∈ stockTerms ↔ _ := fun x => by
    have e : ∀ L : List Str, L ⊆ stockTerms → stockTerms ⊆ L → (x ∈ stockTerms ↔ x ∈ L) := fun L h1 h2 => ⟨fun h => h2 h, fun h => h1 h⟩
    exact e (products [c!"company"] ([c!"name"] ++ [[]]) ++ (products [c!"t"] ([c!"arget"] ++ [c!"icker"]) ++
      (products ([c!"opening"] ++ [c!"current"]) (products [c!"p"] ([c!"rice"] ++ [[]])) ++
      (products [c!"p"] ([c!"rojected"] ++ [c!"osition"]) ++ ([c!"expectations"] ++
      (products [c!"week"] (products ([c!"s"] ++ [[]]) [c!"high"]) ++ ([c!"marketperformance"] ++
      (products ([c!"year"] ++ ([c!"week"] ++ ([c!"month"] ++ ([c!"day"] ++ [c!"price"]))))
        ([c!"target"] ++ products [c!"estimate"] ([c!"s"] ++ [[]])) ++ ([c!"sector"] ++
      products [c!"r"] ([c!"ecommendation"] ++ [c!"ating"])))))))))) (by decide +kernel) (by decide +kernel)
  unfold stockRe
  rw [stock_alts]
  simp only [List.mem_cons, exists_eq_or_imp, exists_eq_left, List.not_mem_nil, false_and, exists_false, or_false, reads_date, reads_s,
    l2 b w a, l4 b w a, l5 b w a, l6 b w a, l7 b w a, l8 b w a, l9 b w a, l10 b w a, l11 b w a, l12 b w a]
  rw [StockTerm, all]
  simp only [List.mem_append, List.mem_singleton]
  clear l2 l4 l5 l6 l7 l8 l9 l10 l11 l12 all
  constructor
  · rintro (h | h | h | h | h | h | h | h | h | h | h | h) <;> simp only [h, true_or, or_true, and_self]
  · rintro (((h | h | h | h | h | h | h | h | h | h) | h) | h) <;> simp only [h, true_or, or_true, and_self]

/-! ### Texts and words -/

/-- Letters belong to words, and line feeds do not. -/
structure WordClass (word : Char → Bool) : Prop where
  letters : ∀ c : Char, c.toLower.isAlpha = true → word c = true
  line : word '\n' = false

theorem near_ilit {word : Char → Bool} {A B B' : Str} (hw : WordClass word) (hA : headIn word A = false) :
    ∀ {s : Str}, (∀ c ∈ s, c.toLower.isAlpha = true) → Near A B B' (ilit s) := by
  intro s
  induction s with
  | nil => intro _; trivial
  | cons c cs ih =>
    intro h
    refine ⟨?_, ih fun d hd => h d (List.mem_cons_of_mem _ hd)⟩
    show headIn (fun d => d.toLower == c.toLower) A = false
    cases A with
    | nil => rfl
    | cons z y =>
      simp only [headIn] at hA ⊢
      by_cases e : z.toLower = c.toLower
      · have := hw.letters z (by rw [e]; exact h c (List.mem_cons_self ..))
        rw [hA] at this
        cases this
      · simpa using e

theorem near_seqs {A B B' : Str} : ∀ {l : List Re}, (∀ r ∈ l, Near A B B' r) → Near A B B' (seqs l)
  | [], _ => trivial
  | [r], h => h r (List.mem_cons_self ..)
  | r :: r' :: rs, h => ⟨h r (List.mem_cons_self ..), near_seqs fun x hx => h x (List.mem_cons_of_mem _ hx)⟩

theorem near_alts {A B B' : Str} (hA : headIn (fun _ => false) A = false) : ∀ {l : List Re}, (∀ r ∈ l, Near A B B' r) → Near A B B' (alts l)
  | [], _ => hA
  | [r], h => h r (List.mem_cons_self ..)
  | r :: r' :: rs, h => ⟨h r (List.mem_cons_self ..), near_alts hA fun x hx => h x (List.mem_cons_of_mem _ hx)⟩

theorem near_stock {word : Char → Bool} {A B B' : Str} (hw : WordClass word) (hA : headIn word A = false)
    (hB : headIn (fun c => c != '\n') B = headIn (fun c => c != '\n') B') : Near A B B' (stockRe word) := by
  have l : ∀ {s : Str}, s.all (fun c => c.toLower.isAlpha) = true → Near A B B' (ilit s) := fun h =>
    near_ilit hw hA (by simpa using h)
  have o : Near A B B' (opt (.chr word)) := ⟨hA, trivial⟩
  have hf : headIn (fun _ => false) A = false := by cases A <;> rfl
  refine near_alts hf ?_
  simp only [List.forall_mem_cons, List.not_mem_nil, false_imp_iff, implies_true, and_true]
  refine ⟨⟨hB, l (by decide), ⟨l (by decide), l (by decide)⟩, l (by decide)⟩, ⟨l (by decide), l (by decide), trivial⟩,
    ⟨l (by decide), o, ⟨l (by decide), o, l (by decide), o, l (by decide), o, l (by decide)⟩,
      l (by decide), o, l (by decide), ⟨o, l (by decide), o, l (by decide), o, l (by decide)⟩, trivial⟩,
    ⟨l (by decide), l (by decide), l (by decide)⟩,
    ⟨⟨l (by decide), l (by decide)⟩, l (by decide), l (by decide), trivial⟩,
    ⟨l (by decide), l (by decide), l (by decide)⟩, l (by decide),
    ⟨l (by decide), ⟨l (by decide), trivial⟩, l (by decide)⟩, l (by decide),
    ⟨⟨l (by decide), l (by decide), l (by decide), l (by decide), l (by decide)⟩, l (by decide), l (by decide), l (by decide), trivial⟩,
    l (by decide), l (by decide), l (by decide), l (by decide)⟩

theorem spelled_chars {word : Char → Bool} (hw : WordClass word) {s w : Str} (h : Spelled word s w) :
    s.all (fun c => c.isAlpha) = true → w ≠ [] ∧ ∀ c ∈ w, word c = true := by
  induction h with
  | @last l c hc =>
    intro ha
    refine ⟨by simp, ?_⟩
    simp only [List.all_cons, List.all_nil, Bool.and_true] at ha
    intro d hd
    obtain rfl := List.mem_singleton.1 hd
    exact hw.letters _ (by rw [hc]; exact ha)
  | @next l c ls w hc _ ih =>
    intro ha
    simp only [List.all_cons, Bool.and_eq_true] at ha
    refine ⟨by simp, fun d hd => ?_⟩
    rcases List.mem_cons.1 hd with rfl | hd
    · exact hw.letters _ (by rw [hc]; exact ha.1)
    · exact (ih ha.2).2 d hd
  | @filled l c f ls w hc hf _ ih =>
    intro ha
    simp only [List.all_cons, Bool.and_eq_true] at ha
    refine ⟨by simp, fun d hd => ?_⟩
    rcases List.mem_cons.1 hd with rfl | hd
    · exact hw.letters _ (by rw [hc]; exact ha.1)
    · rcases List.mem_cons.1 hd with rfl | hd
      · exact hf
      · exact (ih ha.2).2 d hd

theorem listed_chars {word : Char → Bool} (hw : WordClass word) {L : List Str} (hL : L.all (fun s => s.all (fun c => c.isAlpha) && s != []) = true)
    {w : Str} (h : w.map Char.toLower ∈ L) : w ≠ [] ∧ ∀ c ∈ w, word c = true := by
  have := List.all_eq_true.1 hL _ h
  simp only [Bool.and_eq_true, List.all_eq_true, bne_iff_ne, ne_eq, List.map_eq_nil_iff] at this
  exact ⟨this.2, fun c hc => hw.letters c (this.1 _ (List.mem_map_of_mem hc))⟩

theorem term_chars {word : Char → Bool} (hw : WordClass word) {w : Str} (h : StockTerm word w) : w ≠ [] ∧ ∀ c ∈ w, word c = true := by
  rcases h with h | h | h | h
  · exact listed_chars hw (by decide +kernel) h
  · exact spelled_chars hw h (by decide)
  · exact spelled_chars hw h (by decide)
  · exact spelled_chars hw h (by decide)

theorem stock_chars {word : Char → Bool} (hw : WordClass word) {b w a : Str} (h : Re.Reads (stockRe word) b w a) :
    w ≠ [] ∧ ∀ c ∈ w, word c = true := by
  rcases (reads_stock _ _ _).1 h with h | h
  · exact term_chars hw h
  · exact listed_chars hw (by decide +kernel) h.1

/-- Nothing is found at a character that belongs to no word. -/
theorem find_other {word : Char → Bool} (hw : WordClass word) {z : Char} (hz : word z = false) (b y : Str) :
    findGo (stockRe word) 0 b (z :: y) = findGo (stockRe word) 0 (z :: b) y := by
  have : m (stockRe word) ⟨b, z :: y, []⟩ some = none := by
    cases hmm : m (stockRe word) ⟨b, z :: y, []⟩ some with
    | none => rfl
    | some t =>
      obtain ⟨w, h1, _, h3⟩ := m_some_takes hmm
      obtain ⟨hn, hc⟩ := stock_chars hw h3
      cases w with
      | nil => exact absurd rfl hn
      | cons c cs =>
        obtain ⟨rfl, _⟩ := List.cons.inj h1
        rw [hc z (List.mem_cons_self ..)] at hz
        cases hz
  rw [findGo, this]

/-- What is before a word, as far as it matters. -/
def lineBefore (start : Bool) : Str := if start then [] else c!" "

theorem before_line (start : Bool) : headIn (fun c => c != '\n') (lineBefore start) = !start := by cases start <;> rfl

/-- The number of terms is that of the terms in the words. -/
theorem count_words {word : Char → Bool} (hw : WordClass word) {start : Bool} {text : Str} {l : List (Bool × Str)}
    (h : WordsOf word start text l) : ∀ B, headIn (fun c => c != '\n') B = !start →
    (findGo (stockRe word) 0 B text).length = (l.map fun p => (findGo (stockRe word) 0 (lineBefore p.1) p.2).length).sum := by
  induction h with
  | @last start w hc =>
    intro B hB
    have := findGo_near (near_stock (A := []) (B := B) (B' := lineBefore start) hw rfl (hB.trans (before_line start).symm)) w 0 [] (by simp)
    simp only [List.append_nil, List.nil_append, findGo] at this
    simp [this]
  | @more start w z rest l hc hz hr ih =>
    intro B hB
    have := findGo_near (near_stock (A := z :: rest) (B := B) (B' := lineBefore start) hw hz (hB.trans (before_line start).symm)) w 0 [] (by simp)
    simp only [List.nil_append] at this
    rw [this, find_other hw hz, List.length_append, ih _ (by simp only [headIn]; rfl)]
    simp

/-! ### What is found -/

theorem findGo_skip {r : Re} : ∀ (w b a : Str), findGo r w.length b (w ++ a) = findGo r 0 (w.reverse ++ b) a := by
  intro w
  induction w with
  | nil => intro b a; rfl
  | cons c cs ih => intro b a; rw [List.cons_append, List.length_cons, findGo, ih]; simp

/-- The first match and what is left. -/
theorem findGo_cons {r : Re} (hr : ∀ b w a, Re.Reads r b w a → w ≠ []) {v : Str} {l : List Str} : ∀ (x b : Str), findGo r 0 b x = v :: l →
    ∃ u y, x = u ++ v ++ y ∧ Re.Reads r (u.reverse ++ b) v y ∧ l = findGo r 0 (v.reverse ++ (u.reverse ++ b)) y := by
  intro x
  induction x with
  | nil => intro b h; simp [findGo] at h
  | cons c cs ih =>
    intro b h
    rw [findGo] at h
    cases hmm : m r ⟨b, c :: cs, []⟩ some with
    | none =>
      rw [hmm] at h
      obtain ⟨u, y, rfl, h1, h2⟩ := ih _ h
      exact ⟨c :: u, y, by simp, by simpa using h1, by simpa using h2⟩
    | some t =>
      rw [hmm] at h
      obtain ⟨w, h1, h2, h3⟩ := m_some_takes hmm
      simp only at h
      rw [h2] at h
      obtain ⟨rfl, rfl⟩ := List.cons.inj h
      refine ⟨[], t.after, by simpa using h1, h3, ?_⟩
      have hn := hr _ _ _ h3
      cases w with
      | nil => exact absurd rfl hn
      | cons d ds =>
        rw [List.cons_append] at h1
        obtain ⟨rfl, e⟩ := List.cons.inj h1
        have e2 : (c :: cs).length - t.after.length - 1 = ds.length := by
          rw [e]; simp only [List.length_cons, List.length_append]; omega
        rw [e2]
        conv => lhs; rw [e]
        rw [findGo_skip]
        simp

/-- Nothing is found only where nothing can be read. -/
theorem findGo_nil {r : Re} : ∀ (u v y b : Str), v ≠ [] → findGo r 0 b (u ++ v ++ y) = [] → ¬ Re.Reads r (u.reverse ++ b) v y := by
  intro u
  induction u with
  | nil =>
    intro v y b hv h hr
    have hs := (m_isSome r ⟨b, v ++ y, []⟩).2 ⟨v, y, rfl, hr⟩
    cases v with
    | nil => exact hv rfl
    | cons c cs =>
      rw [List.nil_append, List.cons_append, findGo] at h
      rw [List.cons_append] at hs
      cases hmm : m r ⟨b, c :: (cs ++ y), []⟩ some with
      | none => rw [hmm] at hs; cases hs
      | some t => rw [hmm] at h; cases h
  | cons c cs ih =>
    intro v y b hv h hr
    rw [List.cons_append, List.cons_append, findGo] at h
    cases hmm : m r ⟨b, c :: (cs ++ v ++ y), []⟩ some with
    | none =>
      rw [hmm] at h
      exact ih v y (c :: b) hv h (by simpa using hr)
    | some t => rw [hmm] at h; cases h

/-- A term in a word, as the expression reads it. -/
theorem term_reads {word : Char → Bool} (hw : WordClass word) {start : Bool} {u w a : Str} (hu : ∀ c ∈ u, word c = true) :
    Re.Reads (stockRe word) (u.reverse ++ lineBefore start) w a ↔ TermAt word start u w := by
  rw [reads_stock, TermAt]
  have : headIn (fun c => c != '\n') (u.reverse ++ lineBefore start) = false ↔ u = [] ∧ start = true := by
    rcases List.eq_nil_or_concat u with rfl | ⟨u', c, rfl⟩
    · simp [before_line]
    · have hc : c ≠ '\n' := by
        rintro rfl
        have := hu '\n' (by simp)
        rw [hw.line] at this
        cases this
      simp [headIn, hc]
  rw [this]

theorem found_iff {word : Char → Bool} (hw : WordClass word) {p : Bool × Str} (hp : ∀ c ∈ p.2, word c = true) :
    findGo (stockRe word) 0 (lineBefore p.1) p.2 ≠ [] ↔ HasTerm word p := by
  obtain ⟨start, x⟩ := p
  constructor
  · intro h
    cases hl : findGo (stockRe word) 0 (lineBefore start) x with
    | nil => exact absurd hl h
    | cons v l =>
      obtain ⟨u, y, rfl, h1, _⟩ := findGo_cons (fun _ _ _ h => (stock_chars hw h).1) _ _ hl
      exact ⟨u, v, y, rfl, (term_reads hw fun c hc => hp c (by simp [hc])).1 h1⟩
  · rintro ⟨u, v, y, e, h⟩ hn
    simp only at e
    subst e
    have hr := (term_reads hw (a := y) fun c hc => hp c (by simp [hc])).2 h
    exact findGo_nil u v y _ (stock_chars hw hr).1 hn hr

theorem found_once {word : Char → Bool} (hw : WordClass word) {p : Bool × Str} (hp : ∀ c ∈ p.2, word c = true) (h : OneTerm word p) :
    (findGo (stockRe word) 0 (lineBefore p.1) p.2).length ≤ 1 := by
  obtain ⟨start, x⟩ := p
  cases hl : findGo (stockRe word) 0 (lineBefore start) x with
  | nil => simp
  | cons v l =>
    obtain ⟨u, y, rfl, h1, h2⟩ := findGo_cons (fun _ _ _ h => (stock_chars hw h).1) _ _ hl
    cases l with
    | nil => simp
    | cons v' l' =>
      obtain ⟨u', y', rfl, h3, _⟩ := findGo_cons (fun _ _ _ h => (stock_chars hw h).1) _ _ h2.symm
      have h1 := (term_reads hw fun c hc => hp c (by simp [hc])).1 h1
      have e : u'.reverse ++ (v.reverse ++ (u.reverse ++ lineBefore start)) = (u ++ v ++ u').reverse ++ lineBefore start := by simp
      rw [e] at h3
      have h3 := (term_reads hw fun c hc => hp c (by
        simp only [List.mem_append] at hc ⊢
        rcases hc with (hc | hc) | hc <;> simp [hc])).1 h3
      refine absurd ?_ (h u v u' v' y' (by simp) h1)
      rcases h3 with h3 | ⟨_, h3, _⟩
      · exact h3
      · have hv : v = [] := by
          have := congrArg List.length h3
          simp only [List.length_append, List.length_nil] at this
          exact List.length_eq_zero_iff.1 (by omega)
        have hv' : v ≠ [] := by
          rcases h1 with h1 | h1
          · exact (term_chars hw h1).1
          · exact (listed_chars hw (L := dateTerms) (by decide +kernel) h1.1).1
        exact absurd hv hv'

/-- Every text has words. -/
theorem words_exist (word : Char → Bool) : ∀ (text : Str) (start : Bool), ∃ l, WordsOf word start text l := by
  intro text
  induction text with
  | nil => intro start; exact ⟨_, .last (by simp)⟩
  | cons c cs ih =>
    intro start
    by_cases hc : word c = true
    · obtain ⟨l, hl⟩ := ih start
      cases hl with
      | last h => exact ⟨_, .last (by simpa [hc] using h)⟩
      | @more _ w z rest l h1 h2 h3 => exact ⟨_, .more (w := c :: w) (by simpa [hc] using h1) h2 h3⟩
    · obtain ⟨l, hl⟩ := ih (c == '\n')
      exact ⟨_, .more (w := []) (by simp) (by simpa using hc) hl⟩

theorem words_chars {word : Char → Bool} {start : Bool} {text : Str} {l : List (Bool × Str)} (h : WordsOf word start text l) :
    ∀ p ∈ l, ∀ c ∈ p.2, word c = true := by
  induction h with
  | last h => simpa using h
  | more h _ _ ih =>
    intro p hp
    rcases List.mem_cons.1 hp with rfl | hp
    · exact h
    · exact ih p hp

open Classical in
/-- C173: at least as many terms are counted as there are words with a term in them. -/
theorem C173_least {word : Char → Bool} (hw : WordClass word) {text : Str} {l : List (Bool × Str)} (h : WordsOf word true text l) {n : Int}
    (hn : n ≤ ((l.filter fun p => decide (HasTerm word p)).length : Int)) : stockInfo word text (some n) = some true := by
  have e := count_words hw h [] rfl
  have : ∀ l : List (Bool × Str), (∀ p ∈ l, ∀ c ∈ p.2, word c = true) → (l.filter fun p => decide (HasTerm word p)).length ≤
      (l.map fun p => (findGo (stockRe word) 0 (lineBefore p.1) p.2).length).sum := by
    intro l
    induction l with
    | nil => intro _; simp
    | cons p l ih =>
      intro hl
      have hp := found_iff hw (hl p (List.mem_cons_self ..))
      have := ih fun q hq => hl q (List.mem_cons_of_mem _ hq)
      rw [List.filter_cons]
      split
      · rename_i ht
        have := List.length_pos_iff.2 (hp.2 (by simpa using ht))
        simp only [List.length_cons, List.map_cons, List.sum_cons]
        omega
      · simp only [List.map_cons, List.sum_cons]
        omega
  have := this l (words_chars h)
  simp only [stockInfo, stockCount, findAll, e, Option.some.injEq, decide_eq_true_eq]
  omega

open Classical in
/-- C173: the rule holds exactly if the number of words with a term in them is large enough, where no word has several terms one
after the other.  A term within a longer word counts (`C173_inside_violated`), one written as several words does not
(`C173_phrase_violated`). -/
theorem C173_words_partial {word : Char → Bool} (hw : WordClass word) {text : Str} {l : List (Bool × Str)} (h : WordsOf word true text l)
    (h1 : ∀ p ∈ l, OneTerm word p) (n : Int) :
    stockInfo word text (some n) = some (decide (n ≤ ((l.filter fun p => decide (HasTerm word p)).length : Int))) := by
  have e := count_words hw h [] rfl
  have : ∀ l : List (Bool × Str), (∀ p ∈ l, ∀ c ∈ p.2, word c = true) → (∀ p ∈ l, OneTerm word p) →
      (l.map fun p => (findGo (stockRe word) 0 (lineBefore p.1) p.2).length).sum = (l.filter fun p => decide (HasTerm word p)).length := by
    intro l
    induction l with
    | nil => intro _ _; simp
    | cons p l ih =>
      intro hl ho
      have hp := found_iff hw (hl p (List.mem_cons_self ..))
      have h1 := found_once hw (hl p (List.mem_cons_self ..)) (ho p (List.mem_cons_self ..))
      have := ih (fun q hq => hl q (List.mem_cons_of_mem _ hq)) (fun q hq => ho q (List.mem_cons_of_mem _ hq))
      rw [List.filter_cons]
      split
      · rename_i ht
        have := List.length_pos_iff.2 (hp.2 (by simpa using ht))
        simp only [List.length_cons, List.map_cons, List.sum_cons]
        omega
      · rename_i ht
        have : findGo (stockRe word) 0 (lineBefore p.1) p.2 = [] := by
          by_contra hne
          exact ht (by simpa using hp.1 hne)
        simp only [List.map_cons, List.sum_cons, this, List.length_nil]
        omega
  have := this l (words_chars h) h1
  simp only [stockInfo, stockCount, findAll, e, this, ge_iff_le]

/-- C173 fails: a term within a longer word is counted. -/
theorem C173_inside_violated {word : Char → Bool} (hw : WordClass word) {pre term post : Str} (ht : StockTerm word term)
    (h1 : ∀ c ∈ pre, word c = true) (h2 : ∀ c ∈ post, word c = true) : stockInfo word (pre ++ term ++ post) (some 1) = some true := by
  refine C173_least hw (.last (w := pre ++ term ++ post) ?_) ?_
  · intro c hc
    simp only [List.mem_append] at hc
    rcases hc with (hc | hc) | hc
    · exact h1 c hc
    · exact (term_chars hw ht).2 c hc
    · exact h2 c hc
  · have : HasTerm word (true, pre ++ term ++ post) := ⟨pre, term, post, rfl, .inl ht⟩
    rw [List.filter_cons_of_pos (by simpa using this)]
    simp

/-- C173 fails: a term written as two words is not counted. -/
theorem C173_phrase_violated {word : Char → Bool} (hw : WordClass word) {first second : Str} {z : Char} (hz : word z = false)
    (h1 : ∀ c ∈ first, word c = true) (h2 : ∀ c ∈ second, word c = true) (hn1 : ¬ HasTerm word (true, first))
    (hn2 : ¬ HasTerm word (z == '\n', second)) : stockInfo word (first ++ z :: second) (some 1) = some false := by
  have one : ∀ p, ¬ HasTerm word p → OneTerm word p := fun p hp b w m w' a e ht _ => hp ⟨b, w, m ++ w' ++ a, by simp [e], ht⟩
  rw [C173_words_partial hw (.more h1 hz (.last h2)) (by simpa using ⟨one _ hn1, one _ hn2⟩)]
  simp [hn1, hn2]

/-! ### The hypotheses are met -/

theorem word_class : WordClass Re.isWord where
  letters c h := by
    have : c.isAlpha = true := by
      by_cases hu : c.isUpper = true
      · simp [Char.isAlpha, hu]
      · have : c.toLower = c := by
          unfold Char.toLower
          rw [dif_neg]
          simpa [Char.isUpper] using hu
        rwa [this] at h
    simp [Re.isWord, Char.isAlphanum, this]
  line := by decide

def stockText : Str := c!"Target: 3\nTradingDate tradedate s.tock\nOPENING price stock"

def stockWords : List (Bool × Str) :=
  [(true, c!"Target"), (false, []), (false, c!"3"), (true, c!"TradingDate"), (false, c!"tradedate"), (false, c!"s"), (false, c!"tock"),
   (true, c!"OPENING"), (false, c!"price"), (false, c!"stock")]

example : WordsOf Re.isWord true stockText stockWords :=
  .more (w := c!"Target") (by decide) (by decide) (.more (w := []) (by decide) (by decide) (.more (w := c!"3") (by decide) (by decide)
    (.more (w := c!"TradingDate") (by decide) (by decide) (.more (w := c!"tradedate") (by decide) (by decide)
      (.more (w := c!"s") (by decide) (by decide) (.more (w := c!"tock") (by decide) (by decide)
        (.more (w := c!"OPENING") (by decide) (by decide) (.more (w := c!"price") (by decide) (by decide) (.last (by decide))))))))))

example : HasTerm Re.isWord (true, c!"Target") ∧ HasTerm Re.isWord (true, c!"TradingDate") ∧ HasTerm Re.isWord (false, c!"mist0ocks") :=
  ⟨⟨[], c!"Target", [], rfl, .inl (.inl (by decide))⟩, ⟨[], c!"TradingDate", [], rfl, .inr ⟨by decide, rfl, rfl⟩⟩,
    ⟨c!"mi", c!"st0ock", c!"s", rfl, .inl (.inr (.inl (.next rfl (.filled (f := '0') rfl (by decide) (.next rfl (.next rfl (.last rfl)))))))⟩⟩

/-- Terms are not short, in particular those without an s. -/
theorem term_length {word : Char → Bool} {w : Str} (h : StockTerm word w ∨ w.map Char.toLower ∈ dateTerms) :
    3 ≤ w.length ∧ (6 ≤ w.length ∨ 's' ∈ w.map Char.toLower) := by
  have sp : ∀ {s w : Str}, Spelled word s w → s.length ≤ w.length ∧ w.map Char.toLower ≠ [] ∧ (w.map Char.toLower).head? = s.head? := by
    intro s w h
    induction h with
    | last hc => simp [hc]
    | next hc _ ih => simp [hc, ih.1]
    | filled hc _ _ ih => have := ih.1; simp [hc]; omega
  have sp' : ∀ {ls w : Str}, Spelled word ('s' :: ls) w → 's' ∈ w.map Char.toLower := fun h => by
    have := (sp h).2.2
    simp only [List.head?_cons] at this
    exact List.mem_of_mem_head? this
  have ls : ∀ {L : List Str} {w : Str}, L.all (fun s => decide (6 ≤ s.length)) = true → w.map Char.toLower ∈ L → 6 ≤ w.length := by
    intro L w hL h
    simpa using List.all_eq_true.1 hL _ h
  rcases h with (h | h | h | h) | h
  · have := ls (by decide) h; omega
  · have h1 := (sp h).1; exact ⟨by simp at h1; omega, .inr (sp' h)⟩
  · have h1 := (sp h).1; exact ⟨by simpa using h1, .inr (sp' h)⟩
  · have h1 := (sp h).1; exact ⟨by simp at h1; omega, .inr (sp' h)⟩
  · have := ls (by decide) h; omega

/-- Short words have at most one term. -/
theorem one_term {word : Char → Bool} {p : Bool × Str} (h : p.2.length < 6 ∨ p.2.length < 12 ∧ 's' ∉ p.2.map Char.toLower) : OneTerm word p := by
  intro b w m w' a e h1 h2
  have t1 := term_length (h1.imp id And.left)
  have t2 := term_length (.inl h2)
  have hl := congrArg List.length e
  simp only [List.length_append] at hl
  rcases h with h | ⟨h, hs⟩
  · omega
  · rw [e] at hs
    simp only [List.map_append, List.mem_append, not_or] at hs
    have := t1.2.resolve_right hs.1.1.1.2
    have := t2.2.resolve_right hs.1.2
    omega

example : ∀ p ∈ stockWords, OneTerm Re.isWord p := fun p hp => one_term (by revert p; decide)

set_option maxRecDepth 8000 in
example : stockCount Re.isWord stockText = 3 ∧ stockInfo Re.isWord stockText (some 3) = some true ∧
    stockInfo Re.isWord stockText (some 4) = some false ∧ stockInfo Re.isWord c!"operating as an accompanying party" (some 2) = some true ∧
    StockTerm Re.isWord c!"OpeningPrice" ∧ stockInfo Re.isWord c!"Opening Price: 3" (some 1) = some false := by
  refine ⟨by decide +kernel, by decide +kernel, by decide +kernel, by decide +kernel, .inl (by decide), by decide +kernel⟩

end Verif.Props
