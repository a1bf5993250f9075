import Verif.Spec.BayesTouch
import Verif.Props.BayesScan

/-!
# C163: checking messages does not change what was learned
-/

namespace Verif.Props
open Verif Py BayesScore BayesScan

/-! ### Access times -/

theorem touch_rows (t : Int) (toks : List Str) (db : Db) :
    (touchAll t db toks).vars = db.vars ∧
    (touchAll t db toks).tokens = db.tokens.map fun r => if r.row.token ∈ toks then { r with atime := t } else r := by
  induction toks generalizing db with
  | nil => simp [touchAll]
  | cons tok toks ih =>
    have e : touchAll t db (tok :: toks) = touchAll t (touchOne t db tok) toks := rfl
    rw [e, (ih _).1, (ih _).2]
    refine ⟨rfl, ?_⟩
    simp only [touchOne, List.map_map]
    apply List.map_congr_left
    intro r _
    simp only [Function.comp]
    by_cases h : r.row.token = tok
    · by_cases h2 : tok ∈ toks <;> simp [h, h2]
    · by_cases h2 : r.row.token ∈ toks <;> simp [h, h2]

theorem touch_spec (t : Int) (toks : List Str) (db : Db) : Touched t toks db (touchAll t db toks) := by
  obtain ⟨h1, h2⟩ := touch_rows t toks db
  refine ⟨h1, by rw [h2, List.length_map], fun i r r' hr hr' => ?_⟩
  rw [h2, List.getElem?_map, hr] at hr'
  simp only [Option.map_some, Option.some.injEq] at hr'
  subst hr'
  by_cases h : r.row.token ∈ toks <;> simp [h]

theorem touch_same (t : Int) (toks : List Str) (db : Db) : SameLearned db (touchAll t db toks) := by
  obtain ⟨h1, h2⟩ := touch_rows t toks db
  refine ⟨h1.symm, ?_⟩
  rw [h2, List.map_map]
  apply List.map_congr_left
  intro r _
  simp only [Function.comp]
  split <;> rfl

/-! ### What a scan reads -/

theorem filter_rows (l l' : List DbRow) (h : l.map (fun r => (r.id, r.row.token, r.row.spam, r.row.ham)) =
    l'.map (fun r => (r.id, r.row.token, r.row.spam, r.row.ham))) (tok : Str) :
    (l.filter (fun r => r.row.token = tok)).map DbRow.row = (l'.filter (fun r => r.row.token = tok)).map DbRow.row := by
  induction l generalizing l' with
  | nil =>
    cases l' with
    | nil => rfl
    | cons r' l' => simp at h
  | cons r l ih =>
    cases l' with
    | nil => simp at h
    | cons r' l' =>
      simp only [List.map_cons, List.cons.injEq, Prod.mk.injEq] at h
      obtain ⟨⟨_, h1, h2, h3⟩, h4⟩ := h
      have hrow : r.row = r'.row := by
        cases hr : r.row; cases hr' : r'.row
        simp only [hr, hr'] at h1 h2 h3
        simp [h1, h2, h3]
      rw [List.filter_cons, List.filter_cons, hrow]
      split
      · simp only [List.map_cons, hrow, ih l' h4]
      · exact ih l' h4

theorem findRow_same (k : Kind) (d d' : Db) (h : SameLearned d d') (tok : Str) : findRow k d tok = findRow k d' tok := by
  have := filter_rows _ _ h.2 tok
  unfold findRow
  generalize d.tokens.filter (fun r => r.row.token = tok) = a at this ⊢
  generalize d'.tokens.filter (fun r => r.row.token = tok) = a' at this ⊢
  match a, a' with
  | [], [] => rfl
  | [], _ :: _ => simp at this
  | _ :: _, [] => simp at this
  | [r], [r'] => simp at this; simp [this]
  | [_], _ :: _ :: _ => simp at this
  | _ :: _ :: _, [_] => simp at this
  | r :: _ :: _, r' :: _ :: _ => simp at this; simp [this.1]

theorem base_same (k : Kind) (tieOk touchOk : Bool) (d d' : Db) (h : SameLearned d d') :
    baseOf k tieOk touchOk d = baseOf k tieOk touchOk d' := by
  unfold baseOf
  have hr : findRows k d = findRows k d' := by
    funext ts
    induction ts with
    | nil => rfl
    | cons t ts ih => simp only [findRows, findRow_same k d d' h t, ih]
  rw [h.1, hr]

/-! ### Which tokens -/

theorem set_keys {K V : Type} [DecidableEq K] (d : Dict K V) (x : K) (v : V) : ∀ y ∈ Dict.set d x v, y.1 = x ∨ y ∈ d := by
  intro y hy
  induction d with
  | nil => simp [Dict.set] at hy; simp [hy]
  | cons e d ih =>
    simp only [Dict.set] at hy
    split at hy
    · rename_i h0
      rcases List.mem_cons.mp hy with rfl | h
      · exact Or.inl h0
      · exact Or.inr (List.mem_cons_of_mem _ h)
    · rcases List.mem_cons.mp hy with rfl | h
      · exact Or.inr List.mem_cons_self
      · rcases ih h with h | h
        · exact Or.inl h
        · exact Or.inr (List.mem_cons_of_mem _ h)

theorem table_keys (hap : Bool) (ns nn : Nat) (rows : List Row) (pw : Dict Str Rat) (h : table hap ns nn rows = some pw) :
    ∀ x ∈ pw, ∃ r ∈ rows, x.1 = r.token := by
  unfold table at h
  cases hp : allProbs hap ns nn rows with
  | none => simp [hp] at h
  | some ps =>
    simp only [hp, Option.some.injEq] at h
    subst h
    have : ∀ (l : List (Row × Rat)) (d : Dict Str Rat), ∀ x ∈ l.foldl (fun d x => Dict.set d x.1.token x.2) d,
        (∃ y ∈ l, x.1 = y.1.token) ∨ x ∈ d := by
      intro l
      induction l with
      | nil => intro d x hx; exact Or.inr hx
      | cons y l ih =>
        intro d x hx
        rcases ih _ x hx with ⟨z, hz, e⟩ | h
        · exact Or.inl ⟨z, List.mem_cons_of_mem _ hz, e⟩
        · rcases set_keys _ _ _ x h with h | h
          · exact Or.inl ⟨y, List.mem_cons_self, h⟩
          · exact Or.inr h
    intro x hx
    rcases this _ _ x hx with ⟨y, hy, e⟩ | h
    · exact ⟨y.1, (List.of_mem_zip hy).1, e⟩
    · cases h

theorem chosen_mem (pw : Dict Str Rat) : ∀ x ∈ chosen pw, x ∈ pw := by
  intro x hx
  unfold chosen at hx
  exact (sortedBy_perm _ _).mem_iff.mp (List.mem_of_mem_take (List.mem_filter.mp hx).1)

theorem findRows_tokens (k : Kind) (db : Db) (ts : List Str) (rows : List Row) (h : findRows k db ts = some rows) : ∀ r ∈ rows, r.token ∈ ts := by
  induction ts generalizing rows with
  | nil => simp [findRows] at h; subst h; simp
  | cons t ts ih =>
    simp only [findRows] at h
    cases hf : findRow k db t with
    | none => simp [hf] at h
    | some r0 =>
      simp only [hf, Option.map_eq_some_iff] at h
      obtain ⟨rs, h1, rfl⟩ := h
      intro r hr
      rcases List.mem_append.mp hr with hr | hr
      · have ht : r.token = t := by
          have : r0 = some r := by simpa using hr
          subst this
          have key : ∀ x : DbRow, x ∈ db.tokens.filter (fun r => r.row.token = t) → x.row.token = t := by
            intro x hx; simpa using (List.mem_filter.mp hx).2
          unfold findRow at hf
          match hl : db.tokens.filter (fun r => r.row.token = t) with
          | [] => simp [hl] at hf
          | [x] => simp [hl] at hf; rw [← hf]; exact key x (by simp [hl])
          | x :: y :: z =>
            cases k with
            | mysql => simp [hl] at hf; rw [← hf]; exact key x (by simp [hl])
            | sqlalchemy => simp [hl] at hf
        simp [ht]
      · exact List.mem_cons_of_mem _ (ih rs h1 r hr)

theorem msgTokens_keys (ts : List (Str × Str)) : ∀ x ∈ msgTokens ts, ∃ y ∈ ts, x.1 = y.1 := by
  have : ∀ (l : List (Str × Str)) (d : Dict Str Str), ∀ x ∈ l.foldl (fun d t => Dict.set d t.1 t.2) d, (∃ y ∈ l, x.1 = y.1) ∨ x ∈ d := by
    intro l
    induction l with
    | nil => intro d x hx; exact Or.inr hx
    | cons y l ih =>
      intro d x hx
      rcases ih _ x hx with ⟨z, hz, e⟩ | h
      · exact Or.inl ⟨z, List.mem_cons_of_mem _ hz, e⟩
      · rcases set_keys _ _ _ x h with h | h
        · exact Or.inl ⟨y, List.mem_cons_self, h⟩
        · exact Or.inr h
  intro x hx
  rcases this ts [] x hx with h | h
  · exact h
  · cases h

/-! ### One scan -/

theorem scanDb_cases (E : Dkim.Engine) (comb : Nat → Nat → List Rat → Option Rat) (o : Opts) (k : Kind) (tieOk touchOk : Bool) (db : Db) (c : Check)
    (p : Plug) (l : Loc) :
    (scanDb E comb o k tieOk touchOk db c p l).1 = scan E comb o (baseOf k tieOk touchOk db) c.msg p l ∧
    ((scanDb E comb o k tieOk touchOk db c p l).2 = db ∧ (∀ s, (scanDb E comb o k tieOk touchOk db c p l).1.1.1 ≠ some (some s)) ∨
     touchOk = true ∧ ∃ ts ns nn rows pw score, c.msg.tokens = some ts ∧ db.vars.head? = some (ns, nn) ∧
       findRows k db ((msgTokens ts).map Prod.fst) = some rows ∧ table o.hapaxes ns nn rows = some pw ∧
       comb ns nn ((chosen pw).map Prod.snd) = some score ∧
       ((scanDb E comb o k tieOk touchOk db c p l).1.1.1 = some (some score) ∨ (scanDb E comb o k tieOk touchOk db c p l).1.1.1 = none) ∧
       (scanDb E comb o k tieOk touchOk db c p l).2 = touchAll (min c.date c.now) db ((chosen pw).map Prod.fst)) := by
  have hskip : ∀ (b : Base) (cu : Bool) (p : Plug) (s : Option Rat), (skip b s cu p).1 = some s ∨ (skip b s cu p).1 = none := by
    intro b cu p s
    unfold skip
    simp only []
    split
    · exact Or.inl rfl
    · split
      · exact Or.inr rfl
      · exact Or.inl rfl
  have hns : ∀ (b : Base) (cu : Bool) (p : Plug) (s : Rat), (skip b none cu p).1 ≠ some (some s) := by
    intro b cu p s h
    rcases hskip b cu p none with h' | h' <;> rw [h'] at h <;> simp at h
  unfold scanDb scan
  simp only []
  by_cases h1 : o.useLearner = true
  · simp only [h1, Bool.not_true, Bool.false_eq_true, if_false]
    cases h2 : ignoreMessage E o.ignores c.msg.addrs with
    | none => simp
    | some b =>
      cases b with
      | true => exact ⟨rfl, Or.inl ⟨rfl, hns _ _ _⟩⟩
      | false =>
        simp only []
        rcases h3 : available o (baseOf k tieOk touchOk db) { p with willUntie := true } with ⟨_ | b, p'⟩
        · simp
        · cases b with
          | false => exact ⟨rfl, Or.inl ⟨rfl, hns _ _ _⟩⟩
          | true =>
            simp only []
            have hc : (baseOf k tieOk touchOk db).counts = db.vars.head? := rfl
            have hr : (baseOf k tieOk touchOk db).rows = findRows k db := rfl
            rw [hc, hr]
            cases h4 : db.vars.head? with
            | none => simp
            | some nsnn =>
              obtain ⟨ns, nn⟩ := nsnn
              simp only []
              cases h5 : c.msg.tokens with
              | none => simp
              | some ts =>
                simp only []
                cases h6 : findRows k db ((msgTokens ts).map Prod.fst) with
                | none => simp
                | some rows =>
                  simp only []
                  cases h7 : table o.hapaxes ns nn rows with
                  | none => simp
                  | some pw =>
                    simp only []
                    by_cases h8 : pw.isEmpty = true
                    · simp only [h8, if_true]
                      exact ⟨trivial, Or.inl ⟨trivial, hns _ _ _⟩⟩
                    · simp only [h8, if_false]
                      by_cases h9 : (chosen pw).isEmpty = true
                      · simp only [h9, if_true]
                        exact ⟨rfl, Or.inl ⟨rfl, hns _ _ _⟩⟩
                      · simp only [h9, if_false]
                        cases h10 : comb ns nn ((chosen pw).map Prod.snd) with
                        | none => simp
                        | some score =>
                          simp only []
                          by_cases h11 : (baseOf k tieOk touchOk db).touch = true
                          · simp only [h11, Bool.not_true, Bool.false_eq_true, if_false]
                            refine ⟨trivial, Or.inr ⟨h11, ts, ns, nn, rows, pw, score, rfl, rfl, h6, h7, h10, hskip _ _ _ _, ?_⟩⟩
                            congr 1
                            split <;> omega
                          · simp [h11]
  · simp [h1]

/-! ## C163 -/

/-- Whatever messages are checked, in whatever order, by processes in whatever state: the numbers of messages and of occurrences of
tokens stay as they are. -/
theorem C163_kept (E : Dkim.Engine) (comb : Nat → Nat → List Rat → Option Rat) (k : Kind) (db : Db) (calls : List Call) :
    SameLearned db (afterCalls E comb k db calls) := by
  induction calls generalizing db with
  | nil => exact ⟨rfl, rfl⟩
  | cons x calls ih =>
    have h2 := ih (scanDb E comb x.opts k x.tieOk x.touchOk db x.check x.plug x.loc).2
    have h1 : SameLearned db (scanDb E comb x.opts k x.tieOk x.touchOk db x.check x.plug x.loc).2 := by
      rcases (scanDb_cases E comb x.opts k x.tieOk x.touchOk db x.check x.plug x.loc).2 with ⟨h, _⟩ | ⟨_, _, _, _, _, _, _, _, _, _, _, _, _, h⟩
      · rw [h]; exact ⟨rfl, rfl⟩
      · rw [h]; exact touch_same _ _ _
    exact ⟨h1.1.trans h2.1, h1.2.trans h2.2⟩

/-- The result for a message is the same whatever messages were checked before. -/
theorem C163_scores (E : Dkim.Engine) (comb : Nat → Nat → List Rat → Option Rat) (k : Kind) (db : Db) (calls : List Call) (x : Call) :
    (scanDb E comb x.opts k x.tieOk x.touchOk (afterCalls E comb k db calls) x.check x.plug x.loc).1 =
      (scanDb E comb x.opts k x.tieOk x.touchOk db x.check x.plug x.loc).1 := by
  rw [(scanDb_cases E comb x.opts k x.tieOk x.touchOk _ x.check x.plug x.loc).1, (scanDb_cases E comb x.opts k x.tieOk x.touchOk db x.check x.plug x.loc).1,
    base_same k x.tieOk x.touchOk _ _ (C163_kept E comb k db calls)]

/-- The scan of C143 to C145 is this scan. -/
theorem C163_scan (E : Dkim.Engine) (comb : Nat → Nat → List Rat → Option Rat) (o : Opts) (k : Kind) (tieOk touchOk : Bool) (db : Db) (c : Check)
    (p : Plug) (l : Loc) : (scanDb E comb o k tieOk touchOk db c p l).1 = scan E comb o (baseOf k tieOk touchOk db) c.msg p l :=
  (scanDb_cases E comb o k tieOk touchOk db c p l).1

/-- Without a score nothing is changed, nor if the update fails.  With a score, the rows of exactly the tokens it was made from get the date of the message, or
the current time if that is earlier; all these tokens are tokens of the message. -/
theorem C163_touched (E : Dkim.Engine) (comb : Nat → Nat → List Rat → Option Rat) (o : Opts) (k : Kind) (tieOk touchOk : Bool) (db : Db) (c : Check)
    (p : Plug) (l : Loc) :
    let r := scanDb E comb o k tieOk touchOk db c p l
    (r.1.1.1 = some none ∨ touchOk = false → r.2 = db) ∧
    (∀ score, r.1.1.1 = some (some score) → ∃ used : List (Str × Rat),
      Touched (min c.date c.now) (used.map Prod.fst) db r.2 ∧
      (∃ ns nn, db.vars.head? = some (ns, nn) ∧ comb ns nn (used.map Prod.snd) = some score) ∧
      ∃ ts, c.msg.tokens = some ts ∧ ∀ u ∈ used, ∃ t ∈ ts, u.1 = t.1) := by
  simp only []
  rcases (scanDb_cases E comb o k tieOk touchOk db c p l).2 with ⟨h, hn⟩ | ⟨h0, ts, ns, nn, rows, pw, score, h1, h2, h3, h4, h5, h6, h7⟩
  · exact ⟨fun _ => h, fun score hs => absurd hs (hn score)⟩
  · refine ⟨fun hs => ?_, fun s hs => ⟨chosen pw, ?_, ⟨ns, nn, h2, ?_⟩, ts, h1, fun u hu => ?_⟩⟩
    · rcases hs with hs | hs
      · rcases h6 with h6 | h6 <;> rw [h6] at hs <;> simp at hs
      · rw [h0] at hs; cases hs
    · rw [h7]; exact touch_spec _ _ _
    · rcases h6 with h6 | h6 <;> rw [h6] at hs <;> simp at hs
      rw [h5, hs]
    · obtain ⟨r, hr, e⟩ := table_keys _ _ _ _ _ h4 u (chosen_mem pw u hu)
      have := findRows_tokens k db _ _ h3 r hr
      rw [← e] at this
      obtain ⟨x, hx, ex⟩ := List.mem_map.mp this
      obtain ⟨y, hy, ey⟩ := msgTokens_keys ts x hx
      exact ⟨y, hy, by rw [← ex, ey]⟩

/-- An old message sets the access times of its tokens back, and those of the same tokens of all other users too: a row of such a token
gets the date of the message even if the token was found later, whoever's row it is. -/
theorem C163_back_violated (t : Int) (toks : List Str) (d d' : Db) (h : Touched t toks d d') (i : Nat) (r : DbRow) (hr : d.tokens[i]? = some r)
    (ht : r.row.token ∈ toks) (hlt : t < r.atime) : ∃ r', d'.tokens[i]? = some r' ∧ r'.id = r.id ∧ r'.atime = t ∧ r'.atime < r.atime := by
  obtain ⟨_, hl, h⟩ := h
  have hi : i < d'.tokens.length := by
    rw [hl]
    exact (List.getElem?_eq_some_iff.mp hr).1
  obtain ⟨h1, _, h2, _⟩ := h i r d'.tokens[i] hr (List.getElem?_eq_getElem hi)
  exact ⟨_, List.getElem?_eq_getElem hi, h1, h2 ht, by rw [h2 ht]; exact hlt⟩

/-- If two users have a token of the message, the check fails with SQLAlchemy, whatever else the message has. -/
theorem C163_users_violated (E : Dkim.Engine) (comb : Nat → Nat → List Rat → Option Rat) (o : Opts) (tieOk touchOk : Bool) (db : Db) (c : Check)
    (p : Plug) (l : Loc) (ts : List (Str × Str)) (hts : c.msg.tokens = some ts) (tok : Str × Str) (ht : tok ∈ ts) (a b : List DbRow) (m : List DbRow)
    (r r' : DbRow) (hd : db.tokens = a ++ r :: (m ++ r' :: b)) (hr : r.row.token = tok.1) (hr' : r'.row.token = tok.1) (score : Rat) :
    (scanDb E comb o .sqlalchemy tieOk touchOk db c p l).1.1.1 ≠ some (some score) := by
  intro hs
  rcases (scanDb_cases E comb o .sqlalchemy tieOk touchOk db c p l).2 with ⟨_, hn⟩ | ⟨_, ts', ns, nn, rows, pw, score', h1, h2, h3, _⟩
  · exact hn score hs
  · rw [hts] at h1
    injection h1 with h1
    subst h1
    have hkey : ∀ (l : List (Str × Str)) (d : Dict Str Str), (tok ∈ l ∨ (Dict.get? d tok.1).isSome) →
        (Dict.get? (l.foldl (fun d t => Dict.set d t.1 t.2) d) tok.1).isSome := by
      intro l
      induction l with
      | nil => rintro d (h | h); · cases h
               · exact h
      | cons y l ih =>
        intro d h
        apply ih
        by_cases hy : y.1 = tok.1
        · right
          rw [← hy, Dict.get?_set_self]
          rfl
        · rcases h with h | h
          · rcases List.mem_cons.mp h with h | h
            · exact absurd (by rw [h]) hy
            · exact Or.inl h
          · right
            rw [Dict.get?_set_ne _ _ hy]
            exact h
    obtain ⟨v, hv⟩ := Option.isSome_iff_exists.mp (hkey ts [] (Or.inl ht))
    have hmem : tok.1 ∈ (msgTokens ts).map Prod.fst := List.mem_map.mpr ⟨_, Dict.mem_of_get? _ hv, rfl⟩
    have hnone : findRow .sqlalchemy db tok.1 = none := by
      unfold findRow
      rw [hd]
      simp only [List.filter_append, List.filter_cons, hr, hr', decide_true, if_true]
      generalize a.filter (fun r => decide (r.row.token = tok.1)) = a'
      generalize m.filter (fun r => decide (r.row.token = tok.1)) = m'
      generalize b.filter (fun r => decide (r.row.token = tok.1)) = b'
      match a', m' with
      | [], [] => rfl
      | [], _ :: _ => rfl
      | [_], _ => rfl
      | _ :: _ :: _, _ => rfl
    have : ∀ l : List Str, tok.1 ∈ l → findRows .sqlalchemy db l = none := by
      intro l
      induction l with
      | nil => intro h; cases h
      | cons x l ih =>
        intro h
        rcases List.mem_cons.mp h with h | h
        · simp only [findRows, ← h, hnone]
        · simp only [findRows]
          cases findRow .sqlalchemy db x with
          | none => rfl
          | some _ => simp [ih h]
    rw [this _ hmem] at h3
    cases h3

/-! ### The hypotheses can be met -/

/-- Two users; the first knows a token that is only in spam. -/
def touchDb : Db := ⟨[(300, 300)], [⟨1, ⟨c!"h1", 200, 0⟩, 500⟩, ⟨2, ⟨c!"h3", 5, 5⟩, 600⟩]⟩

example : scanDb noEngine bayesComb (bayesOpts []) .mysql true true touchDb ⟨bayesMsg, 100, 900⟩ Plug.init Loc.start =
    (scan noEngine bayesComb (bayesOpts []) (baseOf .mysql true true touchDb) bayesMsg Plug.init Loc.start,
      ⟨[(300, 300)], [⟨1, ⟨c!"h1", 200, 0⟩, 100⟩, ⟨2, ⟨c!"h3", 5, 5⟩, 600⟩]⟩) ∧
    (scanDb noEngine bayesComb (bayesOpts []) .mysql true true touchDb ⟨bayesMsg, 100, 900⟩ Plug.init Loc.start).1.1.1.isSome := by
  decide +kernel

end Verif.Props
