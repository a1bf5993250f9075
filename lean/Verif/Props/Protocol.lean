import Verif.Lemmas.Decimal
import Verif.Spec.Protocol
import Verif.Lemmas.Protocol
import Verif.Props.Report
import Verif.Props.Build

/-!
# C37: request options, C38: message framing, C39: response framing, C40: dispatch, C41: TELL,
C07: one verdict everywhere
-/

namespace Verif.Props
open Verif Py Utf8 Report Protocol Spec

variable {S X : Type} [PyNum S]

/-! ### C37 -/

theorem wire_append (s : Str) (rest : Bytes) : wire s ++ rest = encode s ++ 10 :: rest := by
  simp [wire]

theorem wire_length (s : Str) : 1 ≤ (wire s).length := by simp [wire]

theorem optionLoop_lines (os : List OptLine) (ho : ∀ o ∈ os, o.Ok) :
    ∀ (k : Nat) (d : Dict Str Str) (tail : Bytes) (g : List Nat),
    ∃ d', optionLoop (k + os.length) d ⟨os.flatMap (fun o => wire o.text) ++ tail, g⟩ = optionLoop k d' ⟨tail, g⟩ ∧
      ∀ n, Dict.get? d' n = match lastGiven os n with | some v => some v | none => Dict.get? d n := by
  induction os with
  | nil => intro k d tail g; exact ⟨d, rfl, fun n => rfl⟩
  | cons o os ih =>
    intro k d tail g
    obtain ⟨h1, h2, h3⟩ := ho o (List.mem_cons_self ..)
    obtain ⟨d', e, hd⟩ := ih (fun x hx => ho x (List.mem_cons_of_mem _ hx)) k
      (Dict.set d (lower o.name) (strip o.value)) tail g
    refine ⟨d', ?_, ?_⟩
    · simp only [List.flatMap_cons, List.append_assoc, List.length_cons]
      rw [wire_append, ← Nat.add_assoc, optionLoop_option _ _ _ _ _ h1 h2 h3, e]
    · intro n
      rw [hd n]
      simp only [lastGiven]
      cases lastGiven os n with
      | some v => rfl
      | none =>
        by_cases hn : lower o.name = n
        · subst hn; rw [Dict.get?_set_self]; simp
        · rw [Dict.get?_set_ne _ _ hn]; simp [hn]

theorem flatMap_wire_length (os : List OptLine) : os.length ≤ (os.flatMap (fun o => wire o.text)).length := by
  induction os with
  | nil => simp
  | cons o os ih =>
    have := wire_length o.text
    simp only [List.flatMap_cons, List.length_append, List.length_cons]; omega

/-- **C37**.  Option lines are read up to the first blank line (or the end of the connection), which
is consumed too, and nothing after it; names match in any case, and the last value given counts. -/
theorem C37_options (os : List OptLine) (ho : ∀ o ∈ os, o.Ok) (e : Ending) (he : e.Ok) (g : List Nat) :
    ∃ d, getOptions ⟨os.flatMap (fun o => wire o.text) ++ e.bytes, g⟩ = (.ok d, ⟨e.rest, g⟩) ∧
      ∀ n, Dict.get? d n = lastGiven os n := by
  have hl := flatMap_wire_length os
  unfold getOptions
  simp only [List.length_append]
  obtain ⟨k, hk⟩ : ∃ k, (os.flatMap (fun o => wire o.text)).length + e.bytes.length + 1 = (k + 1) + os.length :=
    ⟨(os.flatMap (fun o => wire o.text)).length + e.bytes.length - os.length, by omega⟩
  rw [hk]
  obtain ⟨d', h1, h2⟩ := optionLoop_lines os ho (k + 1) [] e.bytes g
  refine ⟨d', ?_, ?_⟩
  · rw [h1]
    cases e with
    | blank w rest => simp only [Ending.bytes, Ending.rest]; rw [wire_append]; exact optionLoop_blank _ _ _ he.1 he.2 _ _
    | closed => exact optionLoop_closed _ _ _
  · intro n
    rw [h2 n]
    cases lastGiven os n <;> rfl

/-- A line without a colon among the options. -/
theorem getOptions_bad (os : List OptLine) (ho : ∀ o ∈ os, o.Ok) (s : Str) (hs : '\n' ∉ s) (hb : strip s ≠ [])
    (hc : ':' ∉ strip s) (rest : Bytes) (g : List Nat) :
    getOptions ⟨os.flatMap (fun o => wire o.text) ++ (wire s ++ rest), g⟩ =
      (.error (.invalidOption badHeader), ⟨rest, g⟩) := by
  have hl := flatMap_wire_length os
  unfold getOptions
  simp only [List.length_append]
  obtain ⟨k, hk⟩ : ∃ k, (os.flatMap (fun o => wire o.text)).length + ((wire s).length + rest.length) + 1 =
      (k + 1) + os.length :=
    ⟨(os.flatMap (fun o => wire o.text)).length + ((wire s).length + rest.length) - os.length, by omega⟩
  rw [hk]
  obtain ⟨d', h1, -⟩ := optionLoop_lines os ho (k + 1) [] (wire s ++ rest) g
  rw [h1, wire_append]
  exact optionLoop_bad _ _ _ hs hb hc _ _

theorem serve_line (h : Host S X) (s w1 w2 : Str) (hl : RequestLine s w1 w2) (rest : Bytes) (g : List Nat) :
    serve h ⟨wire s ++ rest, g⟩ =
      match Dict.get? commands (upper w1) with
      | none => (⟨[errLine h.version (strip s)], [], none⟩, ⟨rest, g⟩)
      | some cmd =>
        match getAndHandle h cmd ⟨rest, g⟩ with
        | (⟨w, a, some .keyError⟩, c) => (⟨w ++ [errLine h.version (strip s)], a, none⟩, c)
        | res => res := by
  unfold serve
  rw [wire_append]
  simp only [readline_text s hl.1, decode_line, strip_lf, hl.2]
  rfl

/-- The commands that read options. -/
theorem optioned {w : Str} (hw : w ∈ c!"TELL" :: checking) :
    ∃ cmd, Dict.get? commands w = some cmd ∧ cmd.hasOptions = true ∧ cmd ≠ .skip := by
  simp only [checking, List.mem_cons, List.not_mem_nil, or_false] at hw
  rcases hw with rfl | rfl | rfl | rfl | rfl | rfl | rfl
  · exact ⟨.tell, by decide, rfl, by decide⟩
  · exact ⟨.check, by decide, rfl, by decide⟩
  · exact ⟨.symbols, by decide, rfl, by decide⟩
  · exact ⟨.report, by decide, rfl, by decide⟩
  · exact ⟨.reportIfSpam, by decide, rfl, by decide⟩
  · exact ⟨.process, by decide, rfl, by decide⟩
  · exact ⟨.headers, by decide, rfl, by decide⟩

/-- **C37**.  For every command that has options, an option line without a colon is answered with
the 76 line and nothing else is written or done. -/
theorem C37_no_colon (h : Host S X) (s w1 w2 : Str) (hl : RequestLine s w1 w2) (hw : upper w1 ∈ c!"TELL" :: checking)
    (os : List OptLine) (ho : ∀ o ∈ os, o.Ok) (bad : Str) (hs : '\n' ∉ bad) (hb : strip bad ≠ [])
    (hc : ':' ∉ strip bad) (rest : Bytes) (g : List Nat) :
    (serve h ⟨wire s ++ (os.flatMap (fun o => wire o.text) ++ (wire bad ++ rest)), g⟩).1 =
      ⟨[badHeaderLine h.version c!"(header not in 'Name: value' format)"], [], none⟩ := by
  obtain ⟨cmd, h1, h2, h3⟩ := optioned hw
  rw [serve_line h s w1 w2 hl, h1]
  have hp : prepare h cmd ⟨os.flatMap (fun o => wire o.text) ++ (wire bad ++ rest), g⟩ =
      (.error (.invalidOption badHeader), ⟨rest, g⟩) := by
    simp only [prepare, h2, if_true, getOptions_bad os ho bad hs hb hc]
  simp only [getAndHandle, if_neg h3, hp]
  rfl

/-- An option line that is not UTF-8 is not answered at all. -/
theorem C37_undecodable_violated (h : Host S X) (g : List Nat) (rest : Bytes) :
    (serve h ⟨wire c!"CHECK SPAMC/1.2" ++ (0xFF :: 10 :: rest), g⟩).1 = ⟨[], [], some .other⟩ := by
  have hl : RequestLine c!"CHECK SPAMC/1.2" c!"CHECK" c!"SPAMC/1.2" := ⟨by decide, by decide⟩
  have hc : Dict.get? commands (upper c!"CHECK") = some .check := by decide
  rw [serve_line h _ _ _ hl, hc]
  have hd : decode (Conn.readline ⟨0xFF :: 10 :: rest, g⟩).1 = none := by
    have : cutLine (0xFF :: 10 :: rest) = ([0xFF, 10], rest) := rfl
    simp only [Conn.readline, this]; decide
  have hp : prepare h .check ⟨0xFF :: 10 :: rest, g⟩ = (.error .other, (Conn.readline ⟨0xFF :: 10 :: rest, g⟩).2) := by
    simp only [prepare, Cmd.hasOptions, if_true, getOptions, optionLoop_undecodable _ _ _ hd]
  simp only [getAndHandle, reduceCtorEq, if_false, hp]

example : let os : List OptLine := [⟨c!"User: a\r", c!"User", c!" a"⟩, ⟨c!"uSER: b c\r", c!"uSER", c!" b c"⟩]
    (∀ o ∈ os, o.Ok) ∧ lastGiven os c!"user" = some c!"b c" := by
  intro os
  refine ⟨?_, by decide⟩
  intro o ho
  simp only [os, List.mem_cons, List.not_mem_nil, or_false] at ho
  rcases ho with rfl | rfl <;> exact ⟨by decide, by decide, by decide⟩
example : RequestLine c!"report_ifspam SPAMC/1.2\r" c!"report_ifspam" c!"SPAMC/1.2" ∧
    upper c!"report_ifspam" ∈ c!"TELL" :: checking ∧ (Ending.blank c!"\r" [1, 2]).Ok := by
  refine ⟨⟨by decide, by decide⟩, by decide, by decide, by decide⟩

/-! ### C38 -/

/-- The client asked for compression. -/
def Compressed (d : Dict Str Str) : Prop := Dict.get? d c!"compress" = some c!"zlib"

theorem getMessage_sized {d : Dict Str Str} {t : Str} {n : Nat} (h : Dict.get? d c!"content-length" = some t)
    (hn : int? t = some (n : Int)) (hz : ¬ Compressed d) (c : Conn) :
    getMessage d c = messageLoop (c.data.length + 1) (some n) [] c := by
  unfold getMessage
  simp only [h, hn, if_neg (show ¬ (n : Int) < 0 from by omega), Int.toNat_natCast]
  unfold Compressed at hz
  split <;> (rename_i e; rw [e]) <;> simp only [if_neg hz]

theorem getMessage_open {d : Dict Str Str} (h : Dict.get? d c!"content-length" = none) (hz : ¬ Compressed d) (c : Conn) :
    getMessage d c = messageLoop (c.data.length + 1) none [] c := by
  unfold getMessage
  simp only [h]
  unfold Compressed at hz
  split <;> (rename_i e; rw [e]) <;> simp only [if_neg hz]

/-- **C38** (partial).  With a content length `n`, however the transport splits the data: if the
bytes are ASCII the message is the text of exactly the next `n` bytes (or of all there are) and
these are consumed.  Missing: other bytes, see `C38_length_any` and `C38_split_violated`, and
compressed messages, `C38_zlib_violated`. -/
theorem C38_length_partial (d : Dict Str Str) (t : Str) (n : Nat) (h : Dict.get? d c!"content-length" = some t)
    (hn : int? t = some (n : Int)) (hz : ¬ Compressed d) (c : Conn) (ha : ∀ b ∈ c.data.take n, b < 128) :
    ∃ m, (getMessage d c).1 = .ok m ∧ encode m = c.data.take n ∧ (getMessage d c).2.data = c.data.drop n := by
  rw [getMessage_sized h hn hz]
  rcases messageLoop_spec (c.data.length + 1) (some n) [] c (by omega) with ⟨m, h1, h2, h3⟩ | ⟨-, ⟨b, hb, hb'⟩, -⟩
  · exact ⟨m, h1, h2, h3⟩
  · exact absurd (ha b hb) (by omega)

/-- **C38**.  For any bytes: a message that is accepted is the text of exactly the next `n` bytes,
and in no case are more than these consumed. -/
theorem C38_length_any (d : Dict Str Str) (t : Str) (n : Nat) (h : Dict.get? d c!"content-length" = some t)
    (hn : int? t = some (n : Int)) (hz : ¬ Compressed d) (c : Conn) :
    (∀ m, (getMessage d c).1 = .ok m → encode m = c.data.take n ∧ (getMessage d c).2.data = c.data.drop n) ∧
    (∃ used, used ++ (getMessage d c).2.data = c.data ∧ used.length ≤ n) ∧
    (∀ e, (getMessage d c).1 = .error e → e = .other ∧ ∃ b ∈ c.data.take n, 128 ≤ b) := by
  rw [getMessage_sized h hn hz]
  rcases messageLoop_spec (c.data.length + 1) (some n) [] c (by omega) with ⟨m, h1, h2, h3⟩ | ⟨h1, hb, p, hp, hp'⟩
  · refine ⟨?_, ⟨c.data.take n, ?_, by simp; omega⟩, ?_⟩
    · intro m' hm
      rw [h1] at hm
      cases hm
      exact ⟨h2, h3⟩
    · rw [h3]; exact List.take_append_drop _ _
    · intro e he; rw [h1] at he; cases he
  · refine ⟨?_, ⟨p, hp, ?_⟩, ?_⟩
    · intro m hm; rw [h1] at hm; cases hm
    · have := hp'.length_le
      simp only [want, List.length_take] at this
      omega
    · intro e he; rw [h1] at he; cases he; exact ⟨rfl, hb⟩

/-- **C38**.  Without a content length the message is everything up to the close. -/
theorem C38_until_close (d : Dict Str Str) (h : Dict.get? d c!"content-length" = none) (hz : ¬ Compressed d) (c : Conn) :
    (∀ m, (getMessage d c).1 = .ok m → encode m = c.data ∧ (getMessage d c).2.data = []) ∧
    ((∀ b ∈ c.data, b < 128) → ∃ m, (getMessage d c).1 = .ok m) := by
  rw [getMessage_open h hz]
  rcases messageLoop_spec (c.data.length + 1) none [] c (by omega) with ⟨m, h1, h2, h3⟩ | ⟨h1, ⟨b, hb, hb'⟩, -⟩
  · refine ⟨?_, fun _ => ⟨_, h1⟩⟩
    intro m' hm
    rw [h1] at hm
    cases hm
    exact ⟨h2, h3⟩
  · refine ⟨?_, ?_⟩
    · intro m hm; rw [h1] at hm; cases hm
    · intro ha; exact absurd (ha b hb) (by omega)

/-- The message length is not a number, or is negative. -/
def BadLength (t : Str) : Prop := ∀ n : Nat, int? t ≠ some (n : Int)

theorem getMessage_bad {d : Dict Str Str} {t : Str} (h : Dict.get? d c!"content-length" = some t) (hb : BadLength t)
    (c : Conn) : getMessage d c = (.error (.invalidOption badLength), c) := by
  unfold getMessage
  simp only [h]
  cases hi : int? t with
  | none => rfl
  | some n =>
    by_cases hn : n < 0
    · simp only [if_pos hn]
    · exact absurd (by rw [hi]; congr 1; omega) (hb n.toNat)

/-- **C38**.  A negative or non-numeric length is rejected with the 76 response, nothing else. -/
theorem C38_bad_length (h : Host S X) (s w1 w2 : Str) (hl : RequestLine s w1 w2) (hw : upper w1 ∈ c!"TELL" :: checking)
    (os : List OptLine) (ho : ∀ o ∈ os, o.Ok) (e : Ending) (he : e.Ok) (t : Str)
    (ht : lastGiven os c!"content-length" = some t) (hb : BadLength t)
    (eng : Engine S X) (hu : h.ruleset (lastGiven os c!"user") = .ok eng) (g : List Nat) :
    (serve h ⟨wire s ++ (os.flatMap (fun o => wire o.text) ++ e.bytes), g⟩).1 =
      ⟨[badHeaderLine h.version c!"(Content-Length contains non-numeric bytes)"], [], none⟩ := by
  obtain ⟨cmd, h1, h2, h3⟩ := optioned hw
  rw [serve_line h s w1 w2 hl, h1]
  obtain ⟨d, hd, hg⟩ := C37_options os ho e he g
  have hp : prepare h cmd ⟨os.flatMap (fun o => wire o.text) ++ e.bytes, g⟩ =
      (.error (.invalidOption badLength), ⟨e.rest, g⟩) := by
    simp only [prepare, h2, if_true, hd, hg, hu, getMessage_bad (show Dict.get? d _ = some t by rw [hg]; exact ht) hb]
  simp only [getAndHandle, if_neg h3, hp]
  rfl

example : BadLength c!"12a" ∧ BadLength c!"-5" := by
  constructor
  · intro n; rw [show int? c!"12a" = none by decide]; simp
  · intro n; rw [show int? c!"-5" = some (-5) by decide]; simp

theorem messageLoop_chunk (n k : Nat) (c : Conn) (hg : c.gives = []) (hn : n ≠ 0)
    (hd : decode (c.data.take (min n chunkSize)) = none) :
    (messageLoop (k + 1) (some n) [] c).1 = .error .other := by
  have hr : c.read (min n chunkSize) = (c.data.take (min n chunkSize), ⟨c.data.drop (min n chunkSize), []⟩) := by
    simp [Conn.read, hg]
  have hx : c.data.take (min n chunkSize) ≠ [] := by
    intro e; rw [e] at hd; cases hd
  simp only [messageLoop, if_neg (show ¬ (some n = some 0) from fun e => hn (by simpa using e)), Option.getD_some, hr,
    if_neg hx, hd]

theorem encode_straddling (n : Nat) : encode (List.replicate n 'a' ++ ['é']) = List.replicate n 97 ++ [0xC3, 0xA9] := by
  rw [encode_append]
  congr 1
  unfold encode
  induction n with
  | zero => rfl
  | succ n ih => rw [List.replicate_succ, List.flatMap_cons, ih, List.replicate_succ]; rfl

theorem take_straddling (n : Nat) (a b : Nat) : (List.replicate n 97 ++ [a, b]).take (n + 1) = List.replicate n 97 ++ [a] := by
  rw [List.take_append, List.length_replicate, List.take_of_length_le (by simp), show n + 1 - n = 1 by omega]
  rfl

/-- A message of valid UTF-8 can be refused because a character straddles the boundary of a chunk:
8191 letters and an `é`. -/
theorem C38_split_violated (d : Dict Str Str) (h : Dict.get? d c!"content-length" = some c!"8193") (hz : ¬ Compressed d) :
    ∃ text : Str, (encode text).length = 8193 ∧ (getMessage d ⟨encode text, []⟩).1 = .error .other := by
  refine ⟨List.replicate 8191 'a' ++ ['é'], ?_, ?_⟩
  · rw [encode_straddling, List.length_append, List.length_replicate]; rfl
  · rw [getMessage_sized (n := 8193) h (by decide) hz]
    apply messageLoop_chunk
    · rfl
    · omega
    · simp only [encode_straddling, show min 8193 chunkSize = 8191 + 1 from rfl, take_straddling]
      exact decode_concat_none _ _ (by omega)

/-- A compressed message is never accepted, and the refusal is not answered. -/
theorem C38_zlib_violated (d : Dict Str Str) (hz : Compressed d) (c : Conn) : ∀ m, (getMessage d c).1 ≠ .ok m := by
  intro m
  unfold getMessage
  have : Dict.get? d c!"compress" = some c!"zlib" := hz
  simp only [this, if_true]
  split
  · split <;> simp
  · split
    · simp
    · split
      · simp
      · split <;> simp

/-! ### C39 -/

/-- **C42**: a request is answered with the ruleset of the user that its last `User` line names, and
with the site's (that of no user) if there is no such line. -/
theorem C42_named_user (h : Host S X) (cmd : Cmd) (hc : cmd.hasOptions = true) (os : List OptLine)
    (ho : ∀ o ∈ os, o.Ok) (e : Ending) (he : e.Ok) (g : List Nat) :
    getAndHandle h cmd ⟨os.flatMap (fun o => wire o.text) ++ e.bytes, g⟩ =
      getAndHandle { h with ruleset := fun _ => h.ruleset (lastGiven os c!"user") } cmd
        ⟨os.flatMap (fun o => wire o.text) ++ e.bytes, g⟩ := by
  obtain ⟨d, h1, h2⟩ := C37_options os ho e he g
  have : prepare h cmd ⟨os.flatMap (fun o => wire o.text) ++ e.bytes, g⟩ =
      prepare { h with ruleset := fun _ => h.ruleset (lastGiven os c!"user") } cmd
        ⟨os.flatMap (fun o => wire o.text) ++ e.bytes, g⟩ := by
    unfold prepare
    simp only [hc, if_true, h1, h2]
  unfold getAndHandle
  rw [this]

/-- **C39** (partial).  A request whose command is known and ends without an exception is answered
with one status line: the error line alone, or the success line followed by the answer; SKIP is not
answered.  Missing: a command that fails after its success line (`C39_key_error_violated`,
`C39_no_answer_violated`). -/
theorem C39_status_partial (h : Host S X) (cmd : Cmd) (c : Conn) (hs : cmd ≠ .skip)
    (hx : (getAndHandle h cmd c).1.exn = none) :
    (∃ what, (getAndHandle h cmd c).1.written = [badHeaderLine h.version what]) ∨
    (∃ e options mail, (prepare h cmd c).1 = .ok (e, options, mail) ∧
      (getAndHandle h cmd c).1.written = successLine h.version cmd.okCode :: (handle e options mail cmd).written) := by
  revert hx
  unfold getAndHandle
  rw [if_neg hs]
  cases hp : prepare h cmd c with
  | mk r c' =>
    cases r with
    | error x =>
      cases x with
      | invalidOption m => intro _; left; exact ⟨_, rfl⟩
      | keyError => intro hx; cases hx
      | other => intro hx; cases hx
    | ok r =>
      obtain ⟨e, options, mail⟩ := r
      intro _
      right
      exact ⟨e, options, mail, rfl, rfl⟩

theorem Cmd.checks {w : Str} (hw : w ∈ checking) :
    ∃ cmd, Dict.get? commands w = some cmd ∧ cmd.hasOptions = true ∧ cmd ≠ .skip ∧ cmd ≠ .ping ∧ cmd ≠ .tell ∧
      cmd.okCode = c!"EX_OK" := by
  simp only [checking, List.mem_cons, List.not_mem_nil, or_false] at hw
  rcases hw with rfl | rfl | rfl | rfl | rfl | rfl
  · exact ⟨.check, by decide, rfl, by decide, by decide, by decide, rfl⟩
  · exact ⟨.symbols, by decide, rfl, by decide, by decide, by decide, rfl⟩
  · exact ⟨.report, by decide, rfl, by decide, by decide, by decide, rfl⟩
  · exact ⟨.reportIfSpam, by decide, rfl, by decide, by decide, by decide, rfl⟩
  · exact ⟨.process, by decide, rfl, by decide, by decide, by decide, rfl⟩
  · exact ⟨.headers, by decide, rfl, by decide, by decide, by decide, rfl⟩

theorem handle_check (e : Engine S X) (options : Dict Str Str) (m : Mail S X) (cmd : Cmd) (h1 : cmd ≠ .skip)
    (h2 : cmd ≠ .ping) (h3 : cmd ≠ .tell) : handle e options (some m) cmd = checkHandle e m cmd := by
  cases cmd <;> first | rfl | contradiction

theorem prepare_mail (h : Host S X) (cmd : Cmd) (ho : cmd.hasOptions = true) (c : Conn) (e : Engine S X)
    (options : Dict Str Str) (mail : Option (Mail S X)) (hp : (prepare h cmd c).1 = .ok (e, options, mail)) :
    ∃ m, mail = some m := by
  revert hp
  unfold prepare
  simp only [ho, if_true]
  split
  · intro hp; cases hp
  · split
    · intro hp; cases hp
    · split
      · intro hp; cases hp
      · split
        · intro hp; cases hp
        · rename_i m _
          intro hp
          cases hp
          exact ⟨m, rfl⟩

/-- **C39** (partial).  A checking command that ends without an exception answers, unless with the
error line alone, with the success line, the verdict line, a `Content-length` line with an empty line,
and the payload; the length announced is the number of characters of the payload, which is its
length in bytes if it is ASCII.  Missing: other payloads (`C39_length_violated`). -/
theorem C39_length_partial (h : Host S X) (w : Str) (hw : w ∈ checking) (cmd : Cmd)
    (hcmd : Dict.get? commands w = some cmd) (c : Conn) (hx : (getAndHandle h cmd c).1.exn = none) :
    (∃ what, (getAndHandle h cmd c).1.written = [badHeaderLine h.version what]) ∨
    ∃ verdict count payload, (getAndHandle h cmd c).1.written = [successLine h.version c!"EX_OK", verdict,
        c!"Content-length: " ++ count ++ c!"\r\n\r\n", payload] ∧ Decimal count payload.length ∧
      ((∀ ch ∈ payload, ch.toNat < 128) → payload.length = (encode payload).length) := by
  obtain ⟨cmd', h1, h2, h3, h4, h5, h6⟩ := Cmd.checks hw
  rw [hcmd] at h1
  cases h1
  rcases C39_status_partial h cmd c h3 hx with hb | ⟨e, options, mail, hp, hwr⟩
  · exact .inl hb
  · right
    obtain ⟨m, rfl⟩ := prepare_mail h cmd h2 c e options mail hp
    have hx' : (checkHandle e m cmd).exn = none := by
      revert hx
      unfold getAndHandle
      rw [if_neg h3]
      cases hpp : prepare h cmd c with
      | mk r c' =>
        rw [hpp] at hp
        simp only at hp
        subst hp
        simp only [handle_check e options m cmd h3 h4 h5]
        exact id
    rw [hwr, h6, handle_check e options m cmd h3 h4 h5]
    revert hx'
    unfold checkHandle
    split
    · intro hx; cases hx
    · split
      · intro hx; cases hx
      · rename_i payload _
        intro _
        refine ⟨_, _, payload, rfl, decimal_toDigits _, ?_⟩
        intro ha
        rw [encode_ascii payload ha, List.length_map]

/-- An engine for the examples: the report template and how spam is wrapped can be chosen. -/
def demoEngine (report : Str) (reportSafe : Int) (st : MsgSt Int Unit) : Engine Int Unit where
  conf := ⟨5, c!"", reportSafe, report, c!"", []⟩
  mods := ⟨[], [], []⟩
  lt a b := decide (a < b)
  fmt1 := showInt
  shw := showInt
  matchMsg _ := .ok st
  build _ := some [(c!"YESNO", c!"Yes")]
  matchedReport s := Verif.matchedReport showInt ⟨[(c!"A", constRule c!"A" 1 (.ret (.val 1)))], []⟩ s
  hook _ := none

/-- A message for the examples. -/
def demoMail : Mail Int Unit := ⟨startMsg, [], [], fun _ => c!"text", fun _ _ => c!"text"⟩

theorem encChar_length (c : Char) : 1 ≤ (encChar c).length ∧ (128 ≤ c.toNat → 2 ≤ (encChar c).length) := by
  unfold encChar
  simp only
  repeat' split
  all_goals simp
  all_goals omega

theorem encode_longer (s : Str) : s.length ≤ (encode s).length ∧ ((∃ c ∈ s, 128 ≤ c.toNat) → s.length < (encode s).length) := by
  induction s with
  | nil => simp [encode]
  | cons c s ih =>
    have h := encChar_length c
    have e : (encode (c :: s)).length = (encChar c).length + (encode s).length := by simp [encode]
    rw [e, List.length_cons]
    refine ⟨by omega, ?_⟩
    rintro ⟨d, hd, h'⟩
    rcases List.mem_cons.1 hd with rfl | hd
    · have := h.2 h'; omega
    · have := ih.2 ⟨d, hd, h'⟩; omega

/-- **C39** is violated by every answer that is not ASCII: fewer bytes are announced than follow. -/
theorem C39_length_violated (e : Engine S X) (m : Mail S X) (cmd : Cmd) (s : MsgSt S X) (payload : Str) (hm : e.matchMsg m.st = .ok s)
    (hp : extraDetails e m s cmd = .ok payload) (hc : ∃ ch ∈ payload, 128 ≤ ch.toNat) :
    ∃ verdict count, (checkHandle e m cmd).written = [verdict, c!"Content-length: " ++ count ++ c!"\r\n\r\n", payload] ∧
      Decimal count payload.length ∧ payload.length < (encode payload).length := by
  refine ⟨verdictLine e s, dec payload.length, ?_, decimal_toDigits _, (encode_longer payload).2 hc⟩
  unfold checkHandle
  simp only [hm, hp]

/-- A report with an `é`: two characters are announced, three bytes follow. -/
example :
    (checkHandle (demoEngine c!"é" 1 startMsg) demoMail .report).written =
      [c!"Spam: False ; 0 / 5\r\n", c!"Content-length: 2\r\n\r\n", c!"é\n"] ∧
    (encode c!"é\n").length = 3 := by decide

/-- A host for the examples. -/
def demoHost (e : Engine Int Unit) : Host Int Unit := ⟨c!"1", fun _ => .ok e, fun _ => .ok demoMail⟩

/-- **C39** is violated: whenever the report of the matched rules cannot be made (the rules are then said to have no description), with `report_safe 0`
PROCESS fails after it has answered with a verdict, so a success line and a verdict come before the error line. -/
theorem C39_key_error_violated (e : Engine S X) (m : Mail S X) (s : MsgSt S X) (hm : e.matchMsg m.st = .ok s) (h0 : e.conf.reportSafe = 0)
    (hr : e.matchedReport s = none) (cmd : Cmd) (hc : cmd = .process ∨ cmd = .headers) :
    checkHandle e m cmd = ⟨[verdictLine e s], [], some .keyError⟩ := by
  have ha : ∀ b, adjustedMessage e m s b = .error .keyError := by
    intro b
    unfold adjustedMessage
    simp [h0, hr]
  unfold checkHandle
  rcases hc with rfl | rfl <;> simp only [hm, extraDetails, ha]

/-- A short-circuited message has a matched rule without description (oa/plugins/short_circuit.py 39).
With `report_safe 0`, PROCESS answers with a success line, a verdict, and then an error line. -/
example :
    (serve (demoHost (demoEngine c!"" 0 ⟨100, [(c!"A", 1)], [], ()⟩))
      ⟨wire c!"PROCESS SPAMC/1.2" ++ wire c!"", []⟩).1 =
      ⟨[successLine c!"1" c!"EX_OK", c!"Spam: True ; 100 / 5\r\n", badHeaderLine c!"1" c!"PROCESS SPAMC/1.2"],
        [], none⟩ := by
  rw [serve_line _ c!"PROCESS SPAMC/1.2" c!"PROCESS" c!"SPAMC/1.2" ⟨by decide, by decide⟩]
  decide

/-- If reading the message raises an exception, the request is not answered. -/
theorem C39_no_answer_violated (h : Host S X) (e : Engine S X) (hu : h.ruleset none = .ok e)
    (hp : h.parse [] = .error .other) (g : List Nat) :
    (serve h ⟨wire c!"CHECK SPAMC/1.2" ++ wire c!"", g⟩).1 = ⟨[], [], some .other⟩ := by
  rw [serve_line h c!"CHECK SPAMC/1.2" c!"CHECK" c!"SPAMC/1.2" ⟨by decide, by decide⟩]
  have hc : Dict.get? commands (upper c!"CHECK") = some .check := by decide
  rw [hc]
  have ho : getOptions ⟨wire c!"", g⟩ = (.ok [], ⟨[], g⟩) := rfl
  have hm : getMessage [] ⟨[], g⟩ = (.ok [], ⟨[], g.tail⟩) := by
    have hg : Dict.get? ([] : Dict Str Str) c!"content-length" = none := rfl
    have hz : ¬ Compressed [] := by intro h; cases h
    rw [getMessage_open hg hz]
    simp only [messageLoop, Conn.read, List.take_nil, List.drop_nil, reduceCtorEq, if_false, if_true]
  have hn : Dict.get? ([] : Dict Str Str) c!"user" = none := rfl
  have hpp : prepare h .check ⟨wire c!"", g⟩ = (.error .other, ⟨[], g.tail⟩) := by
    simp only [prepare, Cmd.hasOptions, if_true, ho, hn, hu, hm, hp]
  simp only [getAndHandle, reduceCtorEq, if_false, hpp]

/-! ### C40 -/

/-- **C40**.  PING, in any case, is answered with PONG, and nothing after the line is read. -/
theorem C40_ping (h : Host S X) (s w1 w2 : Str) (hl : RequestLine s w1 w2) (hw : upper w1 = c!"PING")
    (e : Engine S X) (he : h.ruleset none = .ok e) (rest : Bytes) (g : List Nat) :
    serve h ⟨wire s ++ rest, g⟩ = (⟨[successLine h.version c!"PONG"], [], none⟩, ⟨rest, g⟩) := by
  rw [serve_line h s w1 w2 hl, hw]
  have hc : Dict.get? commands c!"PING" = some .ping := by decide
  have hn : Dict.get? ([] : Dict Str Str) c!"user" = none := rfl
  rw [hc]
  simp only [getAndHandle, reduceCtorEq, if_false, prepare, Cmd.hasOptions, Bool.false_eq_true, hn, he, handle]
  rfl

/-- **C40**.  SKIP, in any case, is not answered and does nothing. -/
theorem C40_skip (h : Host S X) (s w1 w2 : Str) (hl : RequestLine s w1 w2) (hw : upper w1 = c!"SKIP") (rest : Bytes)
    (g : List Nat) : serve h ⟨wire s ++ rest, g⟩ = (⟨[], [], none⟩, ⟨rest, g⟩) := by
  rw [serve_line h s w1 w2 hl, hw]
  have hc : Dict.get? commands c!"SKIP" = some .skip := by decide
  rw [hc]
  simp [getAndHandle]

/-- **C40**.  A request line of two words that names no command is answered with the error line only. -/
theorem C40_unknown (h : Host S X) (s w1 w2 : Str) (hl : RequestLine s w1 w2)
    (hw : upper w1 ∉ c!"TELL" :: c!"PING" :: c!"SKIP" :: checking) (rest : Bytes) (g : List Nat) :
    serve h ⟨wire s ++ rest, g⟩ = (⟨[badHeaderLine h.version (strip s)], [], none⟩, ⟨rest, g⟩) := by
  rw [serve_line h s w1 w2 hl]
  have hc : Dict.get? commands (upper w1) = none := by
    rw [Dict.get?_eq_none_iff]
    intro hm
    apply hw
    revert hm
    simp only [commands, checking, Dict.keys, List.map_cons, List.map_nil, List.mem_cons, List.not_mem_nil, or_false]
    intro hm
    rcases hm with e | e | e | e | e | e | e | e | e <;> simp [e]
  rw [hc]
  rfl

/-- **C40** (partial).  A command named in any case is the one run on what follows the line; if it
raises a `KeyError`, the error line is added to what it wrote.  Missing: lines that are not two words
(`C40_words_violated`). -/
theorem C40_known_partial (h : Host S X) (s w1 w2 : Str) (hl : RequestLine s w1 w2) (name : Str) (cmd : Cmd)
    (hw : upper w1 = name) (hn : (name, cmd) ∈ [(c!"TELL", Cmd.tell), (c!"CHECK", Cmd.check), (c!"SYMBOLS", Cmd.symbols),
      (c!"REPORT", Cmd.report), (c!"REPORT_IFSPAM", Cmd.reportIfSpam), (c!"PROCESS", Cmd.process),
      (c!"HEADERS", Cmd.headers)]) (rest : Bytes) (g : List Nat) :
    let r := getAndHandle h cmd ⟨rest, g⟩
    (r.1.exn ≠ some .keyError → serve h ⟨wire s ++ rest, g⟩ = r) ∧
    (r.1.exn = some .keyError → serve h ⟨wire s ++ rest, g⟩ =
      (⟨r.1.written ++ [badHeaderLine h.version (strip s)], r.1.actions, none⟩, r.2)) := by
  intro r
  have hc : Dict.get? commands (upper w1) = some cmd := by
    rw [hw]
    simp only [List.mem_cons, List.not_mem_nil, or_false, Prod.mk.injEq] at hn
    rcases hn with ⟨rfl, rfl⟩ | ⟨rfl, rfl⟩ | ⟨rfl, rfl⟩ | ⟨rfl, rfl⟩ | ⟨rfl, rfl⟩ | ⟨rfl, rfl⟩ | ⟨rfl, rfl⟩ <;> decide
  rw [serve_line h s w1 w2 hl, hc]
  obtain ⟨w, a, x, c, hr⟩ : ∃ w a x c, getAndHandle h cmd ⟨rest, g⟩ = (⟨w, a, x⟩, c) := ⟨_, _, _, _, rfl⟩
  simp only [r, hr]
  constructor
  · intro hx
    split
    · rename_i heq
      simp only [Prod.mk.injEq, Done.mk.injEq] at heq
      exact absurd heq.1.2.2 hx
    · rfl
  · intro hx
    subst hx
    rfl

/-- A request line that is not two words is not answered. -/
theorem C40_words_violated (h : Host S X) (s : Str) (hs : '\n' ∉ s) (hw : (splitWs (strip s)).length ≠ 2) (rest : Bytes)
    (g : List Nat) : (serve h ⟨wire s ++ rest, g⟩).1 = ⟨[], [], some .other⟩ := by
  unfold serve
  rw [wire_append]
  simp only [readline_text s hs, decode_line, strip_lf]
  split
  · rename_i heq; rw [heq] at hw; simp at hw
  · rfl

example : (splitWs (strip c!"PING\r")).length ≠ 2 := by decide
example : RequestLine c!"ping SPAMC/1.5\r" c!"ping" c!"SPAMC/1.5" ∧ upper c!"ping" = c!"PING" :=
  ⟨⟨by decide, by decide⟩, by decide⟩
example : RequestLine c!"BOGUS SPAMC/1.5\r" c!"BOGUS" c!"SPAMC/1.5" ∧
    upper c!"BOGUS" ∉ c!"TELL" :: c!"PING" :: c!"SKIP" :: checking :=
  ⟨⟨by decide, by decide⟩, by decide⟩

/-! ### C41 -/

/-- **C41** (partial).  TELL reports exactly if `Set` is given and revokes exactly if `Remove` is given,
each once and in this order; the message counts as spam unless another class is given; the targets
are those listed, separated by commas; and the answer repeats what was asked for.  Missing: lists
with blanks after the commas (`C41_blank_violated`) and failing reports (`C41_failed_violated`). -/
theorem C41_tell_partial (e : Engine S X) (d : Dict Str Str) (mail : Option (Mail S X)) (hh : ∀ a, e.hook a = none)
    (set remove : Option (List Str))
    (hset : ∀ l, set = some l → l ≠ [] ∧ ∀ t ∈ l, ',' ∉ t) (hrem : ∀ l, remove = some l → l ≠ [] ∧ ∀ t ∈ l, ',' ∉ t)
    (h1 : Dict.get? d c!"set" = set.map (join c!",")) (h2 : Dict.get? d c!"remove" = remove.map (join c!",")) :
    let spam : Bool := match Dict.get? d c!"message-class" with
      | none => true
      | some t => lower t = c!"spam"
    handle e d mail .tell = {
      written :=
        (match set with | some l => [c!"DidSet: " ++ join c!"," l ++ c!"\r\n"] | none => []) ++
        (match remove with | some l => [c!"DidRemove: " ++ join c!"," l ++ c!"\r\n"] | none => [])
      actions :=
        (match set with | some l => [⟨false, spam, decide (c!"local" ∈ l), decide (c!"remote" ∈ l)⟩] | none => []) ++
        (match remove with | some l => [⟨true, spam, decide (c!"local" ∈ l), decide (c!"remote" ∈ l)⟩] | none => [])
      exn := none } := by
  intro spam
  have hsp : decide (lower ((Dict.get? d c!"message-class").getD c!"spam") = c!"spam") = spam := by
    cases hm : Dict.get? d c!"message-class" with
    | none => simp only [spam, hm]; decide
    | some t => simp only [spam, hm, Option.getD_some]
  have hr : handle e d mail .tell = tellHandle e d := by cases mail <;> rfl
  rw [hr]
  unfold tellHandle
  simp only [hsp]
  have half : ∀ (l : Option (List Str)) (key did : Str) (rev : Bool) (dn : Done),
      (∀ x, l = some x → x ≠ [] ∧ ∀ t ∈ x, ',' ∉ t) → Dict.get? d key = l.map (join c!",") → dn.exn = none →
      tellHalf e d key did rev spam dn =
        ⟨dn.written ++ (match l with | some l => [did ++ c!": " ++ join c!"," l ++ c!"\r\n"] | none => []),
         dn.actions ++ (match l with | some l => [⟨rev, spam, decide (c!"local" ∈ l), decide (c!"remote" ∈ l)⟩] | none => []),
         none⟩ := by
    intro l key did rev dn hl hk hx
    unfold tellHalf
    rw [hk, hx]
    cases l with
    | none => obtain ⟨w, a, x⟩ := dn; simp only at hx; subst hx; simp
    | some l =>
      obtain ⟨h3, h4⟩ := hl l rfl
      simp only [Option.map_some, splitChar_join l h3 h4, hh]
  rw [half set c!"set" c!"DidSet" false ⟨[], [], none⟩ hset h1 rfl, half remove c!"remove" c!"DidRemove" true _ hrem h2 rfl]
  cases set <;> cases remove <;> simp

/-- **C41** is violated: a target after a comma and a blank is not recognised.  With `Set` followed by such a list, the message is not reported to
the remote data base, but the answer repeats it as done. -/
theorem C41_blank_violated (e : Engine S X) (d : Dict Str Str) (mail : Option (Mail S X)) (hh : ∀ a, e.hook a = none) (first : Str)
    (hf : ',' ∉ first ∧ first ≠ c!"remote") (h1 : Dict.get? d c!"set" = some (first ++ c!", remote")) (h2 : Dict.get? d c!"remove" = none) :
    ∃ spam here, handle e d mail .tell = ⟨[c!"DidSet: " ++ first ++ c!", remote\r\n"], [⟨false, spam, here, false⟩], none⟩ := by
  have h := C41_tell_partial e d mail hh (some [first, c!" remote"]) none (fun l hl => by
    cases hl
    exact ⟨by simp, fun t ht => by
      simp only [List.mem_cons, List.not_mem_nil, or_false] at ht
      rcases ht with rfl | rfl
      · exact hf.1
      · decide⟩) (by simp) (by rw [h1]; simp [join]) (by rw [h2]; rfl)
  have hn : decide (c!"remote" ∈ [first, c!" remote"]) = false := by
    simp only [List.mem_cons, List.not_mem_nil, or_false, decide_eq_false_iff_not, not_or]
    exact ⟨fun h => hf.2 h.symm, by decide⟩
  simp only [hn] at h
  have gen : ∀ (x y : Bool) (D : Done), D = ⟨[c!"DidSet: " ++ join c!"," [first, c!" remote"] ++ c!"\r\n"] ++ [], [⟨false, x, y, false⟩] ++ [], none⟩ →
      ∃ spam here, D = ⟨[c!"DidSet: " ++ first ++ c!", remote\r\n"], [⟨false, spam, here, false⟩], none⟩ := by
    rintro x y D rfl
    exact ⟨x, y, by simp [join]⟩
  exact gen _ _ _ h

/-- `Set: local, remote`: the message is not reported to the remote data base, but the answer says so. -/
example :
    handle (demoEngine c!"" 0 startMsg) [(c!"set", c!"local, remote")] none .tell =
      ⟨[c!"DidSet: local, remote\r\n"], [⟨false, true, true, false⟩], none⟩ := by decide

/-- **C41** is violated: if reporting succeeds and revoking fails, the report was made but nothing is said about it. -/
theorem C41_failed_violated (e : Engine S X) (d : Dict Str Str) (mail : Option (Mail S X)) (x : Exn) (hh : ∀ a, e.hook a = none ↔ a.revoke = false)
    (hx : ∀ a, a.revoke = true → e.hook a = some x) (v w : Str) (h1 : Dict.get? d c!"set" = some v) (h2 : Dict.get? d c!"remove" = some w) :
    ∃ a b, handle e d mail .tell = ⟨[], [a, b], some x⟩ ∧ a.revoke = false ∧ b.revoke = true := by
  have hr : handle e d mail .tell = tellHandle e d := by cases mail <;> rfl
  rw [hr]
  unfold tellHandle tellHalf
  simp only [h1, h2, (hh ⟨false, _, _, _⟩).2, hx ⟨true, _, _, _⟩]
  exact ⟨_, _, rfl, rfl, rfl⟩

/-- If revoking fails after reporting, the report made is not mentioned in the answer. -/
example :
    handle { demoEngine c!"" 0 startMsg with hook := fun a => if a.revoke then some .other else none }
      [(c!"set", c!"local"), (c!"remove", c!"remote")] none .tell =
      ⟨[], [⟨false, true, true, false⟩, ⟨true, true, false, true⟩], some .other⟩ := by decide

example : (handle (demoEngine c!"" 0 startMsg)
    [(c!"message-class", c!"Ham"), (c!"set", c!"local,remote"), (c!"remove", c!"remote")] none .tell).actions =
    [⟨false, false, true, true⟩, ⟨true, false, false, true⟩] := by decide

/-- **C41**.  No other command reports or revokes. -/
theorem C41_only_tell (e : Engine S X) (d : Dict Str Str) (mail : Option (Mail S X)) (cmd : Cmd) (h : cmd ≠ .tell) :
    (handle e d mail cmd).actions = [] := by
  have hc : ∀ m, (checkHandle e m cmd).actions = [] := by
    intro m
    unfold checkHandle
    split
    · rfl
    · split <;> rfl
  cases cmd <;> cases mail <;> first | contradiction | rfl | exact hc _

/-! ### C07: the commands -/

/-- **C07**.  Every checking command answers first with the verdict, which is `True` exactly if the
score reaches the required score. -/
theorem C07_verdict (e : Engine S X) (m : Mail S X) (cmd : Cmd) (s : MsgSt S X) (hm : e.matchMsg m.st = .ok s) :
    (e.conf.required ≤ s.score → ∃ rest, (checkHandle e m cmd).written =
      (c!"Spam: True ; " ++ e.fmt1 s.score ++ c!" / " ++ e.shw e.conf.required ++ c!"\r\n") :: rest) ∧
    (¬ e.conf.required ≤ s.score → ∃ rest, (checkHandle e m cmd).written =
      (c!"Spam: False ; " ++ e.fmt1 s.score ++ c!" / " ++ e.shw e.conf.required ++ c!"\r\n") :: rest) := by
  unfold checkHandle
  simp only [hm]
  constructor
  · intro h
    have hv : verdictLine e s = c!"Spam: True ; " ++ e.fmt1 s.score ++ c!" / " ++ e.shw e.conf.required ++ c!"\r\n" := by
      simp [verdictLine, isSpam, h]
    rw [← hv]
    split
    · exact ⟨_, rfl⟩
    · exact ⟨_, rfl⟩
  · intro h
    have hv : verdictLine e s = c!"Spam: False ; " ++ e.fmt1 s.score ++ c!" / " ++ e.shw e.conf.required ++ c!"\r\n" := by
      simp [verdictLine, isSpam, h]
    rw [← hv]
    split
    · exact ⟨_, rfl⟩
    · exact ⟨_, rfl⟩

/-- **C07** (partial).  For numbers that can be compared, REPORT_IFSPAM includes the report REPORT
gives exactly if the score reaches the required score.  Missing: NaN (`C07_nan_violated`). -/
theorem C07_ifspam_partial (e : Engine S X) (m : Mail S X) (s : MsgSt S X)
    (hlt : ∀ a b : S, e.lt a b = true ↔ ¬ b ≤ a) :
    (e.conf.required ≤ s.score → extraDetails e m s .reportIfSpam = extraDetails e m s .report) ∧
    (¬ e.conf.required ≤ s.score → extraDetails e m s .reportIfSpam = .ok []) := by
  constructor
  · intro h
    have : e.lt s.score e.conf.required = false := by
      cases hx : e.lt s.score e.conf.required with
      | false => rfl
      | true => exact absurd h ((hlt _ _).1 hx)
    simp [extraDetails, this]
  · intro h
    simp [extraDetails, (hlt _ _).2 h]

theorem adjustE_ok (e : Engine S X) (s : MsgSt S X) (ms : List Mod) (h h' : Hdrs) (hx : adjustE e s ms h = .ok h') :
    adjustHeaders (fun t => (texted e s t).toOption) ms h = some h' := by
  induction ms generalizing h with
  | nil => cases hx; rfl
  | cons m ms ih =>
    simp only [adjustE] at hx
    simp only [adjustHeaders]
    split at hx
    · rename_i hr
      rw [if_pos hr]; exact ih _ hx
    · rename_i hr
      rw [if_neg hr]
      split at hx
      · rename_i v hv
        simp only [hv, Except.toOption]
        exact ih _ hx
      · cases hx

/-- **C07**.  The delivered message of PROCESS and HEADERS has the header modifications of spam
exactly if the score reaches the required score, and those of ham otherwise (`Report.adjusted`, whose
result is described by C56).  Spam is wrapped, with the two reports, exactly if PROCESS is asked for
and `report_safe` is not 0; HEADERS gives the text before the first empty line. -/
theorem C07_headers (e : Engine S X) (m : Mail S X) (s : MsgSt S X) (headerOnly : Bool) (text : Str)
    (hx : adjustedMessage e m s headerOnly = .ok text) :
    ∃ hdrs, adjusted (decide (e.conf.required ≤ s.score)) headerOnly e.conf.reportSafe e.mods
        (fun t => (texted e s t).toOption) (e.matchedReport s) m.orig m.bounce = some hdrs ∧
      (headerOnly = false → (¬ e.conf.required ≤ s.score ∨ e.conf.reportSafe = 0) → text = m.render hdrs) ∧
      (headerOnly = false → e.conf.required ≤ s.score → e.conf.reportSafe ≠ 0 → ∃ a b,
        reportText e s e.conf.report = .ok a ∧ reportText e s e.conf.unsafeReport = .ok b ∧
        text = m.renderBounce (a ++ b) hdrs) ∧
      (headerOnly = true → ∃ a, text = a ++ c!"\n\n" ∧
        (m.render hdrs = a ∧ ¬ c!"\n\n" <:+: a ∨ ∃ b, m.render hdrs = a ++ c!"\n\n" ++ b)) := by
  unfold adjustedMessage at hx
  dsimp only at hx
  rw [show isSpam e.conf s = decide (e.conf.required ≤ s.score) from rfl] at hx
  split at hx
  · cases hx
  · rename_i report hrep
    split at hx
    · cases hx
    · rename_i h1 hh1
      split at hx
      · cases hx
      · rename_i h2 hh2
        split at hx
        · cases hx
        · rename_i h3 hh3
          refine ⟨h3, ?_, ?_, ?_, ?_⟩
          · unfold adjusted
            have a1 := adjustE_ok e s _ _ _ hh2
            have a2 := adjustE_ok e s _ _ _ hh3
            have b : (if e.conf.reportSafe = 0 then (e.matchedReport s).map (fun r =>
                (if (!decide (e.conf.required ≤ s.score) || headerOnly || decide (e.conf.reportSafe = 0)) = true
                  then m.orig else m.bounce) ++ [(c!"X-Spam-Report", r)])
                else some (if (!decide (e.conf.required ≤ s.score) || headerOnly || decide (e.conf.reportSafe = 0)) = true
                  then m.orig else m.bounce)) = some h1 := by
              revert hh1
              split
              · split
                · intro hh; cases hh
                · rename_i r hr
                  intro hh; cases hh
                  rw [hr]; rfl
              · intro hh; cases hh; rfl
            simp only [b, Option.bind_some, a1]
            exact a2
          · intro ho hp
            have hplain : (!decide (e.conf.required ≤ s.score) || headerOnly || decide (e.conf.reportSafe = 0)) = true := by
              rcases hp with hp | hp <;> simp [hp]
            subst ho
            simp only [hplain, if_true, Bool.false_eq_true, if_false] at hx
            cases hx; rfl
          · intro ho hs hr
            subst ho
            have hplain : ¬ (!decide (e.conf.required ≤ s.score) || false || decide (e.conf.reportSafe = 0)) = true := by
              simp [hs, hr]
            rw [if_neg hplain] at hrep
            simp only [Bool.false_eq_true, if_false] at hx
            rw [if_neg hplain] at hx
            cases hx
            revert hrep
            split
            · rename_i a b ha hb
              intro hh; cases hh
              exact ⟨a, b, ha, hb, rfl⟩
            · intro hh; cases hh
            · intro hh; cases hh
          · intro ho
            subst ho
            simp only [Bool.or_true, Bool.true_or, if_true] at hx
            revert hx
            split
            · rename_i a b hsp
              intro hh; cases hh
              exact ⟨a, rfl, .inr ⟨b, split1_spec hsp⟩⟩
            · rename_i hsp
              intro hh; cases hh
              exact ⟨_, rfl, .inl ⟨rfl, (split1_none_iff _ _).1 hsp⟩⟩

/-- What a checking command writes is the verdict, the length and the details. -/
theorem check_written (e : Engine S X) (m : Mail S X) (s : MsgSt S X) (cmd : Cmd) (v n text : Str)
    (hm : e.matchMsg m.st = .ok s) (hx : (checkHandle e m cmd).written = [v, n, text]) :
    extraDetails e m s cmd = .ok text := by
  unfold checkHandle at hx
  simp only [hm] at hx
  split at hx
  · simp at hx
  · rename_i r hr
    simp only [List.cons.injEq, and_true] at hx
    rw [hr, hx.2.2]

/-- **C07**.  The text a PROCESS request is answered with is the message with the headers of its verdict: the message itself
if it is ham or `report_safe` is 0, and otherwise the message that wraps it, with the two reports. -/
theorem C07_process (e : Engine S X) (m : Mail S X) (s : MsgSt S X) (cmd : Cmd) (v n text : Str)
    (hcmd : Dict.get? commands c!"PROCESS" = some cmd) (hm : e.matchMsg m.st = .ok s)
    (hx : (checkHandle e m cmd).written = [v, n, text]) :
    ∃ hdrs, adjusted (decide (e.conf.required ≤ s.score)) false e.conf.reportSafe e.mods
        (fun t => (texted e s t).toOption) (e.matchedReport s) m.orig m.bounce = some hdrs ∧
      ((¬ e.conf.required ≤ s.score ∨ e.conf.reportSafe = 0) → text = m.render hdrs) ∧
      (e.conf.required ≤ s.score → e.conf.reportSafe ≠ 0 → ∃ a b,
        reportText e s e.conf.report = .ok a ∧ reportText e s e.conf.unsafeReport = .ok b ∧
        text = m.renderBounce (a ++ b) hdrs) := by
  have hc : cmd = .process := by
    have h0 : Dict.get? commands c!"PROCESS" = some Cmd.process := by decide
    rw [h0] at hcmd; cases hcmd; rfl
  subst hc
  obtain ⟨hdrs, h1, h2, h3, _⟩ := C07_headers e m s false text (check_written e m s _ v n text hm hx)
  exact ⟨hdrs, h1, h2 rfl, h3 rfl⟩

/-- **C07**.  The text a HEADERS request is answered with is the message itself, with the headers of its verdict, up to the first
empty line; it is never the wrapped message. -/
theorem C07_headers_only (e : Engine S X) (m : Mail S X) (s : MsgSt S X) (cmd : Cmd) (v n text : Str)
    (hcmd : Dict.get? commands c!"HEADERS" = some cmd) (hm : e.matchMsg m.st = .ok s)
    (hx : (checkHandle e m cmd).written = [v, n, text]) :
    ∃ hdrs, adjusted (decide (e.conf.required ≤ s.score)) true e.conf.reportSafe e.mods
        (fun t => (texted e s t).toOption) (e.matchedReport s) m.orig m.bounce = some hdrs ∧
      ∃ a, text = a ++ c!"\n\n" ∧ (m.render hdrs = a ∧ ¬ c!"\n\n" <:+: a ∨ ∃ b, m.render hdrs = a ++ c!"\n\n" ++ b) := by
  have hc : cmd = .headers := by
    have h0 : Dict.get? commands c!"HEADERS" = some Cmd.headers := by decide
    rw [h0] at hcmd; cases hcmd; rfl
  subst hc
  obtain ⟨hdrs, h1, _, _, h4⟩ := C07_headers e m s true text (check_written e m s _ v n text hm hx)
  exact ⟨hdrs, h1, h4 rfl⟩

example : (checkHandle (demoEngine c!"Report" 1 ⟨5, [], [], ()⟩) demoMail .headers).written =
      [c!"Spam: True ; 5 / 5\r\n", c!"Content-length: 6\r\n\r\n", c!"text\n\n"] ∧
    (checkHandle (demoEngine c!"Report" 1 ⟨5, [], [], ()⟩) demoMail .process).written =
      [c!"Spam: True ; 5 / 5\r\n", c!"Content-length: 4\r\n\r\n", c!"text"] := by decide

/-- Numbers with a NaN. -/
instance instPyNumNan : PyNum (Option Int) where
  add a b := match a, b with | some a, some b => some (a + b) | _, _ => none
  zero := some 0
  one := some 1
  neg a := a.map (- ·)
  le a b := match a, b with | some a, some b => a ≤ b | _, _ => False
  decEq := inferInstance
  decLe a b := match a, b with
    | some a, some b => inferInstanceAs (Decidable (a ≤ b))
    | none, _ => isFalse (by intro h; cases h)
    | some _, none => isFalse (by intro h; cases h)

/-- **C07** is violated for every score that cannot be compared with the required one, as NaN: the message is answered as not spam, but
REPORT_IFSPAM includes the report REPORT gives. -/
theorem C07_nan_violated (e : Engine S X) (m : Mail S X) (s : MsgSt S X) (hm : e.matchMsg m.st = .ok s)
    (h1 : ¬ e.conf.required ≤ s.score) (h2 : e.lt s.score e.conf.required = false) :
    checkHandle e m .reportIfSpam = checkHandle e m .report ∧
    ∃ rest, (checkHandle e m .reportIfSpam).written =
      (c!"Spam: False ; " ++ e.fmt1 s.score ++ c!" / " ++ e.shw e.conf.required ++ c!"\r\n") :: rest := by
  have he : extraDetails e m s .reportIfSpam = extraDetails e m s .report := by simp [extraDetails, h2]
  refine ⟨by unfold checkHandle; simp only [hm, he], ?_⟩
  have hv : verdictLine e s = c!"Spam: False ; " ++ e.fmt1 s.score ++ c!" / " ++ e.shw e.conf.required ++ c!"\r\n" := by
    simp [verdictLine, isSpam, h1]
  rw [← hv]
  unfold checkHandle
  simp only [hm]
  split
  · exact ⟨_, rfl⟩
  · exact ⟨_, rfl⟩

/-- With `score A nan`, the verdict is ham but REPORT_IFSPAM includes the report. -/
example :
    let e : Engine (Option Int) Unit :=
      { conf := ⟨some 5, c!"", 1, c!"Report", c!"", []⟩, mods := ⟨[], [], []⟩
        lt := fun a b => match a, b with | some a, some b => decide (a < b) | _, _ => false
        fmt1 := fun _ => c!"x", shw := fun _ => c!"5"
        matchMsg := fun _ => .ok ⟨none, [(c!"A", 1)], [(c!"A", c!"")], ()⟩
        build := fun _ => some [(c!"YESNO", c!"No")], matchedReport := fun _ => some [], hook := fun _ => none }
    (checkHandle e ⟨⟨some 0, [], [], ()⟩, [], [], fun _ => [], fun _ _ => []⟩ .reportIfSpam).written =
      [c!"Spam: False ; x / 5\r\n", c!"Content-length: 7\r\n\r\n", c!"Report\n"] := by decide

example : (checkHandle (demoEngine c!"Report" 1 ⟨5, [], [], ()⟩) demoMail .reportIfSpam).written =
      [c!"Spam: True ; 5 / 5\r\n", c!"Content-length: 7\r\n\r\n", c!"Report\n"] ∧
    (checkHandle (demoEngine c!"Report" 1 ⟨4, [], [], ()⟩) demoMail .reportIfSpam).written =
      [c!"Spam: False ; 4 / 5\r\n", c!"Content-length: 0\r\n\r\n", c!""] ∧
    (∀ a b : Int, (demoEngine c!"Report" 1 startMsg).lt a b = true ↔ ¬ b ≤ a) := by
  refine ⟨by decide, by decide, ?_⟩
  intro a b
  simp [demoEngine]

end Verif.Props
