import Verif.Model.DnsText
import Verif.Spec.DnsText
import Verif.Lemmas.NetText

namespace Verif.Dns
open Verif Py Re Net Spec

/-- What is written after the address. -/
def portText (port : Option Str) : Str := match port with | none => [] | some p => c!":" ++ p

def serverEnd (br : Bool) (port : Option Str) : Str := (if br then c!"]" else []) ++ portText port

/-- The groups after the port is read. -/
def portGroups (port : Option Str) (g : List (Nat × Str)) : List (Nat × Str) :=
  match port with | none => g | some p => (2, p) :: g

theorem serverTail_match (br : Bool) (port : Option Str) (hp : ∀ p, port = some p → p ≠ [] ∧ ∀ c ∈ p, digit c = true)
    (b : Str) (g : List (Nat × Str)) :
    ∃ b', m serverTail ⟨b, serverEnd br port, g⟩ some = some ⟨b', [], portGroups port g⟩ := by
  have last : ∀ b, ∃ b', m (.seq (opt (.seq (lit c!":") (.group 2 (plus digit)))) .eol) ⟨b, portText port, g⟩ some =
      some ⟨b', [], portGroups port g⟩ := by
    intro b
    cases port with
    | none => exact ⟨b, by simp [portText, portGroups, opt, lit, m]⟩
    | some p =>
      obtain ⟨h0, hd⟩ := hp p rfl
      refine ⟨p.reverse ++ (':' :: b), ?_⟩
      rw [m_seq]
      apply m_opt
      rw [m_seq]
      show m (lit c!":") ⟨b, ':' :: p, g⟩ _ = _
      rw [m_lit1, m]
      have := plus_greedy (p := digit) (gs := g) (w := p) (b := ':' :: b) (a := []) (x := ⟨p.reverse ++ (':' :: b), [], (2, p) :: g⟩)
        (k := fun t => m .eol { t with groups := (2, p.take (p.length - t.after.length)) :: t.groups } some) h0 hd rfl (by simp [m])
      simpa [portGroups] using this
  unfold serverTail seqs seqs seqs serverEnd
  cases br with
  | true =>
    obtain ⟨b', h⟩ := last (']' :: b)
    exact ⟨b', by rw [m_seq]; exact m_opt_hit (by simpa using h)⟩
  | false =>
    obtain ⟨b', h⟩ := last b
    refine ⟨b', ?_⟩
    rw [m_seq, m_opt_miss]
    · simpa using h
    · cases port <;> simp [portText]

theorem server_match (br : Bool) (ip : Str) (port : Option Str) (hip : ip.head? ≠ some '[') (h0 : ip ≠ [])
    (hg : ∀ b g, ∃ b', m (.seq (.group 1 (.alt (plus v4Char) (plus v6Char))) serverTail) ⟨b, ip ++ serverEnd br port, g⟩ some =
      some ⟨b', [], portGroups port ((1, ip) :: g)⟩) :
    readServer ((if br then c!"[" else []) ++ (ip ++ serverEnd br port)) = some (ip, port) := by
  have fin : ∀ b, Option.map (fun t : St => ((t.get 1).getD [], t.get 2)) (some ⟨b, [], portGroups port [(1, ip)]⟩) = some (ip, port) := by
    intro b
    cases port <;> simp [portGroups, St.get, Dict.get?]
  unfold readServer matchRe serverRe seqs seqs seqs seqs
  rw [m_seq, m_bol, m_seq]
  cases br with
  | true =>
    obtain ⟨b', h⟩ := hg c!"[" []
    rw [if_pos rfl, show c!"[" ++ (ip ++ serverEnd true port) = '[' :: (ip ++ serverEnd true port) from rfl]
    rw [m_opt_hit (by simpa using h)]
    exact fin b'
  | false =>
    obtain ⟨b', h⟩ := hg [] []
    rw [if_neg (by simp), List.nil_append, m_opt_miss, h]
    · exact fin b'
    · cases ip with
      | nil => exact absurd rfl h0
      | cons c cs => simpa using hip

theorem serverEnd_v4 (br : Bool) (port : Option Str) : headIn v4Char (serverEnd br port) = false := by
  unfold serverEnd portText
  cases br <;> cases port <;> simp [headIn, v4Char] <;> decide

theorem readServer_v4 (br : Bool) (ip : Str) (port : Option Str) (h0 : ip ≠ []) (hip : ∀ c ∈ ip, v4Char c = true)
    (hp : ∀ p, port = some p → p ≠ [] ∧ ∀ c ∈ p, digit c = true) :
    readServer ((if br then c!"[" else []) ++ (ip ++ serverEnd br port)) = some (ip, port) := by
  apply server_match br ip port _ h0
  · intro b g
    obtain ⟨b', h⟩ := serverTail_match br port hp (ip.reverse ++ b) ((1, ip) :: g)
    refine ⟨b', ?_⟩
    rw [m_seq, m]
    apply m_altL
    apply plus_greedy h0 hip (serverEnd_v4 br port)
    simpa using h
  · intro e
    cases ip with
    | nil => cases e
    | cons c cs =>
      have := hip c (by simp)
      have e' : c = '[' := by simpa using e
      subst e'
      exact absurd this (by decide)

theorem readServer_v6 (br : Bool) (ip : Str) (port : Option Str) (h2 : 2 ≤ ip.count ':') (hip : ∀ c ∈ ip, v6Char c = true)
    (hp : ∀ p, port = some p → p ≠ [] ∧ ∀ c ∈ p, digit c = true) (hb : port ≠ none → br = true) :
    readServer ((if br then c!"[" else []) ++ (ip ++ serverEnd br port)) = some (ip, port) := by
  have h0 : ip ≠ [] := by rintro rfl; simp at h2
  apply server_match br ip port _ h0
  · intro b g
    obtain ⟨b', h⟩ := serverTail_match br port hp (ip.reverse ++ b) ((1, ip) :: g)
    refine ⟨b', ?_⟩
    have hno : m (.seq (.group 1 (plus v4Char)) serverTail) ⟨b, ip ++ serverEnd br port, g⟩ some = none := by
      apply m_none
      intro t ht
      obtain ⟨w, e, _, hw⟩ := ht.reads
      obtain ⟨u, v, rfl, hu, hv⟩ := hw
      have hu0 : u.count ':' = 0 := by
        apply List.count_eq_zero.2
        intro hc
        exact absurd ((Reads.plus.1 hu).2 _ hc) (by decide)
      obtain ⟨v1, v2, rfl, hv1, v3, v4, rfl, hv3, rfl, hend⟩ := hv
      have hv1' : v1.count ':' = 0 := by
        rcases hv1 with hv1 | rfl
        · rw [Reads.lit.1 hv1]; rfl
        · rfl
      have hend' : t.after.count ':' = 0 := by rcases hend with e | e <;> rw [e] <;> rfl
      have hv3' : v3.count ':' ≤ 1 := by
        rcases hv3 with ⟨x, y, rfl, hx, hy⟩ | rfl
        · rw [Reads.lit.1 hx, List.count_append]
          have : y.count ':' = 0 := by
            apply List.count_eq_zero.2
            intro hc
            exact absurd ((Reads.plus.1 hy).2 _ hc) (by decide)
          rw [this]
          decide
        · simp
      have : 2 ≤ (ip ++ serverEnd br port).count ':' := by rw [List.count_append]; omega
      have e' : ip ++ serverEnd br port = u ++ (v1 ++ (v3 ++ [])) ++ t.after := e
      rw [e'] at this
      simp only [List.count_append, List.count_nil] at this
      omega
    rw [m_seq, m] at hno ⊢
    rw [m, hno]
    apply plus_greedy h0 hip
    · unfold serverEnd portText
      cases br with
      | true => rfl
      | false =>
        cases port with
        | none => rfl
        | some p => exact absurd (hb (by simp)) (by simp)
    · simpa using h
  · intro e
    cases ip with
    | nil => cases e
    | cons c cs =>
      have := hip c (by simp)
      have e' : c = '[' := by simpa using e
      subst e'
      exact absurd this (by decide)

theorem dotted_chars (a b c d : Nat) (ha : a ≤ 255) (hb : b ≤ 255) (hc : c ≤ 255) (hd : d ≤ 255) :
    dotted a b c d ≠ [] ∧ ∀ x ∈ dotted a b c d, v4Char x = true := by
  have hx : ∀ n, n ≤ 255 → ∀ x ∈ decimal n, v4Char x = true := fun n hn x hx => by
    simp [v4Char, (decimal_facts hn).2.1 x hx]
  constructor
  · unfold dotted
    simp
  · intro x h
    simp only [dotted, List.mem_append, List.mem_cons] at h
    rcases h with h | rfl | h | rfl | h | rfl | h
    · exact hx a ha x h
    · rfl
    · exact hx b hb x h
    · rfl
    · exact hx c hc x h
    · rfl
    · exact hx d hd x h

theorem v6_colons (f : V6Form) (h : f.Ok) : 2 ≤ f.text.count ':' := by
  cases f with
  | full parts =>
    match parts, h.1 with
    | a :: b :: c :: l, _ =>
      simp only [V6Form.text, join, List.count_append, show List.count ':' c!":" = 1 from rfl]
      omega
  | short hi lo =>
    simp only [V6Form.text, List.count_append, show List.count ':' c!"::" = 2 from rfl]
    omega

/-- A server written as documented is read. -/
theorem readServer_entry (e : ServerEntry) (h : e.Ok) : readServer e.text = some (e.addr.text, e.port) := by
  have hp : ∀ p, e.port = some p → p ≠ [] ∧ ∀ c ∈ p, digit c = true := by
    intro p hp
    obtain ⟨h1, h2⟩ := h.port p hp
    exact ⟨h1, fun c hc => by
      have := h2 c hc
      simp only [digit, Char.isDigit, Bool.and_eq_true, decide_eq_true_eq]
      exact this⟩
  have ht : e.text = (if e.bracketed then c!"[" else []) ++ (e.addr.text ++ serverEnd e.bracketed e.port) := by
    unfold ServerEntry.text serverEnd portText
    cases e.bracketed <;> cases e.port <;> simp
  rw [ht]
  have ha := h.addr
  cases hadr : e.addr with
  | v4 a b c d =>
    rw [hadr] at ha
    obtain ⟨h1, h2⟩ := dotted_chars a b c d ha.1 ha.2.1 ha.2.2.1 ha.2.2.2
    exact readServer_v4 _ _ _ h1 h2 hp
  | v6 f =>
    rw [hadr] at ha
    exact readServer_v6 _ _ _ (v6_colons f ha) (v6_text_chars f ha).2.2.2 hp (h.brackets f hadr)

end Verif.Dns
