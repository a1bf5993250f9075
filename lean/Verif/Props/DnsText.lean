import Verif.Lemmas.DnsText
import Verif.Props.Dns
import Verif.Props.Builtins
import Verif.Props.Content

/-!
# C59: nameservers as they are written; C99: and when a ruleset is saved
-/

namespace Verif.Props
open Verif Py Dns Spec

theorem int_digits (p : Str) (n : Nat) (h : DigitsOf p n) : int? p = some (n : Int) := by
  refine (builtin_int p n).2 ⟨p, n, h, .inl ⟨?_, rfl⟩⟩
  apply strip_word
  intro c hc
  obtain ⟨h1, h2⟩ := h.2.1 c hc
  have a1 := UInt32.le_iff_toNat_le.1 (Char.le_def.1 h1)
  have a2 := UInt32.le_iff_toNat_le.1 (Char.le_def.1 h2)
  rw [Bool.eq_false_iff]
  intro hs
  have hw := (builtin_isSpace c).1 hs
  have b1 : 48 ≤ c.toNat := a1
  have b2 : c.toNat ≤ 57 := a2
  simp only [whiteSpace, List.mem_cons, List.not_mem_nil, or_false] at hw
  omega

/-- **C59** (partial).  Nameservers written as documented that agree on their port, or give none, are all used, in
order, at that port, else at 53.  Missing: the options that have no effect (`C59_…_violated`). -/
theorem C59_written_partial (o : Options) (r : Resolver) (es : List ServerEntry) (p : Str) (n : Nat)
    (ho : o.servers = (es.map ServerEntry.text).map readServer) (h0 : es ≠ []) (hok : ∀ e ∈ es, e.Ok)
    (hport : ∀ e ∈ es, e.port = none ∨ e.port = some p) (hp : DigitsOf p n) :
    configureDns o r = some { r with nameservers := es.map (fun e => e.addr.text),
                                     port := if ∃ e ∈ es, e.port = some p then (n : Int) else 53 } := by
  have hs : o.servers = (es.map (fun e => (e.addr.text, e.port))).map some := by
    rw [ho, List.map_map, List.map_map]
    apply List.map_congr_left
    intro e he
    exact readServer_entry e (hok e he)
  rw [C59_servers_partial o r _ p n hs (by simpa using h0) (by
    intro s hs
    obtain ⟨e, he, rfl⟩ := List.mem_map.1 hs
    exact hport e he) (int_digits p n hp)]
  have hiff : (∃ s ∈ es.map (fun e => (e.addr.text, e.port)), s.2 = some p) ↔ ∃ e ∈ es, e.port = some p := by
    constructor
    · rintro ⟨s, hs, h⟩
      obtain ⟨e, he, rfl⟩ := List.mem_map.1 hs
      exact ⟨e, he, h⟩
    · rintro ⟨e, he, h⟩
      exact ⟨_, List.mem_map_of_mem he, h⟩
  simp only [hiff, List.map_map, Function.comp_def]

/-- The documented examples. -/
example : (⟨.v4 127 0 0 1, false, some c!"53"⟩ : ServerEntry).text = c!"127.0.0.1:53" ∧
    (⟨.v6 (.short [] [c!"1"]), true, some c!"53"⟩ : ServerEntry).text = c!"[::1]:53" ∧
    (⟨.v4 127 0 0 1, false, none⟩ : ServerEntry).text = c!"127.0.0.1" := by decide

example : (⟨.v6 (.short [] [c!"1"]), true, some c!"53"⟩ : ServerEntry).Ok := by
  refine ⟨⟨by decide, by simp, ?_⟩, ?_, fun _ _ _ => rfl⟩
  · intro p hp
    rw [List.mem_singleton.1 hp]
    unfold Hextet
    decide
  · intro p hp
    rw [← Option.some.inj hp]
    decide

/-! ### C99: nameservers of a saved ruleset -/

/-- **C99** (partial).  A restored interface sends, suppresses and tests the same queries as the one saved.  Missing: the
nameservers (`C99_nameservers_violated`). -/
theorem C99_dns_partial (d : Interface) (fresh : Resolver) (l : List (Read × Str)) :
    (queries l (Interface.restore fresh d.save).iface).1 = (queries l d.iface).1 := rfl

/-- **C99 is violated**: whatever nameservers and port were configured before a ruleset was saved, the restored one uses
those of the system it is restored on. -/
theorem C99_nameservers_violated (o : Options) (r r' fresh : Resolver) (i : Iface) (_h : configureDns o r = some r')
    (hne : r'.nameservers ≠ fresh.nameservers) :
    (Interface.restore fresh (Interface.save ⟨i, r'⟩)).resolver.nameservers = fresh.nameservers ∧
    (Interface.restore fresh (Interface.save ⟨i, r'⟩)).resolver.port = fresh.port ∧
    (Interface.restore fresh (Interface.save ⟨i, r'⟩)).resolver ≠ r' := by
  refine ⟨rfl, rfl, ?_⟩
  intro e
  exact hne (by rw [← e]; rfl)

end Verif.Props
