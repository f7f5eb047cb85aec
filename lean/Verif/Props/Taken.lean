import Verif.Props.TextDeep
/-!
# Property C146: `SetKey` of a parser refuses a key that is taken and a path that leads nowhere
-/

namespace Jin
open Spec

section
variable {p : Parser} {path : List Text} {k : Text} (hp : path ≠ []) (hk : k ≠ [])
include hp hk

/-- **C146** A key that the parser knows beside the one to be changed is refused, in every state of the parser, and the parser stays as it is. -/
theorem C146_taken {u v : Text} (h1 : p.Get path = .ok u) (h2 : p.Get (path.dropLast ++ [k]) = .ok v) :
    p.SetKey k path = .done p (some (.keyAlreadyExist k)) := by
  have e1 : (path.length == 0) = false := by cases path <;> simp_all
  have e2 : (k.length == 0) = false := by cases k <;> simp_all
  obtain ⟨nd, hw⟩ := Fresh.get_walk hp h1
  obtain ⟨nd', hw'⟩ := Fresh.get_walk (by simp) h2
  obtain ⟨up, d, h3, h4⟩ := Aside.walk_through hw'
  have ha : up.down.any (fun d => d.label == k) = true :=
    List.any_eq_true.2 ⟨d, List.mem_of_find?_eq_some h4, List.find?_some (p := fun d => Node.label d == k) h4⟩
  simp only [Parser.SetKey, e1, e2, hw, h3, ha, Bool.false_eq_true, if_false, if_true]

/-- **C146** A path where the parser has nothing is refused with the error of `Get`. -/
theorem C146_nowhere {e : Err} (h : p.Get path = .err e) : p.SetKey k path = .done p (some e) := by
  have e1 : (path.length == 0) = false := by cases path <;> simp_all
  have e2 : (k.length == 0) = false := by cases k <;> simp_all
  have hw := Deep.get_none hp h
  simp only [Parser.SetKey, e1, e2, hw, Bool.false_eq_true, if_false]

end

/-- **C146** Without a path or without a key nothing is done either. -/
theorem C146_empty (p : Parser) (k : Text) (path : List Text) :
    p.SetKey k [] = .done p (some .nullPath) ∧ (path ≠ [] → p.SetKey [] path = .done p (some .nullKey)) :=
  ⟨rfl, fun hp => by cases path with | nil => exact absurd rfl hp | cons a b => rfl⟩

/-- Calls that meet the conditions, the key itself among them. -/
example : session (str "{\"o\":{\"a\":1,\"b\":2}}") (·.SetKey (str "b") [str "o", str "a"]) (fun p => (p.json, p.Get [str "o", str "a"], p.Get [str "o", str "b"])) =
      some ((str "{\"o\":{\"a\":1,\"b\":2}}", .ok (str "1"), .ok (str "2")), some (.keyAlreadyExist (str "b"))) ∧
    session (str "{\"o\":{\"a\":1,\"b\":2}}") (·.SetKey (str "a") [str "o", str "a"]) Parser.json =
      some (str "{\"o\":{\"a\":1,\"b\":2}}", some (.keyAlreadyExist (str "a"))) ∧
    session (str "{\"o\":{\"a\":1,\"b\":2}}") (·.SetKey (str "c") [str "o", str "d"]) (fun p => (p.json, p.Get [str "o", str "d"])) =
      some ((str "{\"o\":{\"a\":1,\"b\":2}}", .err (.keyNotFound (str "d"))), some (.keyNotFound (str "d"))) := by
  refine ⟨?_, ?_, ?_⟩ <;> decide +kernel

namespace Go

section
variable (fl : FloatLib UInt64) {w : WorldP} (hw : Left fl w) {n : Nat} {p : ParserP} (hp : w.parsers[n]? = some p) {path : List Text} {k : Text}
  (hne : path ≠ []) (hk : k ≠ [])
include hw hp

/-- The call ends with the error `e` and leaves the text and all that `Get` gives. -/
def Refused (fl : FloatLib UInt64) (h : NHeap) (p : ParserP) (k : Text) (path : List Text) (e : Err) : Prop :=
  ∃ h' c, Call fl (go% Parser.SetKey) [.heap h, .ptr p.core, .bytes p.json, .bytes k] path (.ok [.heap h', .ptr c, .bytes p.json, .err e]) ∧
    ∀ q, KeptText fl h p h' c p.json q

theorem refused_of {e : Err} (hc : ∀ P up t, Rep w.heap p P up t → P.SetKey k path = .done P (some e)) : Refused fl w.heap p k path e := by
  obtain ⟨hh, hl, P, up, t, hr⟩ := hw.rep hp
  have hm := setKey_sim hr k path
  have ht := text_Parser_SetKey fl hh p hl k path
  have hs := SetKey_sound hh hl k path
  rw [hc P up t hr] at hm
  cases hx : p.SetKey w.heap k path with
  | panic => rw [hx] at hm; exact hm.elim
  | done p' h' er =>
    rw [hx] at hm ht hs
    have hm' := hm
    obtain ⟨rfl, t', hr', -⟩ := hm'
    have hj : p'.json = p.json := hr'.json.trans hr.json.symm
    simp only [presVals, errVal] at ht
    refine ⟨h', p'.core, hj ▸ ht, fun q => ?_⟩
    rw [← hj]
    exact keptText_of hh hl hr hs hm (er := .err e) rfl fun _ _ h => by cases h; rfl

/-- **C146 for the text** No path, or no key. -/
theorem C146_text_empty (k : Text) (path : List Text) : Refused fl w.heap p k [] .nullPath ∧ (path ≠ [] → Refused fl w.heap p [] path .nullKey) :=
  ⟨refused_of fl hw hp fun P _ _ _ => (C146_empty P k path).1, fun h => refused_of fl hw hp fun P _ _ _ => (C146_empty P k path).2 h⟩

include hne hk

/-- **C146 for the text** A key that is taken, in a parser that a program holds. -/
theorem C146_text_taken {u v : Text}
    (h1 : Call fl (go% Parser.Get) [.heap w.heap, .ptr p.core, .bytes p.json] path (.ok [.heap w.heap, .ptr p.core, .bytes p.json, .bytes u, .nil]))
    (h2 : Call fl (go% Parser.Get) [.heap w.heap, .ptr p.core, .bytes p.json] (path.dropLast ++ [k]) (.ok [.heap w.heap, .ptr p.core, .bytes p.json, .bytes v, .nil])) :
    Refused fl w.heap p k path (.keyAlreadyExist k) := by
  obtain ⟨hh, hl, -⟩ := hw.rep hp
  exact refused_of fl hw hp fun P up t hr => C146_taken hne hk (get_val hh hl hr h1) (get_val hh hl hr h2)

/-- **C146 for the text** A path where the parser has nothing. -/
theorem C146_text_nowhere {e : Err}
    (h : Call fl (go% Parser.Get) [.heap w.heap, .ptr p.core, .bytes p.json] path (.ok [.heap w.heap, .ptr p.core, .bytes p.json, .nil, .err e])) :
    Refused fl w.heap p k path e := by
  obtain ⟨hh, hl, -⟩ := hw.rep hp
  exact refused_of fl hw hp fun P up t hr => C146_nowhere hne hk (get_err (h.unique (text_get hh hl hr path)))

end

end Go

end Jin
