import Verif.Props.Moved
/-!
# Property C148: a scalar that `AddKeyValue` put into a parser
-/

namespace Jin
open Spec

namespace Plain

theorem first {x : Json} (hx : x.wf) (hc : x.isContainer = false) : ((idx x.render 0).map fun c => c == 91 || c == 123) = .ok false := by
  have hi : ∀ (c : UInt8) (t : Bytes), idx (c :: t) 0 = .ok c := fun c t => idx_nat (i := 0) rfl
  cases x with
  | lit t =>
    cases t with
    | nil => simp [Json.wf] at hx
    | cons a t =>
      simp only [Json.wf, List.all_cons, Bool.and_eq_true] at hx
      have h1 : a ≠ 91 := by rintro rfl; exact absurd hx.2.1 (by decide)
      have h2 : a ≠ 123 := by rintro rfl; exact absurd hx.2.1 (by decide)
      simp only [Json.render, hi]
      simp [Out.map, h1, h2]
  | str t => simp only [Json.render, hi]; rfl
  | arr _ _ => simp [Json.isContainer] at hc
  | obj _ _ => simp [Json.isContainer] at hc

theorem clean {x : Json} (hx : x.wf) : cleanValue x.render = .ok x.content := by
  simpa using cleanValue_ok (l := []) (r := []) (v := x) rfl hx rfl

end Plain

section
variable {p p' : Parser} {path : List Text} {x : Json} (hx : x.wf) (hc : x.isContainer = false)
include hx hc

/-- **C148** After a successful `AddKeyValue` of a scalar with a key that the parser does not know, in any state, `Get` gives the scalar, and nothing below it. -/
theorem C148_addKeyValue {k : Text} {y : Err} (hn : p.Get (path ++ [k]) = .err y) (h : p.AddKeyValue k x.render path = .done p' none) :
    p'.Get (path ++ [k]) = .ok x.content ∧ ∀ b r, p'.Get (path ++ k :: b :: r) = .err (.keyNotFound b) := by
  have key : ∀ nd, p.core.walk path = .ok nd → ∀ r, (p.core.updAt (·.addChild (.mk k x.render [])) path).valueAt (path ++ [k] ++ r) =
      (Node.mk k x.render []).valueAt r := by
    intro nd hw r
    rw [List.append_assoc, Node.valueAt, Node.valueAt, Deep.walk_upd _ path hw (by simp [Node.addChild]), List.singleton_append, Node.walk, Node.addChild, setDown_down,
      List.find?_append, Deep.find_none hw (Deep.get_none (by simp) hn)]
    simp [Node.label]
  have hgo : (if k.length ≥ 2 then (idx x.render 0).map fun c => c == 91 || c == 123 else .ok false) = .ok false := by
    split
    · exact Plain.first hx hc
    · rfl
  have hfin : ∀ q : Parser, (∀ r, q.core.valueAt (path ++ [k] ++ r) = (Node.mk k x.render []).valueAt r) →
      q.Get (path ++ [k]) = .ok x.content ∧ ∀ b r, q.Get (path ++ k :: b :: r) = .err (.keyNotFound b) := by
    intro q hq
    refine ⟨?_, fun b r => ?_⟩
    · have := hq []
      rw [List.append_nil] at this
      rw [get_valueAt (by simp), this]
      exact Plain.clean hx
    · have := hq (b :: r)
      rw [List.append_assoc, List.singleton_append] at this
      rw [get_valueAt (by simp), this]
      rfl
  unfold Parser.AddKeyValue at h
  simp only [hgo] at h
  split at h
  · cases h
  cases hg : p.Get path with
  | panic => rw [hg] at h; cases h
  | err e => rw [hg] at h; cases h
  | ok json =>
    rw [hg] at h
    simp only at h
    split at h
    · rename_i hl
      obtain rfl : path = [] := by simpa using hl
      split at h
      · cases h
      split at h
      · cases h
      split at h
      · cases h
        exact hfin _ (key p.core rfl)
      · cases h
    · rename_i hl
      have hp : path ≠ [] := by rintro rfl; simp at hl
      obtain ⟨nd, hw⟩ := Fresh.get_walk hp hg
      split at h
      · split at h
        · cases h
        split at h
        · cases h
        · split at h
          · cases h
          · cases h
          · unfold finish at h
            split at h
            · rename_i hr
              cases h
              refine hfin _ fun r => ?_
              rw [refresh_valueAt hr]
              · exact key nd hw r
              · intro hm
                simp only [prefixes, List.mem_reverse, List.mem_map, List.mem_range'_1] at hm
                obtain ⟨i, hi, he⟩ := hm
                have he := congrArg List.length he
                simp only [List.length_take, List.length_append, List.length_singleton] at he
                omega
            · cases h
      · cases h


end

/-- Calls that meet the conditions. -/
example : session (str "{\"o\":{}}") (fun p => .done p none) (fun p => p.Get [str "o", str "key"]) = some (.err (.keyNotFound (str "key")), none) ∧
    session (str "{\"o\":{}}") (·.AddKeyValue (str "key") (str "\"v\"") [str "o"]) (fun p => (p.json, p.Get [str "o", str "key"], p.Get [str "o", str "key", str "0"])) =
      some ((str "{\"o\":{\"key\":\"v\"}}", .ok (str "v"), .err (.keyNotFound (str "0"))), none) := by
  refine ⟨?_, ?_⟩ <;> decide +kernel

namespace Go

/-- **C148 for the text** -/
theorem C148_text_addKeyValue (fl : FloatLib UInt64) {w : WorldP} (hw : Left fl w) {n : Nat} {p : ParserP} (hp : w.parsers[n]? = some p) {path : List Text} {x : Json}
    (hx : x.wf) (hx' : x.isContainer = false) {h' : NHeap} {c : Nat} {j : Bytes} {key : Text} {e : Err}
    (hn : Call fl (go% Parser.Get) [.heap w.heap, .ptr p.core, .bytes p.json] (path ++ [key]) (.ok [.heap w.heap, .ptr p.core, .bytes p.json, .nil, .err e]))
    (hc : Call fl (go% Parser.AddKeyValue) [.heap w.heap, .ptr p.core, .bytes p.json, .bytes key, .bytes x.render] path (.ok [.heap h', .ptr c, .bytes j, .nil])) :
    Call fl (go% Parser.Get) [.heap h', .ptr c, .bytes j] (path ++ [key]) (.ok [.heap h', .ptr c, .bytes j, .bytes x.content, .nil]) ∧
      ∀ b r, Call fl (go% Parser.Get) [.heap h', .ptr c, .bytes j] (path ++ key :: b :: r) (.ok [.heap h', .ptr c, .bytes j, .nil, .err (.keyNotFound b)]) := by
  obtain ⟨hh, hl, P, up, t, hr⟩ := hw.rep hp
  have hg := get_err (hn.unique (text_get hh hl hr (path ++ [key])))
  obtain ⟨P', e', hM, he, ha⟩ := get_after hl (AddKeyValue_sound hh hl key x.render path) (addKeyValue_sim hr key x.render path)
    (hc.unique (text_Parser_AddKeyValue fl hh p hl key x.render path))
  cases e' with
  | some y => simp [errVal] at he
  | none =>
    obtain ⟨g1, g2⟩ := C148_addKeyValue hx hx' hg hM
    refine ⟨?_, fun b r => ?_⟩
    · have := ha (path ++ [key])
      rw [g1] at this
      exact this
    · have := ha (path ++ key :: b :: r)
      rw [g2] at this
      exact this

end Go

end Jin
