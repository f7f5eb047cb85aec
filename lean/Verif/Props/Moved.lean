import Verif.Props.Taken
/-!
# Property C147: the place of a call after `Delete` and `SetKey`
-/

namespace Jin
open Spec

namespace Moved

theorem updAt_snoc (f : Node → Node) (x : Bytes) : ∀ (pre : List Bytes) (n : Node),
    n.updAt f (pre ++ [x]) = n.updAt (fun up => up.setDown (replaceFirst (fun d => d.label == x) f up.down)) pre
  | [], n => rfl
  | b :: pre, n => by
    rw [List.cons_append, Node.updAt, Node.updAt]
    exact congrArg _ (congrFun (congrArg _ (funext fun d => updAt_snoc f x pre d)) _)

theorem find_renamed {x k : Bytes} {d : Node} : ∀ {ds : List Node}, ds.find? (fun d => d.label == x) = some d → ds.any (fun d => d.label == k) = false →
    (replaceFirst (fun d => d.label == x) (·.setLabel k) ds).find? (fun d => d.label == k) = some (d.setLabel k)
  | [], h, _ => by cases h
  | c :: ds, h, ha => by
    have hl : (c.setLabel k).label = k := by cases c; rfl
    simp only [List.any_cons, Bool.or_eq_false_iff] at ha
    rw [List.find?_cons] at h
    rw [replaceFirst]
    cases hc : c.label == x with
    | true =>
      rw [hc] at h
      cases h
      simp [hl]
    | false =>
      rw [hc] at h
      simp only [Bool.false_eq_true, if_false, List.find?_cons, ha.1]
      exact find_renamed h ha.2

theorem walk_parts {x : Bytes} {nd : Node} : ∀ {pre : List Bytes} {n : Node}, n.walk (pre ++ [x]) = .ok nd →
    ∃ up, n.walk pre = .ok up ∧ up.down.find? (fun d => d.label == x) = some nd
  | [], n, h => by
    rw [List.nil_append, Node.walk] at h
    cases hf : n.down.find? (fun d => d.label == x) with
    | none => rw [hf] at h; cases h
    | some d => rw [hf] at h; have h : d.walk [] = .ok nd := h; rw [Node.walk] at h; cases h; exact ⟨n, rfl, hf⟩
  | b :: pre, n, h => by
    rw [List.cons_append, Node.walk] at h
    rw [Node.walk]
    cases hf : n.down.find? (fun d => d.label == b) with
    | none => rw [hf] at h; cases h
    | some d => rw [hf] at h; exact walk_parts (pre := pre) h

theorem walk_append {r : List Bytes} {nd : Node} : ∀ {pre : List Bytes} {n : Node}, n.walk pre = .ok nd → n.walk (pre ++ r) = nd.walk r
  | [], n, h => by rw [Node.walk] at h; cases h; rfl
  | b :: pre, n, h => by
    rw [Node.walk] at h
    rw [List.cons_append, Node.walk]
    cases hf : n.down.find? (fun d => d.label == b) with
    | none => rw [hf] at h; cases h
    | some d => rw [hf] at h; exact walk_append (pre := pre) h

theorem valueAt_label (d : Node) (k : Bytes) (r : List Bytes) : (d.setLabel k).valueAt r = d.valueAt r := by
  cases d
  cases r <;> rfl

theorem long {path q : List Bytes} (h : path.length ≤ q.length) : q ∉ prefixes path 1 (path.length - 1) := by
  intro hm
  simp only [prefixes, List.mem_reverse, List.mem_map, List.mem_range'_1] at hm
  obtain ⟨i, hi, he⟩ := hm
  have he := congrArg List.length he
  simp only [List.length_take] at he
  omega

end Moved

section
variable {p p' : Parser} {path : List Text}

/-- **C147** After `Delete`, whatever it reports for a place that the parser had, the parser finds nothing at or below the place. -/
theorem C147_delete {u x : Text} {e : Option Err} (hg : p.Get (path ++ [x]) = .ok u) (h : p.Delete (path ++ [x]) = .done p' e) (r : List Text) :
    p'.Get (path ++ x :: r) = .err (.keyNotFound x) := by
  obtain ⟨nd, hw⟩ := Fresh.get_walk (by simp) hg
  obtain ⟨up, hu, hf⟩ := Moved.walk_parts hw
  have hl : ((path ++ [x]).length == 0) = false := by simp
  unfold Parser.Delete at h
  rw [hw] at h
  simp only [hl, Bool.false_eq_true, if_false, List.dropLast_concat, Aside.walk_last hw] at h
  have key : (p.core.updAt (·.deAttach x) path).valueAt (path ++ x :: r) = .err (.keyNotFound x) := by
    rw [Node.valueAt, Deep.walk_upd _ path hu (by simp [Node.deAttach]), Node.walk, Node.deAttach, setDown_down]
    have : (up.down.filter fun d => d.label != x).find? (fun d => d.label == x) = none := by
      rw [List.find?_eq_none]
      intro d hd
      have := (List.mem_filter.1 hd).2
      simpa using this
    rw [this]
    rfl
  have fin : ∀ q : Parser, q.core.valueAt (path ++ x :: r) = .err (.keyNotFound x) → q.Get (path ++ x :: r) = .err (.keyNotFound x) := by
    intro q hq
    rw [get_valueAt (by simp), hq]
    rfl
  split at h
  · cases h
  · cases h; exact fin _ key
  · unfold finish at h
    split at h
    · rename_i hr
      cases h
      exact fin _ ((refresh_valueAt hr (Moved.long (by simp))).trans key)
    · cases h

/-- **C147** After a successful `SetKey` the parser finds at and below the new key what it found at and below the old one. -/
theorem C147_setKey {k x : Text} (h : p.SetKey k (path ++ [x]) = .done p' none) (r : List Text) :
    p'.Get (path ++ k :: r) = p.Get (path ++ x :: r) := by
  have hl : ((path ++ [x]).length == 0) = false := by simp
  unfold Parser.SetKey at h
  simp only [hl, Bool.false_eq_true, if_false, List.dropLast_concat] at h
  split at h
  · cases h
  cases hw : p.core.walk (path ++ [x]) with
  | panic => rw [hw] at h; cases h
  | err e => rw [hw] at h; cases h
  | ok nd =>
    obtain ⟨up, hu, hf⟩ := Moved.walk_parts hw
    rw [hw, hu] at h
    simp only at h
    split at h
    · cases h
    rename_i ha
    split at h
    · cases h
    split at h
    · rename_i core hr
      cases h
      rw [get_valueAt (by simp), get_valueAt (by simp)]
      refine congrArg (Out.bind · cleanValue) ?_
      refine (Fresh.quiet_miss hr (Moved.long (by simp))).trans ?_
      have e1 : (p.core.updAt (·.setLabel k) (path ++ [x])).valueAt (path ++ k :: r) = (nd.setLabel k).valueAt r := by
        rw [Moved.updAt_snoc, Node.valueAt, Deep.walk_upd _ path hu (by simp), Node.walk, setDown_down, Moved.find_renamed hf (by simpa using ha)]
        rfl
      have e2 : p.core.valueAt (path ++ x :: r) = nd.valueAt r := by
        rw [Node.valueAt, Moved.walk_append hu, Node.walk, hf]
        rfl
      rw [e1, e2, Moved.valueAt_label]
    · cases h

end

/-- Calls that meet the conditions. -/
example : session (str "{\"o\":{\"a\":{\"c\":1},\"b\":2}}") (·.Delete [str "o", str "a"]) (fun p => (p.json, p.Get [str "o", str "a", str "c"])) =
      some ((str "{\"o\":{\"b\":2}}", .err (.keyNotFound (str "a"))), none) ∧
    session (str "{\"o\":{\"a\":{\"c\":1},\"b\":2}}") (·.SetKey (str "d") [str "o", str "a"]) (fun p => (p.json, p.Get [str "o", str "d", str "c"])) =
      some ((str "{\"o\":{\"d\":{\"c\":1},\"b\":2}}", .ok (str "1")), none) := by
  refine ⟨?_, ?_⟩ <;> decide +kernel

namespace Go

/-- What `Get` gives for the parser that a call leaves. -/
theorem get_after {fl : FloatLib UInt64} {h h' : NHeap} {p : ParserP} {c : Nat} {j : Bytes} {er : Val} {m : PResP} {M : PRes} {up : Option Nat} {t : PTree}
    (hp : p.core < h.length) (hs : Sound h p m) (hm : PRel h up t m M) (e : R.ok [.heap h', .ptr c, .bytes j, er] = presVals m) :
    ∃ P' e', M = .done P' e' ∧ errVal e' = er ∧ ∀ q, Call fl (go% Parser.Get) [.heap h', .ptr c, .bytes j] q (readVals h' ⟨c, j⟩ .nil ((P'.Get q).map .bytes)) := by
  cases m with
  | panic => cases e
  | done p' h1 er' =>
    simp only [presVals, R.ok.injEq, List.cons.injEq, Val.heap.injEq, Val.ptr.injEq, Val.bytes.injEq] at e
    obtain ⟨rfl, rfl, rfl, he, -⟩ := e
    cases M with
    | panic => exact hm.elim
    | done P' e' =>
      obtain ⟨rfl, t', hr', -⟩ := hm
      obtain ⟨s1, s2, s3⟩ := hs
      exact ⟨P', _, rfl, he.symm, fun q => text_get (fl := fl) s1 (by rw [s3]; exact Nat.lt_of_lt_of_le hp s2) hr' q⟩

section
variable (fl : FloatLib UInt64) {w : WorldP} (hw : Left fl w) {n : Nat} {p : ParserP} (hp : w.parsers[n]? = some p) {path : List Text} {x : Text}
  {h' : NHeap} {c : Nat} {j : Bytes}
include hw hp

/-- **C147 for the text** `Delete` of a place that a parser has, whatever it reports. -/
theorem C147_text_delete {u : Text} {er : Val}
    (hg : Call fl (go% Parser.Get) [.heap w.heap, .ptr p.core, .bytes p.json] (path ++ [x]) (.ok [.heap w.heap, .ptr p.core, .bytes p.json, .bytes u, .nil]))
    (hc : Call fl (go% Parser.Delete) [.heap w.heap, .ptr p.core, .bytes p.json] (path ++ [x]) (.ok [.heap h', .ptr c, .bytes j, er])) (r : List Text) :
    Call fl (go% Parser.Get) [.heap h', .ptr c, .bytes j] (path ++ x :: r) (.ok [.heap h', .ptr c, .bytes j, .nil, .err (.keyNotFound x)]) := by
  obtain ⟨hh, hl, P, up, t, hr⟩ := hw.rep hp
  obtain ⟨P', e', hM, -, ha⟩ := get_after hl (Delete_sound hh hl ..) (delete_sim hr (path ++ [x])) (hc.unique (text_Parser_Delete fl hh p hl (path ++ [x])))
  have := ha (path ++ x :: r)
  rw [C147_delete (get_val hh hl hr hg) hM r] at this
  exact this

/-- **C147 for the text** A successful `SetKey`. -/
theorem C147_text_setKey {k : Text}
    (hc : Call fl (go% Parser.SetKey) [.heap w.heap, .ptr p.core, .bytes p.json, .bytes k] (path ++ [x]) (.ok [.heap h', .ptr c, .bytes j, .nil])) (r : List Text) (v e : Val)
    (hg : Call fl (go% Parser.Get) [.heap w.heap, .ptr p.core, .bytes p.json] (path ++ x :: r) (.ok [.heap w.heap, .ptr p.core, .bytes p.json, v, e])) :
    Call fl (go% Parser.Get) [.heap h', .ptr c, .bytes j] (path ++ k :: r) (.ok [.heap h', .ptr c, .bytes j, v, e]) := by
  obtain ⟨hh, hl, P, up, t, hr⟩ := hw.rep hp
  obtain ⟨P', e', hM, he, ha⟩ := get_after hl (SetKey_sound hh hl ..) (setKey_sim hr k (path ++ [x])) (hc.unique (text_Parser_SetKey fl hh p hl k (path ++ [x])))
  cases e' with
  | some y => simp [errVal] at he
  | none =>
    have hv := hg.unique (text_get hh hl hr (path ++ x :: r))
    have hn := ha (path ++ k :: r)
    rw [C147_setKey hM r] at hn
    revert hv hn
    cases P.Get (path ++ x :: r) with
    | panic => intro hv; cases hv
    | ok b => intro hv hn; simp only [readVals, Out.map, R.ok.injEq, List.cons.injEq, true_and, and_true] at hv; rw [hv.1, hv.2]; exact hn
    | err x => intro hv hn; simp only [readVals, Out.map, R.ok.injEq, List.cons.injEq, true_and, and_true] at hv; rw [hv.1, hv.2]; exact hn

end

end Go

end Jin
