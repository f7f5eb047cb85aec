import Verif.Go.Scheme
import Verif.Props.Text
import Verif.Props.TextRound
import Verif.Props.Bytes
import Verif.Props.Position
import Verif.Props.Robust
import Verif.Props.SetKey
/-!
# Property C124: the text on arbitrary bytes

C26, C70–C72, C83, C84, C88, C90 and C91 for the text of /repo (`Verif.Go.Source`).  Only C26, C83 and C84 speak of documents; the
others hold on every text, JSON or not.
-/

namespace Jin.Go
open Spec

section
variable (fl : FloatLib UInt64)

/-- **C124** `Get` and `Set` address the same bytes of any text: both panic, both give the same error, or `Set` puts its
argument where the value is that `Get` returns, after white space, a colon, a comma or an opening square bracket (C70). -/
theorem C124_get_set (json : Bytes) (path : List Bytes) (hp : path ≠ []) :
    (Call fl (go% Get) [.bytes json] path .panic ∧ ∀ v, Call fl (go% Set) [.bytes json, .bytes v] path .panic) ∨
    (∃ e, Call fl (go% Get) [.bytes json] path (.ok [.nil, .err e]) ∧
      ∀ v, Call fl (go% Set) [.bytes json, .bytes v] path (.ok [.bytes json, .err e])) ∨
    ∃ a tok b w, json = a ++ tok ++ b ∧ Call fl (go% Get) [.bytes json] path (.ok [.bytes w, .nil]) ∧
      (tok = w ∧ w ≠ [] ∨ tok = 34 :: w ++ [34]) ∧ (∃ c ∈ [32, 9, 10, 13, 58, 44, 91], a.getLast? = some c) ∧
      ∀ v, Call fl (go% Set) [.bytes json, .bytes v] path (.ok [.bytes (a ++ v ++ b), .nil]) := by
  have hg := text_Get fl json path
  have hs : ∀ v, Call fl (go% Set) [.bytes json, .bytes v] path (mutVals (Set json v path)) := fun v => text_Set fl json path (some v)
  rcases C70_get_set_same_bytes json path hp with ⟨h1, h2⟩ | ⟨e, h1, h2⟩ | ⟨a, tok, b, w, h0, h1, h3, h4, h2⟩
  · exact .inl ⟨by rw [h1] at hg; exact hg, fun v => by have := hs v; rw [h2] at this; exact this⟩
  · exact .inr (.inl ⟨e, hg.bad h1, fun v => (hs v).fail (h2 v)⟩)
  · exact .inr (.inr ⟨a, tok, b, w, h0, hg.one h1, h3, h4, fun v => (hs v).done (h2 v)⟩)

/-- **C124** A mutator that succeeds on any text changes one place of it (C71). -/
theorem C124_one_place (json v key out : Bytes) (n : Int) (path : List Bytes) :
    (Call fl (go% Add) [.bytes json, .bytes v] path (.ok [.bytes out, .nil]) →
      ∃ a b, json = a ++ b ∧ b.head? = some 93 ∧ (out = a ++ v ++ b ∨ out = a ++ (44 :: v) ++ b)) ∧
    (Call fl (go% AddKeyValue) [.bytes json, .bytes key, .bytes v] path (.ok [.bytes out, .nil]) →
      ∃ a b, json = a ++ b ∧ b.head? = some 125 ∧
        (out = a ++ (34 :: key ++ [34, 58] ++ v) ++ b ∨ out = a ++ (44 :: 34 :: key ++ [34, 58] ++ v) ++ b)) ∧
    (Call fl (go% Insert) [.bytes json, .int n, .bytes v] path (.ok [.bytes out, .nil]) →
      ∃ a b, json = a ++ b ∧ (out = a ++ (v ++ [44]) ++ b ∨ out = a ++ (44 :: v) ++ b)) ∧
    (Call fl (go% SetKey) [.bytes json, .bytes key] path (.ok [.bytes out, .nil]) →
      ∃ a old b, json = a ++ old ++ 34 :: b ∧ out = a ++ key ++ 34 :: b) :=
  ⟨fun h => C71_add ((text_Add fl json path (some v)).done_inv h),
    fun h => C71_addKeyValue ((text_AddKeyValue fl json path key (some v)).done_inv h),
    fun h => C71_insert ((text_Insert fl json path n (some v)).done_inv h),
    fun h => C71_setKey ((text_SetKey fl json path key).done_inv h)⟩

/-- **C124, part**: `Delete` cuts one stretch of the text, with the value that `Get` returns in it, if the text does not begin
with a comma (C71). -/
theorem C124_delete_partial (json out : Bytes) (path : List Bytes) (h0 : json.head? ≠ some 44)
    (h : Call fl (go% Delete) [.bytes json] path (.ok [.bytes out, .nil])) :
    ∃ a x b w, json = a ++ x ++ b ∧ out = a ++ b ∧ Call fl (go% Get) [.bytes json] path (.ok [.bytes w, .nil]) ∧ w <:+: x := by
  obtain ⟨a, x, b, w, h1, h2, h3, h4⟩ := C71_delete_partial h0 ((text_Delete fl json path).done_inv h)
  exact ⟨a, x, b, w, h1, h2, (text_Get fl json path).one h3, h4⟩

theorem no_panic {f : Id} {args : List Val} {path : List Bytes} {m : Mut} (h : Call fl f args path (mutVals m)) (hm : m ≠ .panic) :
    ¬ Call fl f args path .panic := by
  intro h'
  have e := h.unique h'
  rcases m with ⟨b, _ | er⟩ | _ <;> simp [mutVals] at e
  exact hm rfl

theorem panics {f : Id} {args : List Val} {path : List Bytes} {m : Mut} (h : Call fl f args path (mutVals m))
    (h' : Call fl f args path .panic) : m = .panic :=
  Classical.byContradiction fun hm => no_panic fl h hm h'

/-- **C124** On a text with a settled end (its last byte is no white space, colon, comma or opening bracket) `Set`, `Add`, `AddKeyValue` and
`SetKey` do not panic, whatever the text is (C72). -/
theorem C124_no_panic (json v key : Bytes) (path : List Bytes) (hj : ∀ c, json.getLast? = some c → c ∉ [32, 9, 10, 13, 58, 44, 91]) :
    ¬ Call fl (go% Set) [.bytes json, .bytes v] path .panic ∧ ¬ Call fl (go% Add) [.bytes json, .bytes v] path .panic ∧
    ¬ Call fl (go% AddKeyValue) [.bytes json, .bytes key, .bytes v] path .panic ∧
    ¬ Call fl (go% SetKey) [.bytes json, .bytes key] path .panic :=
  ⟨no_panic fl (text_Set fl json path (some v)) (C72_set _ _ _ hj), no_panic fl (text_Add fl json path (some v)) (C72_add _ _ _ (.inr hj)),
    no_panic fl (text_AddKeyValue fl json path key (some v)) (C72_addKeyValue _ _ _ _ hj),
    no_panic fl (text_SetKey fl json path key) (C72_setKey _ _ _ hj)⟩

/-- **C124, part**: `Delete` and `Insert` panic on such a text only where the value ends the text, or where the key begins it (C72). -/
theorem C124_no_panic_partial (json v : Bytes) (n : Int) (path : List Bytes) (hj : ∀ c, json.getLast? = some c → c ∉ [32, 9, 10, 13, 58, 44, 91]) :
    (Call fl (go% Delete) [.bytes json] path .panic →
      (∃ a w, json = a ++ w ∧ Call fl (go% Get) [.bytes json] path (.ok [.bytes w, .nil])) ∨
      ∃ key, path.getLast? = some key ∧ (key <+: json ∨ ∃ q, q :: key <+: json)) ∧
    (json ≠ [] → Call fl (go% Insert) [.bytes json, .int n, .bytes v] path .panic →
      ∃ a w, json = a ++ w ∧ Call fl (go% Get) [.bytes json] (path ++ [itoa n]) (.ok [.bytes w, .nil])) := by
  refine ⟨fun h => ?_, fun h0 h => ?_⟩
  · rcases C72_delete_partial json path hj (panics fl (text_Delete fl json path) h) with ⟨a, w, h1, h2⟩ | h1
    · exact .inl ⟨a, w, h2, (text_Get fl json path).one h1⟩
    · exact .inr h1
  · obtain ⟨a, w, h1, h2⟩ := C72_insert_partial json n v path h0 hj (panics fl (text_Insert fl json path n (some v)) h)
    exact ⟨a, w, h2, (text_Get fl json _).one h1⟩

/-- **C124 fails** Texts with a settled end on which `Delete` and `Insert` panic; a text on which `Delete` makes the text longer
(C71, C72). -/
theorem C124_fails : Call fl (go% Delete) [.bytes (str "{\"a\":{}")] [str "a"] .panic ∧
    Call fl (go% Insert) [.bytes (str "[[]"), .int 0, .bytes (str "1")] [] .panic ∧
    Call fl (go% Delete) [.bytes (str ",{\"a\":1 ")] [str "a"] (.ok [.bytes (str ",{{\"a\":1 "), .nil]) := by
  have h1 := text_Delete fl (str "{\"a\":{}") [str "a"]
  have h2 := text_Insert fl (str "[[]") [] 0 (some (str "1"))
  rw [show Delete (str "{\"a\":{}") [str "a"] = .panic by decide +kernel] at h1
  rw [Option.getD_some, show Insert (str "[[]") 0 (str "1") [] = .panic by decide +kernel] at h2
  exact ⟨h1, h2, (text_Delete fl _ _).done (by decide +kernel)⟩

/-! ### Positions in errors (C88) -/

theorem oneVal_pos {f : Id} {args : List Val} {path : List Bytes} {α : Type} {g : α → Val} {bad : Val} {m : Out α} {json : Bytes}
    (h : Call fl f args path (oneVal g bad m)) (hm : OutIn json m) {vs : List Val} {n : Int}
    (h' : Call fl f args path (.ok (vs ++ [.err (.badJSON n)]))) : 0 ≤ n ∧ n ≤ json.length := by
  have e := h.unique h'
  cases m with
  | ok a =>
    injection e with e
    have := congrArg List.getLast? e
    simp at this
  | err er =>
    injection e with e
    have := congrArg List.getLast? e
    simp at this
    exact hm _ rfl n this
  | panic => cases e

theorem pairVals_pos {f : Id} {args : List Val} {path : List Bytes} {m : Out (List Bytes × List Bytes)} {json : Bytes}
    (h : Call fl f args path (pairVals m)) (hm : OutIn json m) {vs : List Val} {n : Int}
    (h' : Call fl f args path (.ok (vs ++ [.err (.badJSON n)]))) : 0 ≤ n ∧ n ≤ json.length := by
  have e := h.unique h'
  cases m with
  | ok a =>
    injection e with e
    have := congrArg List.getLast? e
    simp at this
  | err er =>
    injection e with e
    have := congrArg List.getLast? e
    simp at this
    exact hm _ rfl n this
  | panic => cases e

theorem mutVals_pos {f : Id} {args : List Val} {path : List Bytes} {m : Mut} {json : Bytes}
    (h : Call fl f args path (mutVals m)) (hm : MutIn json m) {vs : List Val} {n : Int}
    (h' : Call fl f args path (.ok (vs ++ [.err (.badJSON n)]))) : 0 ≤ n ∧ n ≤ json.length := by
  have e := h.unique h'
  rcases m with ⟨b, _ | er⟩ | _
  · injection e with e
    have := congrArg List.getLast? e
    simp at this
  · injection e with e
    have := congrArg List.getLast? e
    simp at this
    exact hm _ _ rfl n this
  · cases e

/-- **C124** A BadJSON error of a reader or of `Delete` names a position of the text (C88). -/
theorem C124_position_readers (json : Bytes) (path : List Bytes) (vs : List Val) (n : Int) :
    ∀ f ∈ readers, Call fl f [.bytes json] path (.ok (vs ++ [.err (.badJSON n)])) → 0 ≤ n ∧ n ≤ json.length := by
  obtain ⟨g1, g2, g3, g4⟩ := C88_get json path
  obtain ⟨i1, i2, i3, i4, i5, i6, i7, i8, i9⟩ := C88_inspect json path
  obtain ⟨c1, c2, c3, c4, -, -, -⟩ := C88_collect json [] path
  simp only [readers, List.mem_cons, List.not_mem_nil, or_false]
  rintro f (rfl | rfl | rfl | rfl | rfl | rfl | rfl | rfl | rfl | rfl | rfl | rfl | rfl | rfl | rfl | rfl | rfl | rfl | rfl)
  · exact oneVal_pos fl (text_Get fl json path) g1
  · exact oneVal_pos fl (text_GetString fl json path) g1
  · exact oneVal_pos fl (text_GetInt fl json path) g2
  · exact oneVal_pos fl (text_GetFloat fl json path) (g4 _ fl)
  · exact oneVal_pos fl (text_GetBool fl json path) g3
  · exact oneVal_pos fl (text_GetIntArray fl json path) c2
  · exact oneVal_pos fl (text_GetFloatArray fl json path) (c4 _ fl)
  · exact oneVal_pos fl (text_GetBoolArray fl json path) c3
  · exact oneVal_pos fl (text_GetStringArray fl json path) c1
  · exact oneVal_pos fl (text_GetKeys fl json path) i7
  · exact oneVal_pos fl (text_GetValues fl json path) i8
  · exact pairVals_pos fl (text_GetKeysValues fl json path) i9
  · exact oneVal_pos fl (text_Length fl json path) i1
  · exact oneVal_pos fl (text_IsObject fl json path) i3
  · exact oneVal_pos fl (text_IsArray fl json path) i4
  · exact oneVal_pos fl (text_IsValue fl json path) i5
  · exact oneVal_pos fl (text_GetType fl json path) (i6 _)
  · exact oneVal_pos fl (text_IsEmpty fl json path) i2
  · exact mutVals_pos fl (text_Delete fl json path) (C88_mutators json [] [] none 0 path).2.2.2.2.2.1

/-- **C124** A BadJSON error of a mutator, `GetAll`, `GetMap` or `GetAllMap` names a position of the text (C88). -/
theorem C124_position (json v key : Bytes) (i : Int) (keys path : List Bytes) (vs : List Val) (n : Int) :
    ∀ c ∈ [(go% Set, [.bytes json, .bytes v]), (go% SetKey, [.bytes json, .bytes key]), (go% Add, [.bytes json, .bytes v]),
        (go% AddKeyValue, [.bytes json, .bytes key, .bytes v]), (go% Insert, [.bytes json, .int i, .bytes v]),
        (go% Store, [.bytes json, .bytes key, .bytes v]), (go% GetAll, [.bytes json, .strs keys]), (go% GetMap, [.bytes json]),
        (go% GetAllMap, [.bytes json, .strs keys])],
      Call fl c.1 c.2 path (.ok (vs ++ [.err (.badJSON n)])) → 0 ≤ n ∧ n ≤ json.length := by
  obtain ⟨m1, m2, m3, m4, m5, -, m7⟩ := C88_mutators json v key (some v) i path
  obtain ⟨-, -, -, -, c5, c6, c7⟩ := C88_collect json keys path
  simp only [List.mem_cons, List.not_mem_nil, or_false]
  rintro c (rfl | rfl | rfl | rfl | rfl | rfl | rfl | rfl | rfl)
  · exact mutVals_pos fl (text_Set fl json path (some v)) m1
  · exact mutVals_pos fl (text_SetKey fl json path key) m2
  · exact mutVals_pos fl (text_Add fl json path (some v)) m3
  · exact mutVals_pos fl (text_AddKeyValue fl json path key (some v)) m4
  · exact mutVals_pos fl (text_Insert fl json path i (some v)) m5
  · exact mutVals_pos fl (text_Store fl json path key (some v)) m7
  · exact oneVal_pos fl (text_GetAll fl json path keys) c6
  · exact oneVal_pos fl (text_GetMap (fl := fl) json path) c5
  · exact oneVal_pos fl (text_GetAllMap (fl := fl) json path keys) c7

/-! ### Readers of broken objects (C91), iterators (C90) -/

theorem oneVal_panic {f : Id} {args : List Val} {path : List Bytes} {α : Type} {g : α → Val} {bad : Val} {m : Out α}
    (h : Call fl f args path (oneVal g bad m)) : Call fl f args path .panic ↔ m = .panic := by
  constructor
  · intro h'
    have e := h.unique h'
    cases m with
    | panic => rfl
    | _ => cases e
  · rintro rfl; exact h

/-- **C124** The texts on which `GetKeys` and `GetValues` panic without a path (C91). -/
theorem C124_keys_panic (json : Bytes) :
    (Call fl (go% GetKeys) [.bytes json] [] .panic ↔
      Ws json = true ∨ ∃ w t, json = w ++ 123 :: t ∧ Ws w = true ∧ ¬ Named (123 :: t)) ∧
    (Call fl (go% GetValues) [.bytes json] [] .panic ↔ Ws json = true ∨ ∃ w t, json = w ++ 123 :: t ∧ Ws w = true ∧
      ¬ Given [58, 44] [44, 93, 125] (fun n => n = 0 ∨ 4 ≤ n) (123 :: t)) :=
  ⟨(oneVal_panic fl (text_GetKeys fl json [])).trans (C91_getKeys json), (oneVal_panic fl (text_GetValues fl json [])).trans (C91_getValues json)⟩

/-- **C124** The same with a path, on a text with a settled end: `valueStart` is where the value begins that the path leads to (C91). -/
theorem C124_keys_panic_path (json : Bytes) (path : List Bytes) (hp : path ≠ []) (hne : json ≠ [123, 125])
    (hj : ∀ c, json.getLast? = some c → c ∉ [32, 9, 10, 13, 58, 44, 91]) :
    (Call fl (go% GetKeys) [.bytes json] path .panic ↔ ∃ a, valueStart json path = .ok a ∧ json[a]? = some 123 ∧ ¬ Named (json.drop a)) ∧
    (Call fl (go% GetValues) [.bytes json] path .panic ↔ ∃ a, valueStart json path = .ok a ∧ json[a]? = some 123 ∧
      ¬ Given [58, 44] [44, 93, 125] (fun n => n = 0 ∨ 4 ≤ n) (json.drop a)) :=
  ⟨(oneVal_panic fl (text_GetKeys fl json path)).trans (C91_path json path hp hne hj).1,
    (oneVal_panic fl (text_GetValues fl json path)).trans (C91_path json path hp hne hj).2⟩

/-- **C124** `IterateArray` without a path never panics, whatever the text is, if the callback does not; nor with a path on a text with
a settled end (C90). -/
theorem C124_iterateArray {σ : Type} (json : Bytes) (cb : σ → Bytes → Cb σ) (path : List Bytes) (u : σ) (hcb : ∀ s v, cb s v ≠ .panic)
    (hj : path = [] ∨ ∀ c, json.getLast? = some c → c ∉ [32, 9, 10, 13, 58, 44, 91]) :
    ¬ CallCb fl (cb1 cb) (go% IterateArray) ([.bytes json, .nil] ++ path.map .bytes) u .panic := by
  intro h
  have hn := C90_iterateArray json cb path u hcb hj
  obtain ⟨N, h⟩ := h
  obtain ⟨M, h'⟩ := text_IterateArray (fl := fl) json path cb u
  have e := (h' (max N M) (max N M) (Nat.le_max_right ..) (Nat.le_max_right ..)).symm.trans
    (h (max N M) (max N M) (Nat.le_max_left ..) (Nat.le_max_left ..))
  rcases hr : IterateArray json cb path u with ⟨s, _ | er⟩ | _
  · rw [hr] at e; cases e
  · rw [hr] at e; cases e
  · exact hn hr

end

/-! ### What follows the document, `Length`, `Store` -/

section
variable (fl : FloatLib UInt64) (d : Doc) (p : List Text)

/-- **C124, part**: calls that succeed do not look at what follows the document (C83). -/
theorem C124_after_partial (more : Bytes) (w : Json) (hd : d.wf) (hp : p ≠ []) (h : d.get? p = some w) :
    SameGet fl d.render p (d.render ++ more) p ∧
    (∀ new : Bytes, ∃ out, Call fl (go% Set) [.bytes d.render, .bytes new] p (.ok [.bytes out, .nil]) ∧
      Call fl (go% Set) [.bytes (d.render ++ more), .bytes new] p (.ok [.bytes (out ++ more), .nil])) ∧
    (∃ out, Call fl (go% Delete) [.bytes d.render] p (.ok [.bytes out, .nil]) ∧
      Call fl (go% Delete) [.bytes (d.render ++ more)] p (.ok [.bytes (out ++ more), .nil])) ∧
    (w.kind = .arr → ∀ v : Json, ∃ out, Call fl (go% Add) [.bytes d.render, .bytes v.render] p (.ok [.bytes out, .nil]) ∧
      Call fl (go% Add) [.bytes (d.render ++ more), .bytes v.render] p (.ok [.bytes (out ++ more), .nil])) := by
  obtain ⟨h1, h2, ⟨o, h3, h4⟩, h5⟩ := C83_after_partial d more p w hd hp h
  refine ⟨sameGet h1, fun new => ?_, ⟨o, (text_Delete fl _ _).done h3, (text_Delete fl _ _).done h4⟩, fun hk v => ?_⟩
  · obtain ⟨o, a, b⟩ := h2 new
    exact ⟨o, (text_Set fl _ _ (some new)).done a, (text_Set fl _ _ (some new)).done b⟩
  · obtain ⟨o, a, b⟩ := h5 hk v
    exact ⟨o, (text_Add fl _ _ (some v.render)).done a, (text_Add fl _ _ (some v.render)).done b⟩

/-- **C124 fails** A key that the document does not have is found after it (C83). -/
theorem C124_after_fails : Call fl (go% Get) [.bytes (str "{\"a\":1}")] [str "b"] (.ok [.nil, .err (.keyNotFound (str "b"))]) ∧
    Call fl (go% Get) [.bytes (str "{\"a\":1}\n{\"b\":2}")] [str "b"] (.ok [.bytes (str "2"), .nil]) :=
  ⟨(text_Get fl _ _).bad C83_fails.1, (text_Get fl _ _).one C83_fails.2.1⟩

/-- **C124, part**: `Length` of the container at a path follows the mutations (C84). -/
theorem C124_length_partial (w : Json) (hd : d.wf) (hp : p ≠ []) (h : d.get? p = some w) (hc : w.isContainer) :
    Call fl (go% Length) [.bytes d.render] p (.ok [.int w.size, .nil]) ∧
    (∀ (v : Json) t, v.wf → w.kind = .arr → Call fl (go% Add) [.bytes d.render, .bytes v.render] p (.ok [.bytes t, .nil]) →
      Call fl (go% Length) [.bytes t] p (.ok [.int (w.size + 1 : Nat), .nil])) ∧
    (∀ (v : Json) k t, v.wf → strOk k → w.kind = .obj → (∀ e ∈ w.entries, e.key ≠ some k) →
      Call fl (go% AddKeyValue) [.bytes d.render, .bytes k, .bytes v.render] p (.ok [.bytes t, .nil]) →
      Call fl (go% Length) [.bytes t] p (.ok [.int (w.size + 1 : Nat), .nil])) ∧
    (∀ (v : Json) (n : Nat) t, v.wf → w.kind = .arr → n < w.size → (n + 1 < w.size ∨ n = 0) → (n : Int) ≤ 9223372036854775807 →
      Call fl (go% Insert) [.bytes d.render, .int n, .bytes v.render] p (.ok [.bytes t, .nil]) →
      Call fl (go% Length) [.bytes t] p (.ok [.int (w.size + 1 : Nat), .nil])) ∧
    (∀ q c t, d.get? (p ++ [q]) = some c → Call fl (go% Delete) [.bytes d.render] (p ++ [q]) (.ok [.bytes t, .nil]) →
      Call fl (go% Length) [.bytes t] p (.ok [.int (w.size - 1 : Nat), .nil])) ∧
    (∀ (v : Json) q qs c t, v.wf → d.get? (p ++ q :: qs) = some c →
      Call fl (go% Set) [.bytes d.render, .bytes v.render] (p ++ q :: qs) (.ok [.bytes t, .nil]) →
      Call fl (go% Length) [.bytes t] p (.ok [.int w.size, .nil])) ∧
    (∀ q new t, w.kind = .obj → (∀ e ∈ w.entries, e.key ≠ some new) → strOk new → (∃ c, d.get? (p ++ [q]) = some c) →
      Call fl (go% SetKey) [.bytes d.render, .bytes new] (p ++ [q]) (.ok [.bytes t, .nil]) →
      Call fl (go% Length) [.bytes t] p (.ok [.int w.size, .nil])) := by
  obtain ⟨l0, l1, l2, l3, l4, l5, l6⟩ := C84_length_partial d p w hd hp h hc
  refine ⟨(text_Length fl _ _).one l0, fun v t a b c => ?_, fun v k t a b c e f => ?_, fun v n t a b c e f g => ?_, fun q c t a b => ?_,
    fun v q qs c t a b e => ?_, fun q new t a b c e f => ?_⟩
  · exact (text_Length fl _ _).one (l1 v t a b ((text_Add fl _ _ (some v.render)).done_inv c))
  · exact (text_Length fl _ _).one (l2 v k t a b c e ((text_AddKeyValue fl _ _ k (some v.render)).done_inv f))
  · exact (text_Length fl _ _).one (l3 v n t a b c e f ((text_Insert fl _ _ n (some v.render)).done_inv g))
  · exact (text_Length fl _ _).one (l4 q c t a ((text_Delete fl _ _).done_inv b))
  · exact (text_Length fl _ _).one (l5 v q qs c t a b ((text_Set fl _ _ (some v.render)).done_inv e))
  · exact (text_Length fl _ _).one (l6 q new t a b c e ((text_SetKey fl _ _ new).done_inv f))

/-- **C124, part**: `Store` is `Set` for a key that is there and `AddKeyValue` for one that is not, if it is
noticed that the object does not have the key (`Doc.clear`, C26). -/
theorem C124_store_partial (g : Text) (ms : List (Member Json)) (k : Text) (v : Bytes) (hd : d.wf) (h : d.get? p = some (.obj g ms)) :
    ((∃ m ∈ ms, m.key = k) → ∃ r, Call fl (go% Store) [.bytes d.render, .bytes k, .bytes v] p r ∧
      Call fl (go% Set) [.bytes d.render, .bytes v] (p ++ [k]) r) ∧
    ((∀ m ∈ ms, m.key ≠ k) → d.clear p k → ∃ r, Call fl (go% Store) [.bytes d.render, .bytes k, .bytes v] p r ∧
      Call fl (go% AddKeyValue) [.bytes d.render, .bytes k, .bytes v] p r) := by
  obtain ⟨h1, h2⟩ := C26_store_partial d p g ms k v hd h
  have hs := text_Store fl d.render p k (some v)
  refine ⟨fun hk => ⟨_, hs, ?_⟩, fun hk hc => ⟨_, hs, ?_⟩⟩
  · rw [h1 hk]; exact text_Set fl d.render (p ++ [k]) (some v)
  · rw [h2 hk hc (some v)]; exact text_AddKeyValue fl d.render p k (some v)

/-- **C124 fails** `Store` of a key that the object does not have changes the next object (C26). -/
theorem C124_store_fails :
    Call fl (go% Store) [.bytes (str "{\"a\":{\"x\":1},\"b\":{\"y\":2,\"z\":3}}"), .bytes (str "z"), .bytes (str "0")] [str "a"]
      (.ok [.bytes (str "{\"a\":{\"x\":1},\"b\":{\"y\":2,\"z\":0}}"), .nil]) :=
  (text_Store fl _ _ (str "z") (some (str "0"))).done C26_fails

end

/-- Cases of the hypotheses: texts that are no JSON, and the sample document. -/
example (fl : FloatLib UInt64) :
    (∃ r, Call fl (go% Get) [.bytes (str "}{{]:\"}")] [str "a"] r ∧ r ≠ .panic) ∧
    Call fl (go% Add) [.bytes (str "[1,,{]"), .bytes (str "5")] [] (.ok [.bytes (str "[1,,{,5]"), .nil]) ∧
    Call fl (go% Delete) [.bytes (str "{\"a\":1,,\"b\":x ]")] [str "b"] (.ok [.bytes (str "{\"a\":1, ]"), .nil]) ∧
    Call fl (go% GetKeys) [.bytes (str "{:1}")] [] .panic ∧
    Call fl (go% Get) [.bytes []] [str "a"] (.ok [.nil, .err (.badJSON 0)]) ∧
    Call fl (go% Length) [.bytes Sample.doc.render] Sample.toArr (.ok [.int 4, .nil]) := by
  refine ⟨⟨_, text_Get fl _ _, by decide +kernel⟩, (text_Add fl _ _ (some (str "5"))).done (by decide +kernel),
    (text_Delete fl _ _).done (by decide +kernel), (oneVal_panic fl (text_GetKeys fl _ _)).2 (by decide +kernel),
    (text_Get fl _ _).bad (by decide +kernel), (text_Length fl _ _).one (by decide +kernel)⟩

end Jin.Go
