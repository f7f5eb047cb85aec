import Verif.Props.Text
import Verif.Props.Array
import Verif.Props.Errors
import Verif.Props.Algebra
/-!
# Property C118: calls of the text one after another

Round trips, undoing, order of changes and composition of paths, for the text of /repo (`Verif.Go.Source`) alone.
-/

namespace Jin.Go
open Spec

/-- What a call that returns a text and an error returned, read back. -/
theorem Call.done_inv {fl : FloatLib UInt64} {f : Id} {args : List Val} {path : List Bytes} {m : Mut} {t : Bytes}
    (h : Call fl f args path (mutVals m)) (h' : Call fl f args path (.ok [.bytes t, .nil])) : m = .done t none := by
  have e := h.unique h'
  rcases m with ⟨b, _ | er⟩ | _ <;> simp [mutVals] at e
  rw [e]

section
variable (fl : FloatLib UInt64) (d : Doc)

/-- **C118** `SetBool` and then `GetBool` return the value (C11). -/
theorem C118_bool (path : List Text) (w : Json) (hd : d.wf) (hp : path ≠ []) (h : d.get? path = some w) (b : Bool) :
    ∃ t, Call fl (go% SetBool) [.bytes d.render, .bool b] path (.ok [.bytes t, .nil]) ∧
      Call fl (go% GetBool) [.bytes t] path (.ok [.bool b, .nil]) := by
  obtain ⟨t, h1, h2⟩ := C11_setBool_getBool d path w hd hp h b
  exact ⟨t, (text_SetBool fl _ path b).done h1, (text_GetBool fl t path).one h2⟩

/-- **C118** `SetFloat` and then `GetFloat` return the number, if `strconv` reads back what it writes and writes no
structural byte (C12). -/
theorem C118_float (x : UInt64) (path : List Text) (w : Json) (hd : d.wf) (hp : path ≠ []) (h : d.get? path = some w)
    (hplain : (Json.lit (fl.format x)).wf) (hback : fl.parse (fl.format x) = some x) :
    ∃ t, Call fl (go% SetFloat) [.bytes d.render, .float x] path (.ok [.bytes t, .nil]) ∧
      Call fl (go% GetFloat) [.bytes t] path (.ok [.float x, .nil]) := by
  obtain ⟨t, h1, h2⟩ := C12_setFloat_getFloat fl x d path w hd hp h hplain hback
  exact ⟨t, (text_SetFloat fl _ path x).done h1, (text_GetFloat fl t path).one h2⟩

/-- **C118** `SetString` and then `GetString` return the text, unless it looks like a container (C13). -/
theorem C118_string (hf : ∀ v, (fl.parse v).isSome = true → (Json.lit v).wf) (path : List Text) (w : Json) (hd : d.wf) (hp : path ≠ [])
    (h : d.get? path = some w) (s : Text) (h1 : strOk s) (h2 : ¬ (s.head? = some 91 ∧ s.getLast? = some 93))
    (h3 : ¬ (s.head? = some 123 ∧ s.getLast? = some 125)) :
    ∃ t, Call fl (go% SetString) [.bytes d.render, .bytes s] path (.ok [.bytes t, .nil]) ∧
      Call fl (go% GetString) [.bytes t] path (.ok [.bytes s, .nil]) := by
  obtain ⟨t, h4, h5⟩ := C13_setString_getString _ hf d path w hd hp h s h1 h2 h3
  exact ⟨t, (text_SetString fl _ path s).done h4, (text_GetString fl t path).one h5⟩

/-- **C118** A second `Set` at the same path gives what it gives without the first; `Set` to the value that is there
gives the same text (C14). -/
theorem C118_set_set (path : List Text) (w v₁ : Json) (new₂ : Bytes) (hd : d.wf) (hp : path ≠ []) (h : d.get? path = some w) (h₁ : v₁.wf) :
    (∃ t r, Call fl (go% Set) [.bytes d.render, .bytes v₁.render] path (.ok [.bytes t, .nil]) ∧
      Call fl (go% Set) [.bytes t, .bytes new₂] path r ∧ Call fl (go% Set) [.bytes d.render, .bytes new₂] path r) ∧
    Call fl (go% Set) [.bytes d.render, .bytes w.render] path (.ok [.bytes d.render, .nil]) := by
  obtain ⟨t, h2, h3⟩ := C14_set_set d path w v₁ new₂ hd hp h h₁
  refine ⟨⟨t, _, (text_Set fl _ path (some v₁.render)).done h2, text_Set fl t path (some new₂), ?_⟩,
    (text_Set fl _ path (some w.render)).done (C14_set_self d path w hd hp h)⟩
  simp only [Option.getD_some]
  rw [h3]
  exact text_Set fl d.render path (some new₂)

/-- **C118** `Set`s at diverging paths give the same text in either order (C15). -/
theorem C118_sets_commute (p q : List Text) (w v x y : Json) (hd : d.wf) (hw : d.get? p = some w) (hv : d.get? q = some v)
    (hdv : d.diverge p q) (hx : x.wf) (hy : y.wf) :
    ∃ t₁ t₂ r, Call fl (go% Set) [.bytes d.render, .bytes x.render] p (.ok [.bytes t₁, .nil]) ∧
      Call fl (go% Set) [.bytes d.render, .bytes y.render] q (.ok [.bytes t₂, .nil]) ∧
      Call fl (go% Set) [.bytes t₁, .bytes y.render] q r ∧ Call fl (go% Set) [.bytes t₂, .bytes x.render] p r := by
  obtain ⟨t₁, t₂, h1, h2, h3⟩ := C15_sets_commute d p q w v x y hd hw hv hdv hx hy
  refine ⟨t₁, t₂, _, (text_Set fl _ p (some x.render)).done h1, (text_Set fl _ q (some y.render)).done h2, text_Set fl t₁ q (some y.render), ?_⟩
  simp only [Option.getD_some]
  rw [h3]
  exact text_Set fl t₂ p (some x.render)

/-- **C118** `Delete` of an element shifts the later ones; the last index is gone (C17). -/
theorem C118_delete_shift (p : List Text) (q : Text) (g : Text) (es : List (Elem Json)) (i : Nat) (hd : d.wf)
    (hw : d.get? p = some (.arr g es)) (hq : readIndex q = some i) (hi : i < es.length) :
    ∃ t, Call fl (go% Delete) [.bytes d.render] (p ++ [q]) (.ok [.bytes t, .nil]) ∧
      (∀ (r r' : Text) (j : Nat) (rest : List Text) (v : Json), readIndex r = some j →
        readIndex r' = some (if j < i then j else j + 1) → d.get? (p ++ r' :: rest) = some v →
        Call fl (go% Get) [.bytes t] (p ++ r :: rest) (.ok [.bytes v.content, .nil]) ∧ SameGet fl d.render (p ++ r' :: rest) t (p ++ r :: rest)) ∧
      (∀ (r : Text) (j : Nat), readIndex r = some j → es.length ≤ j + 1 →
        Call fl (go% Get) [.bytes t] (p ++ [r]) (.ok [.nil, .err (if j = 0 then .emptyArray else .indexOutOfRange)])) := by
  obtain ⟨t, h1, h2, h3⟩ := C17_delete_shift d p q g es i hd hw hq hi
  exact ⟨t, (text_Delete fl _ _).done h1, fun r r' j rest v hr hr' hv => ⟨(text_Get fl _ _).one (h2 r r' j rest v hr hr' hv).1,
    sameGet (h2 r r' j rest v hr hr' hv).2⟩, fun r j hr hj => (text_Get fl _ _).bad (h3 r j hr hj)⟩

/-- **C118** `Delete` of a member keeps the others (C18). -/
theorem C118_delete_frame (p : List Text) (q : Text) (g : Text) (ms : List (Member Json)) (q2 : List Text) (v : Json)
    (hd : d.wf) (hw : d.get? p = some (.obj g ms)) (hq : ∃ m ∈ ms, m.key = q) (hv : d.get? q2 = some v) (hdv : d.diverge (p ++ [q]) q2) :
    ∃ t, Call fl (go% Delete) [.bytes d.render] (p ++ [q]) (.ok [.bytes t, .nil]) ∧
      Call fl (go% Get) [.bytes t] q2 (.ok [.bytes v.content, .nil]) ∧ SameGet fl d.render q2 t q2 := by
  obtain ⟨t, h1, h2, h3⟩ := C18_delete_frame d p q g ms q2 v hd hw hq hv hdv
  exact ⟨t, (text_Delete fl _ _).done h1, (text_Get fl _ _).one h2, sameGet h3⟩

/-- **C118** `SetKey` to a key that is there, or to no key, gives the text back with an error (C25). -/
theorem C118_setKey_exists (p : List Text) (q new : Text) (g : Text) (ms : List (Member Json)) (hd : d.wf)
    (h : d.get? p = some (.obj g ms)) (hnew : new = [] ∨ ∃ m ∈ ms, m.key = new) :
    Call fl (go% SetKey) [.bytes d.render, .bytes new] (p ++ [q]) (.ok [.bytes d.render, .err (if new = [] then .nullKey else .badJSON 0)]) :=
  (text_SetKey fl _ _ new).fail (C25_setKey_exists d p q new g ms hd h hnew)

/-- **C118** `Delete` undoes `Add` and `AddKeyValue` (C29). -/
theorem C118_delete_undoes (p : List Text) (w v : Json) (hd : d.wf) (h : d.get? p = some w) (hv : v.wf) :
    (∀ t q, w.kind = .arr → readIndex q = some w.size → Call fl (go% Add) [.bytes d.render, .bytes v.render] p (.ok [.bytes t, .nil]) →
      Call fl (go% Delete) [.bytes t] (p ++ [q]) (.ok [.bytes d.render, .nil])) ∧
    (∀ t k, w.kind = .obj → strOk k → (∀ e ∈ w.entries, e.key ≠ some k) →
      Call fl (go% AddKeyValue) [.bytes d.render, .bytes k, .bytes v.render] p (.ok [.bytes t, .nil]) →
      Call fl (go% Delete) [.bytes t] (p ++ [k]) (.ok [.bytes d.render, .nil])) := by
  obtain ⟨h1, h2⟩ := C29_delete_undoes d p w v hd h hv
  exact ⟨fun t q hk hq ha => (text_Delete fl _ _).done (h1 t q hk hq ((text_Add fl _ p (some v.render)).done_inv ha)),
    fun t k hk hs he ha => (text_Delete fl _ _).done (h2 t k hk hs he ((text_AddKeyValue fl _ p k (some v.render)).done_inv ha))⟩

/-- **C118** `Delete` undoes `Insert` (C85). -/
theorem C118_insert_undone (p : List Text) (g : Text) (es : List (Elem Json)) (n : Nat) (q : Text) (v : Json) (hd : d.wf)
    (h : d.get? p = some (.arr g es)) (hn : n < es.length) (hb : (n : Int) ≤ 9223372036854775807) (hv : v.wf)
    (hok : n + 1 < es.length ∨ n = 0 ∨ ∃ e, es[n]? = some e ∧ e.l = []) (hq : readIndex q = some n) :
    ∃ t, Call fl (go% Insert) [.bytes d.render, .int n, .bytes v.render] p (.ok [.bytes t, .nil]) ∧
      Call fl (go% Delete) [.bytes t] (p ++ [q]) (.ok [.bytes d.render, .nil]) := by
  obtain ⟨t, h1, h2⟩ := C85_insert_undone d p g es n q v hd h hn hb hv hok hq
  exact ⟨t, (text_Insert fl _ p n (some v.render)).done h1, (text_Delete fl _ _).done h2⟩

/-- **C118** A key renamed and renamed back: the second `SetKey` gives the first text, or it fails and gives back what it got (C86). -/
theorem C118_setKey_back (p : List Text) (q new : Text) (g : Text) (ms : List (Member Json)) (n : Nat) (hd : d.wf)
    (h : d.get? p = some (.obj g ms)) (hq : memberIdx ms q = some n) (huniq : ∀ m ∈ ms.eraseIdx n, m.key ≠ q)
    (hnew : ∀ m ∈ ms, m.key ≠ new) (hns : strOk new) (t t' : Bytes) (er : Val)
    (h1 : Call fl (go% SetKey) [.bytes d.render, .bytes new] (p ++ [q]) (.ok [.bytes t, .nil]))
    (h2 : Call fl (go% SetKey) [.bytes t, .bytes q] (p ++ [new]) (.ok [.bytes t', er])) :
    (er = .nil ∧ t' = d.render) ∨ (er ≠ .nil ∧ t' = t) := by
  have e1 := (text_SetKey fl _ _ new).done_inv h1
  have e := (text_SetKey fl t (p ++ [new]) q).unique h2
  rcases hm : SetKey t q (p ++ [new]) with ⟨b, _ | x⟩ | _ <;> rw [hm] at e <;>
    simp only [mutVals, R.ok.injEq, List.cons.injEq, Val.bytes.injEq, and_true, reduceCtorEq] at e
  · obtain ⟨rfl, rfl⟩ := e
    rcases C86_setKey_back d p q new g ms n hd h hq huniq hnew hns t b none e1 hm with ⟨-, h⟩ | ⟨h, -⟩
    · exact .inl ⟨rfl, h⟩
    · exact absurd rfl h
  · obtain ⟨rfl, rfl⟩ := e
    rcases C86_setKey_back d p q new g ms n hd h hq huniq hnew hns t b (some x) e1 hm with ⟨h, -⟩ | ⟨-, h⟩
    · cases h
    · exact .inr ⟨by simp, h⟩

/-- **C118** `Get` of `p ++ q` is `Get` of `q` in what `Get` of `p` returns (C81). -/
theorem C118_get_compose (p q : List Text) (w : Json) (hd : d.wf) (hq : q ≠ []) (h : d.get? (p ++ q) = some w) :
    ∃ part, Call fl (go% Get) [.bytes d.render] p (.ok [.bytes part, .nil]) ∧
      Call fl (go% Get) [.bytes part] q (.ok [.bytes w.content, .nil]) ∧ SameGet fl d.render (p ++ q) part q := by
  obtain ⟨part, h1, h2, h3⟩ := C81_get_compose d p q w hd hq h
  exact ⟨part, (text_Get fl _ _).one h1, (text_Get fl _ _).one h3, sameGet h2⟩

/-- **C118** `Set` at `p ++ q` is `Get` of `p`, `Set` at `q` in it, and `Set` of the result at `p` (C82). -/
theorem C118_set_compose (p q : List Text) (w : Json) (new : Bytes) (hd : d.wf) (hp : p ≠ []) (hq : q ≠ []) (h : d.get? (p ++ q) = some w) :
    ∃ part part' r, Call fl (go% Get) [.bytes d.render] p (.ok [.bytes part, .nil]) ∧
      Call fl (go% Set) [.bytes part, .bytes new] q (.ok [.bytes part', .nil]) ∧
      Call fl (go% Set) [.bytes d.render, .bytes part'] p r ∧ Call fl (go% Set) [.bytes d.render, .bytes new] (p ++ q) r := by
  obtain ⟨part, part', h1, h2, h3⟩ := C82_set_compose d p q w new hd hp hq h
  refine ⟨part, part', _, (text_Get fl _ _).one h1, (text_Set fl _ q (some new)).done h2, text_Set fl _ p (some part'), ?_⟩
  simp only [Option.getD_some]
  rw [h3]
  exact text_Set fl d.render (p ++ q) (some new)

/-- **C118** `Delete` and `Set` elsewhere give the same text in either order: of another member, or outside (C87). -/
theorem C118_delete_set (p : List Text) (q : Text) (a x : Json) (hd : d.wf) (hq : d.get? (p ++ [q]) = some a) (hx : x.wf) :
    (∀ g ms r rest c, d.get? p = some (.obj g ms) → d.get? (p ++ r :: rest) = some c → r ≠ q →
      ∃ t₁ t₂ t, Call fl (go% Delete) [.bytes d.render] (p ++ [q]) (.ok [.bytes t₁, .nil]) ∧
        Call fl (go% Set) [.bytes t₁, .bytes x.render] (p ++ r :: rest) (.ok [.bytes t, .nil]) ∧
        Call fl (go% Set) [.bytes d.render, .bytes x.render] (p ++ r :: rest) (.ok [.bytes t₂, .nil]) ∧
        Call fl (go% Delete) [.bytes t₂] (p ++ [q]) (.ok [.bytes t, .nil])) ∧
    (∀ s c, d.get? s = some c → d.diverge p s →
      ∃ t₁ t₂ t, Call fl (go% Delete) [.bytes d.render] (p ++ [q]) (.ok [.bytes t₁, .nil]) ∧
        Call fl (go% Set) [.bytes t₁, .bytes x.render] s (.ok [.bytes t, .nil]) ∧
        Call fl (go% Set) [.bytes d.render, .bytes x.render] s (.ok [.bytes t₂, .nil]) ∧
        Call fl (go% Delete) [.bytes t₂] (p ++ [q]) (.ok [.bytes t, .nil])) := by
  refine ⟨fun g ms r rest c h hc hne => ?_, fun s c hs hdv => ?_⟩
  · obtain ⟨t₁, t₂, t, h1, h2, h3, h4⟩ := C87_member d p q r rest g ms a c x hd h hq hc hne hx
    exact ⟨t₁, t₂, t, (text_Delete fl _ _).done h1, (text_Set fl _ _ (some x.render)).done h2, (text_Set fl _ _ (some x.render)).done h3,
      (text_Delete fl _ _).done h4⟩
  · obtain ⟨t₁, t₂, t, h1, h2, h3, h4⟩ := C87_elsewhere d p q s a c x hd hq hs hdv hx
    exact ⟨t₁, t₂, t, (text_Delete fl _ _).done h1, (text_Set fl _ _ (some x.render)).done h2, (text_Set fl _ _ (some x.render)).done h3,
      (text_Delete fl _ _).done h4⟩

/-- **C118** `Delete` of an element and `Set` at another one, whose index is one less afterwards if it comes later (C87). -/
theorem C118_delete_set_element (p : List Text) (q r r' : Text) (rest : List Text) (g : Text) (es : List (Elem Json)) (n m : Nat) (c x : Json)
    (hd : d.wf) (h : d.get? p = some (.arr g es)) (hq : readIndex q = some n) (hn : n < es.length) (hr : readIndex r = some m) (hmn : m ≠ n)
    (hr' : readIndex r' = some (if m < n then m else m - 1)) (hc : d.get? (p ++ r :: rest) = some c) (hx : x.wf) :
    ∃ t₁ t₂ t, Call fl (go% Delete) [.bytes d.render] (p ++ [q]) (.ok [.bytes t₁, .nil]) ∧
      Call fl (go% Set) [.bytes t₁, .bytes x.render] (p ++ r' :: rest) (.ok [.bytes t, .nil]) ∧
      Call fl (go% Set) [.bytes d.render, .bytes x.render] (p ++ r :: rest) (.ok [.bytes t₂, .nil]) ∧
      Call fl (go% Delete) [.bytes t₂] (p ++ [q]) (.ok [.bytes t, .nil]) := by
  obtain ⟨t₁, t₂, t, h1, h2, h3, h4⟩ := C87_element d p q r r' rest g es n m c x hd h hq hn hr hmn hr' hc hx
  exact ⟨t₁, t₂, t, (text_Delete fl _ _).done h1, (text_Set fl _ _ (some x.render)).done h2, (text_Set fl _ _ (some x.render)).done h3,
    (text_Delete fl _ _).done h4⟩

/-- **C118** The errors of an index (C04). -/
theorem C118_index_errors (p : List Text) (q : Text) (qs : List Text) (g : Text) (es : List (Elem Json)) (hd : d.wf)
    (h : d.get? p = some (.arr g es)) :
    (readInt q = none → Call fl (go% Get) [.bytes d.render] (p ++ q :: qs) (.ok [.nil, .err .indexExpected])) ∧
    (∀ n, readInt q = some n → n < 0 ∨ (es.length : Int) ≤ n →
      Call fl (go% Get) [.bytes d.render] (p ++ q :: qs) (.ok [.nil, .err (if n = 0 ∧ qs = [] then .emptyArray else .indexOutOfRange)])) := by
  obtain ⟨h1, h2⟩ := C04_index_errors d p q qs g es hd h
  exact ⟨fun hq => (text_Get fl _ _).bad (h1 hq), fun n hn hr => (text_Get fl _ _).bad (h2 n hn hr)⟩

end

/-- **C118** `Set`, `Delete` and `SetKey` need a path, `SetKey` a key (C28). -/
theorem C118_need_path (fl : FloatLib UInt64) (json v k : Bytes) (p : List Bytes) :
    Call fl (go% Set) [.bytes json, .bytes v] [] (.ok [.bytes json, .err .nullPath]) ∧
    Call fl (go% Delete) [.bytes json] [] (.ok [.bytes json, .err .nullPath]) ∧
    (k ≠ [] → Call fl (go% SetKey) [.bytes json, .bytes k] [] (.ok [.bytes json, .err .nullPath])) ∧
    Call fl (go% SetKey) [.bytes json, .bytes []] p (.ok [.bytes json, .err .nullKey]) := by
  obtain ⟨h1, h2, h3, h4⟩ := C28_need_path json v k
  exact ⟨(text_Set fl _ _ (some v)).fail h1, (text_Delete fl _ _).fail h2, fun hk => (text_SetKey fl _ _ k).fail (h3 hk),
    (text_SetKey fl _ _ []).fail (h4 p)⟩

/-- **C118** `MakeArrayInt` and then `GetIntArray` return the numbers, `Get` each of them (C42). -/
theorem C118_ints (fl : FloatLib UInt64) (ns : List Int) (hne : ns ≠ []) (hr : ∀ n ∈ ns, -9223372036854775808 ≤ n ∧ n ≤ 9223372036854775807) :
    ∃ t, Call1 fl (go% MakeArrayInt) [.ints ns] (.ok [.bytes t]) ∧ Call fl (go% GetIntArray) [.bytes t] [] (.ok [.ints ns, .nil]) ∧
      ∀ (i : Nat) (n : Int), ns[i]? = some n → (i : Int) ≤ 9223372036854775807 →
        Call fl (go% Get) [.bytes t] [itoa i] (.ok [.bytes (itoa n), .nil]) := by
  obtain ⟨h1, h2⟩ := C42_int_roundtrip ns hne hr
  exact ⟨_, text_MakeArrayInt fl (some ns), (text_GetIntArray fl _ _).one h1, fun i n hi hb => (text_Get fl _ _).one (h2 i n hi hb)⟩

/-- **C118** `MakeArrayBool` and then `GetBoolArray` return the values (C43). -/
theorem C118_bools (fl : FloatLib UInt64) (bs : List Bool) (hne : bs ≠ []) :
    ∃ t, Call1 fl (go% MakeArrayBool) [.bools bs] (.ok [.bytes t]) ∧ Call fl (go% GetBoolArray) [.bytes t] [] (.ok [.bools bs, .nil]) :=
  ⟨_, text_MakeArrayBool fl (some bs), (text_GetBoolArray fl _ _).one (C43_bool_roundtrip bs hne)⟩

/-- **C118** `MakeArrayString` and then `GetStringArray` return the texts, `Get` each of them (C44). -/
theorem C118_strings (fl : FloatLib UInt64) (hf : ∀ v, (fl.parse v).isSome = true → (Json.lit v).wf) (ss : List Text) (hne : ss ≠ [])
    (hs : ∀ s ∈ ss, PlainText s) :
    ∃ t, Call1 fl (go% MakeArrayString) [.strs ss] (.ok [.bytes t]) ∧ Call fl (go% GetStringArray) [.bytes t] [] (.ok [.strs ss, .nil]) ∧
      ∀ (i : Nat) (s : Text), ss[i]? = some s → (i : Int) ≤ 9223372036854775807 →
        Call fl (go% Get) [.bytes t] [itoa i] (.ok [.bytes s, .nil]) := by
  obtain ⟨h1, h2⟩ := C44_string_roundtrip _ hf ss hne hs
  exact ⟨_, text_MakeArrayString fl (some ss), (text_GetStringArray fl _ _).one h1, fun i s hi hb => (text_Get fl _ _).one (h2 i s hi hb)⟩

/-! Cases of the hypotheses. -/

/-- Booleans and diverging paths in the sample document; an array made and read. -/
example (fl : FloatLib UInt64) :
    (∃ t, Call fl (go% SetBool) [.bytes Sample.doc.render, .bool true] Sample.toStr (.ok [.bytes t, .nil]) ∧
      Call fl (go% GetBool) [.bytes t] Sample.toStr (.ok [.bool true, .nil])) ∧
    (∃ part, Call fl (go% Get) [.bytes Sample.doc.render] Sample.toArr (.ok [.bytes part, .nil]) ∧
      Call fl (go% Get) [.bytes part] [str "1"] (.ok [.bytes (str "x]\\\\"), .nil]) ∧ SameGet fl Sample.doc.render Sample.toStr part [str "1"]) ∧
    (∃ t, Call1 fl (go% MakeArrayInt) [.ints [7, -30, 0]] (.ok [.bytes t]) ∧ Call fl (go% GetIntArray) [.bytes t] [] (.ok [.ints [7, -30, 0], .nil])) := by
  refine ⟨C118_bool fl _ _ _ Sample.doc_wf (by decide) Sample.get_str true,
    C118_get_compose fl Sample.doc Sample.toArr [str "1"] _ Sample.doc_wf (by decide) Sample.get_str, ?_⟩
  obtain ⟨t, h1, h2, -⟩ := C118_ints fl [7, -30, 0] (by decide) (by decide)
  exact ⟨t, h1, h2⟩

/-- Two diverging paths, a member and an element to delete. -/
example : Sample.ab.wf ∧ Sample.ab.diverge [str "a", str "b"] [str "c"] ∧ (Sample.ab.get? [str "c"]).isSome ∧ (Sample.ab.get? [str "a", str "b"]).isSome := by
  refine ⟨by decide +kernel, ?_, by decide +kernel, by decide +kernel⟩
  have h1 : Sample.ab.root.slot? (str "a") = some 0 := by decide +kernel
  have h2 : Sample.ab.root.slot? (str "c") = some 1 := by decide +kernel
  simp [Doc.diverge, Json.diverge, h1, h2]

end Jin.Go
