import Verif.Go.Text
import Verif.Props.Get
import Verif.Props.Set
import Verif.Props.Delete
import Verif.Props.Add
import Verif.Props.SetKey
import Verif.Props.Miss
import Verif.Props.NoPanic
import Verif.Props.Iterate
import Verif.Props.Types
import Verif.Props.Format
import Verif.Props.Sample
/-!
# Properties of the text (C98–C101)

`Go/Source` is the text of the package; `Call fl f args path r` says that the call `f(args…, path…)`, run on the trees
read from that text, ends with the results `r` (`.ok` of the list of results, or `.panic`).
-/

namespace Jin.Go

open Spec

/-! ### C99 -/

/-- The call comes to an end, by returning or by a panic. -/
def Halts (fl : FloatLib UInt64) (f : Id) (args : List Val) (path : List Bytes) : Prop :=
  Call fl f args path .panic ∨ ∃ vs, Call fl f args path (.ok vs)

theorem mutVals_halts {fl : FloatLib UInt64} {f : Id} {args : List Val} {path : List Bytes} {m : Mut}
    (h : Call fl f args path (mutVals m)) : Halts fl f args path := by
  rcases m with ⟨b, _ | e⟩ | _
  · exact .inr ⟨_, h⟩
  · exact .inr ⟨_, h⟩
  · exact .inl h

theorem oneVal_halts {fl : FloatLib UInt64} {f : Id} {args : List Val} {path : List Bytes} {α : Type} {g : α → Val} {bad : Val} {m : Out α}
    (h : Call fl f args path (oneVal g bad m)) : Halts fl f args path := by
  cases m
  · exact .inr ⟨_, h⟩
  · exact .inr ⟨_, h⟩
  · exact .inl h

theorem pairVals_halts {fl : FloatLib UInt64} {f : Id} {args : List Val} {path : List Bytes} {m : Out (List Bytes × List Bytes)}
    (h : Call fl f args path (pairVals m)) : Halts fl f args path := by
  cases m
  · exact .inr ⟨_, h⟩
  · exact .inr ⟨_, h⟩
  · exact .inl h

/-- The readers that take a text and a path. -/
def readers : List Id := [go% Get, go% GetString, go% GetInt, go% GetFloat, go% GetBool, go% GetIntArray, go% GetFloatArray, go% GetBoolArray,
  go% GetStringArray, go% GetKeys, go% GetValues, go% GetKeysValues, go% Length, go% IsObject, go% IsArray, go% IsValue, go% GetType,
  go% IsEmpty, go% Delete]

/-- **C99** The readers and `Delete` come to an end on every text and path. -/
theorem C99_readers_halt (fl : FloatLib UInt64) (json : Bytes) (path : List Bytes) :
    ∀ f ∈ readers, Halts fl f [.bytes json] path := by
  simp only [readers, List.mem_cons, List.not_mem_nil, or_false]
  rintro f (rfl | rfl | rfl | rfl | rfl | rfl | rfl | rfl | rfl | rfl | rfl | rfl | rfl | rfl | rfl | rfl | rfl | rfl | rfl)
  · exact oneVal_halts (text_Get fl json path)
  · exact oneVal_halts (text_GetString fl json path)
  · exact oneVal_halts (text_GetInt fl json path)
  · exact oneVal_halts (text_GetFloat fl json path)
  · exact oneVal_halts (text_GetBool fl json path)
  · exact oneVal_halts (text_GetIntArray fl json path)
  · exact oneVal_halts (text_GetFloatArray fl json path)
  · exact oneVal_halts (text_GetBoolArray fl json path)
  · exact oneVal_halts (text_GetStringArray fl json path)
  · exact oneVal_halts (text_GetKeys fl json path)
  · exact oneVal_halts (text_GetValues fl json path)
  · exact pairVals_halts (text_GetKeysValues fl json path)
  · exact oneVal_halts (text_Length fl json path)
  · exact oneVal_halts (text_IsObject fl json path)
  · exact oneVal_halts (text_IsArray fl json path)
  · exact oneVal_halts (text_IsValue fl json path)
  · exact oneVal_halts (text_GetType fl json path)
  · exact oneVal_halts (text_IsEmpty fl json path)
  · exact mutVals_halts (text_Delete fl json path)

/-- **C99** The mutators come to an end on every text, value and path. -/
theorem C99_mutators_halt (fl : FloatLib UInt64) (json key : Bytes) (v : Option Bytes) (index : Int) (path : List Bytes) :
    Halts fl (go% Set) [.bytes json, optBytes v] path ∧
    Halts fl (go% Add) [.bytes json, optBytes v] path ∧
    Halts fl (go% AddKeyValue) [.bytes json, .bytes key, optBytes v] path ∧
    Halts fl (go% Insert) [.bytes json, .int index, optBytes v] path ∧
    Halts fl (go% Store) [.bytes json, .bytes key, optBytes v] path ∧
    Halts fl (go% SetKey) [.bytes json, .bytes key] path :=
  ⟨mutVals_halts (text_Set fl json path v), mutVals_halts (text_Add fl json path v), mutVals_halts (text_AddKeyValue fl json path key v),
    mutVals_halts (text_Insert fl json path index v), mutVals_halts (text_Store fl json path key v), mutVals_halts (text_SetKey fl json path key)⟩

/-- The three calls end on a text cut off in the middle, where two of them panic. -/
example (fl : FloatLib UInt64) : Call fl (go% Get) [.bytes (str "{\"a\": ")] [str "a"] .panic ∧
    Call fl (go% Set) [.bytes (str "{\"a\": "), .bytes (str "1")] [str "a"] .panic ∧
    Call fl (go% Add) [.bytes (str "[1, "), .bytes (str "2")] [] (.ok [.bytes (str "[1, "), .err .arrayExpected]) := by
  refine ⟨?_, ?_, ?_⟩
  · have := text_Get fl (str "{\"a\": ") [str "a"]
    rwa [show Get (str "{\"a\": ") [str "a"] = .panic by decide +kernel] at this
  · have := text_Set fl (str "{\"a\": ") [str "a"] (some (str "1"))
    rwa [show Set (str "{\"a\": ") ((some (str "1")).getD []) [str "a"] = .panic by decide +kernel] at this
  · have := text_Add fl (str "[1, ") [] (some (str "2"))
    rwa [show Add (str "[1, ") ((some (str "2")).getD []) [] = .done (str "[1, ") (some .arrayExpected) by decide +kernel] at this

/-! ### C100 -/

theorem Call.done {fl : FloatLib UInt64} {f : Id} {args : List Val} {path : List Bytes} {m : Mut} {t : Bytes}
    (h : Call fl f args path (mutVals m)) (e : m = .done t none) : Call fl f args path (.ok [.bytes t, .nil]) := by
  rw [e] at h; exact h

theorem Call.fail {fl : FloatLib UInt64} {f : Id} {args : List Val} {path : List Bytes} {m : Mut} {t : Bytes} {er : Err}
    (h : Call fl f args path (mutVals m)) (e : m = .done t (some er)) : Call fl f args path (.ok [.bytes t, .err er]) := by
  rw [e] at h; exact h

theorem Call.one {fl : FloatLib UInt64} {f : Id} {args : List Val} {path : List Bytes} {α : Type} {g : α → Val} {bad : Val} {m : Out α} {a : α}
    (h : Call fl f args path (oneVal g bad m)) (e : m = .ok a) : Call fl f args path (.ok [g a, .nil]) := by
  rw [e] at h; exact h

theorem Call.bad {fl : FloatLib UInt64} {f : Id} {args : List Val} {path : List Bytes} {α : Type} {g : α → Val} {bad : Val} {m : Out α} {e : Err}
    (h : Call fl f args path (oneVal g bad m)) (he : m = .err e) : Call fl f args path (.ok [bad, .err e]) := by
  rw [he] at h; exact h

/-- `Get` answers alike on two texts. -/
def SameGet (fl : FloatLib UInt64) (s : Bytes) (p : List Bytes) (t : Bytes) (q : List Bytes) : Prop :=
  ∃ r, Call fl (go% Get) [.bytes s] p r ∧ Call fl (go% Get) [.bytes t] q r

theorem sameGet {fl : FloatLib UInt64} {s t : Bytes} {p q : List Bytes} (h : Get t q = Get s p) : SameGet fl s p t q :=
  ⟨_, text_Get fl s p, h ▸ text_Get fl t q⟩

/-- **C100** `Get` of the text returns exactly the addressed value (C01). -/
theorem C100_get (fl : FloatLib UInt64) (d : Doc) (path : List Text) (w : Json) (hd : d.wf) (hp : path ≠ []) (h : d.get? path = some w) :
    Call fl (go% Get) [.bytes d.render] path (.ok [.bytes w.content, .nil]) :=
  (text_Get fl d.render path).one (C01_get_exact d path w hd hp h)

/-- **C100 (partial)** `Get` of the text reports a missing key (C03; the condition `clear` is the one of C03). -/
theorem C100_missing_partial (fl : FloatLib UInt64) (d : Doc) (p : List Text) (q : Text) (qs : List Text) (g : Text) (ms : List (Member Json))
    (hd : d.wf) (h : d.get? p = some (.obj g ms)) (hq : ∀ m ∈ ms, m.key ≠ q) (hok : d.clear p q) :
    Call fl (go% Get) [.bytes d.render] (p ++ q :: qs) (.ok [.nil, .err (.keyNotFound q)]) :=
  (text_Get fl d.render _).bad (C03_missing_key_partial d p q qs g ms hd h hq hok)

/-- **C100** `Set` of the text replaces the addressed value, and `Get` of the text then returns it; at every
other path `Get` returns what it returned before (C08, C09). -/
theorem C100_set_get (fl : FloatLib UInt64) (d : Doc) (path : List Text) (w x : Json) (hd : d.wf) (hp : path ≠ []) (h : d.get? path = some w)
    (hx : x.wf) :
    ∃ t, Call fl (go% Set) [.bytes d.render, .bytes x.render] path (.ok [.bytes t, .nil]) ∧
      Call fl (go% Get) [.bytes t] path (.ok [.bytes x.content, .nil]) ∧
      ∀ q u, d.diverge path q → d.get? q = some u → SameGet fl d.render q t q := by
  obtain ⟨h1, h2, h3, h4⟩ := C08_get_after_set d path w x hd hp h hx
  refine ⟨(d.set path x).render, (text_Set fl d.render path (some x.render)).done h1, (text_Get fl _ path).one h4, fun q u hq hu => ?_⟩
  obtain ⟨j, h5, h6⟩ := C09_set_frame d path q w u x hd h hu hq hx
  rw [h1] at h5
  cases h5
  exact sameGet h6

/-- **C100** `SetInt` and then `GetInt` of the text return the number (C10). -/
theorem C100_int (fl : FloatLib UInt64) (d : Doc) (path : List Text) (w : Json) (hd : d.wf) (hp : path ≠ []) (h : d.get? path = some w)
    (n : Int) (h1 : -9223372036854775808 ≤ n) (h2 : n ≤ 9223372036854775807) :
    ∃ t, Call fl (go% SetInt) [.bytes d.render, .int n] path (.ok [.bytes t, .nil]) ∧
      Call fl (go% GetInt) [.bytes t] path (.ok [.int n, .nil]) := by
  obtain ⟨t, h3, h4⟩ := C10_setInt_getInt d path w hd hp h n h1 h2
  exact ⟨t, (text_SetInt fl _ path n).done h3, (text_GetInt fl t path).one h4⟩

/-- **C100** `Delete` of the text removes exactly the addressed entry (C16). -/
theorem C100_delete (fl : FloatLib UInt64) (d : Doc) (p : List Text) (q : Text) (w c : Json) (hd : d.wf) (hw : d.get? p = some w)
    (hc : d.get? (p ++ [q]) = some c) :
    ∃ n w', w.slot? q = some n ∧ w.entries[n]?.map Entry.val = some c ∧
      Call fl (go% Delete) [.bytes d.render] (p ++ [q]) (.ok [.bytes (d.set p w').render, .nil]) ∧ (d.set p w').wf ∧
      w'.kind = w.kind ∧ w'.entries = w.entries.eraseIdx n := by
  obtain ⟨n, w', h1, h2, h3, h4⟩ := C16_delete_exact d p q w c hd hw hc
  exact ⟨n, w', h1, h2, (text_Delete fl _ _).done h3, h4⟩

/-- **C100** `Add` of the text appends one element (C20). -/
theorem C100_add (fl : FloatLib UInt64) (d : Doc) (p : List Text) (g : Text) (es : List (Elem Json)) (v : Json) (hd : d.wf)
    (h : d.get? p = some (.arr g es)) (hv : v.wf) :
    ∃ w', Call fl (go% Add) [.bytes d.render, .bytes v.render] p (.ok [.bytes (d.set p w').render, .nil]) ∧ (d.set p w').wf ∧
      w'.kind = .arr ∧ w'.entries = (Json.arr g es).entries ++ [.elem v] ∧
      (∀ q, readIndex q = some es.length → Call fl (go% Get) [.bytes (d.set p w').render] (p ++ [q]) (.ok [.bytes v.content, .nil])) ∧
      (∀ r rest u, d.get? (p ++ r :: rest) = some u → SameGet fl d.render (p ++ r :: rest) (d.set p w').render (p ++ r :: rest)) ∧
      (∀ q u, d.diverge p q → d.get? q = some u → SameGet fl d.render q (d.set p w').render q) := by
  obtain ⟨w', h1, h2, h3, h4, h5, h6, h7⟩ := C20_add d p g es v hd h hv
  exact ⟨w', (text_Add fl _ p (some v.render)).done h1, h2, h3, h4, fun q hq => (text_Get fl _ _).one (h5 q hq),
    fun r rest u hu => sameGet (h6 r rest u hu), fun q u hq hu => sameGet (h7 q u hq hu)⟩

/-- **C100 (partial)** `AddKeyValue` of the text appends one member (C21; the condition `clear` is the one of C21). -/
theorem C100_addKeyValue_partial (fl : FloatLib UInt64) (d : Doc) (p : List Text) (g : Text) (ms : List (Member Json)) (k : Text) (v : Json) (hd : d.wf)
    (h : d.get? p = some (.obj g ms)) (hk : ∀ m ∈ ms, m.key ≠ k) (hks : strOk k) (hv : v.wf) (hok : ms = [] ∨ d.clear p k) :
    ∃ w', Call fl (go% AddKeyValue) [.bytes d.render, .bytes k, .bytes v.render] p (.ok [.bytes (d.set p w').render, .nil]) ∧ (d.set p w').wf ∧
      w'.kind = .obj ∧ w'.entries = (Json.obj g ms).entries ++ [.member k [] [] v] ∧
      Call fl (go% Get) [.bytes (d.set p w').render] (p ++ [k]) (.ok [.bytes v.content, .nil]) ∧
      (∀ r rest u, d.get? (p ++ r :: rest) = some u → SameGet fl d.render (p ++ r :: rest) (d.set p w').render (p ++ r :: rest)) ∧
      (∀ q u, d.diverge p q → d.get? q = some u → SameGet fl d.render q (d.set p w').render q) := by
  obtain ⟨w', h1, h2, h3, h4, h5, h6, h7⟩ := C21_addKeyValue_partial d p g ms k v hd h hk hks hv hok
  exact ⟨w', (text_AddKeyValue fl _ p k (some v.render)).done h1, h2, h3, h4, (text_Get fl _ _).one h5,
    fun r rest u hu => sameGet (h6 r rest u hu), fun q u hq hu => sameGet (h7 q u hq hu)⟩

/-- **C100** `AddKeyValue` of the text refuses an existing key and returns the text (C22). -/
theorem C100_addKeyValue_exists (fl : FloatLib UInt64) (d : Doc) (p : List Text) (g : Text) (ms : List (Member Json)) (k : Text) (v : Option Bytes) (hd : d.wf)
    (h : d.get? p = some (.obj g ms)) (hk : ∃ m ∈ ms, m.key = k) :
    Call fl (go% AddKeyValue) [.bytes d.render, .bytes k, optBytes v] p (.ok [.bytes d.render, .err (.keyAlreadyExist k)]) :=
  (text_AddKeyValue fl _ p k v).fail (C22_addKeyValue_exists d p g ms k v hd h hk)

/-- **C100 (partial)** `Insert` of the text puts the value before the indexed element (C23, whose conditions these are). -/
theorem C100_insert_partial (fl : FloatLib UInt64) (d : Doc) (p : List Text) (g : Text) (es : List (Elem Json)) (n : Nat) (v : Json) (hd : d.wf)
    (h : d.get? p = some (.arr g es)) (hn : n < es.length) (hb : (n : Int) ≤ 9223372036854775807) (hv : v.wf)
    (hok : n + 1 < es.length ∨ n = 0 ∨ ∃ e, es[n]? = some e ∧ e.l = []) :
    ∃ w', Call fl (go% Insert) [.bytes d.render, .int n, .bytes v.render] p (.ok [.bytes (d.set p w').render, .nil]) ∧ (d.set p w').wf ∧
      w'.kind = .arr ∧ w'.entries = (Json.arr g es).entries.take n ++ .elem v :: (Json.arr g es).entries.drop n ∧
      (∀ q, readIndex q = some n → Call fl (go% Get) [.bytes (d.set p w').render] (p ++ [q]) (.ok [.bytes v.content, .nil])) := by
  obtain ⟨w', h1, h2, h3, h4, h5, -⟩ := C23_insert_partial d p g es n v hd h hn hb hv hok
  exact ⟨w', (text_Insert fl _ p n (some v.render)).done h1, h2, h3, h4, fun q hq => (text_Get fl _ _).one (h5 q hq)⟩

/-- **C100 (partial)** `SetKey` of the text renames exactly one member (C24, whose conditions these are). -/
theorem C100_setKey_partial (fl : FloatLib UInt64) (d : Doc) (p : List Text) (q new : Text) (g : Text) (ms : List (Member Json)) (n : Nat) (hd : d.wf)
    (h : d.get? p = some (.obj g ms)) (hq : memberIdx ms q = some n) (hne : new ≠ []) (hnew : ∀ m ∈ ms, m.key ≠ new) (hns : strOk new)
    (hok : d.clear p new) :
    ∃ A B, d.render = A ++ (q ++ B) ∧ Call fl (go% SetKey) [.bytes d.render, .bytes new] (p ++ [q]) (.ok [.bytes (A ++ (new ++ B)), .nil]) ∧
      A ++ (new ++ B) = (d.set p (.obj g (ms.modify n fun m => { m with key := new }))).render ∧
      (∀ rest u, d.get? (p ++ q :: rest) = some u → SameGet fl d.render (p ++ q :: rest) (A ++ (new ++ B)) (p ++ new :: rest)) := by
  obtain ⟨A, B, d', h1, h2, h3, rfl, -, h5, -⟩ := C24_setKey_partial d p q new g ms n hd h hq hne hnew hns hok
  exact ⟨A, B, h1, (text_SetKey fl _ _ new).done h2, h3, fun rest u hu => h3 ▸ sameGet (h5 rest u hu)⟩

/-- **C100** On a text that ends with a closing bracket `Get` of the text does not panic; a value it returns is a
part of the text (C06). -/
theorem C100_get_no_panic (fl : FloatLib UInt64) (json : Bytes) (path : List Bytes)
    (hj : json.getLast? = some 93 ∨ json.getLast? = some 125) (hp : path ≠ []) :
    (∃ e, Call fl (go% Get) [.bytes json] path (.ok [.nil, .err e])) ∨
      ∃ before w after, Call fl (go% Get) [.bytes json] path (.ok [.bytes w, .nil]) ∧ json = before ++ w ++ after := by
  rcases C06_get_no_panic json path hj hp with ⟨e, h⟩ | ⟨a, w, b, h, h'⟩
  · exact .inl ⟨e, (text_Get fl _ _).bad h⟩
  · exact .inr ⟨a, w, b, (text_Get fl _ _).one h, h'⟩

/-- **C100** `Flatten` of the text removes exactly the insignificant whitespace (C40). -/
theorem C100_flatten (fl : FloatLib UInt64) (d : Doc) (hd : d.wf) :
    Call1 fl (go% Flatten) [.bytes d.render] (.ok [.bytes (⟨[], d.root.strip, []⟩ : Doc).render]) := by
  have := text_Flatten fl d.render
  rwa [C40_flatten d hd] at this

/-- **C100 (partial)** `GetKeys` of the text lists the keys, `Length` counts the entries (C32, C36, whose conditions these are). -/
theorem C100_keys_length_partial (fl : FloatLib UInt64) (d : Doc) (p : List Text) (hd : d.wf) (hp : p ≠ []) (hne : d.render ≠ str "{}") :
    (∀ g ms, d.get? p = some (.obj g ms) → ms ≠ [] →
      Call fl (go% GetKeys) [.bytes d.render] p (.ok [.strs (ms.map Member.key), .nil])) ∧
    (∀ w, d.get? p = some w → w.isContainer → Call fl (go% Length) [.bytes d.render] p (.ok [.int w.size, .nil])) := by
  refine ⟨fun g ms h hm => ?_, fun w h hc => (text_Length fl _ p).one (C36_length_path_partial hd h hc hp)⟩
  have := (text_GetKeys fl d.render p).one (C32_getKeys_partial hd h hne)
  cases ms with
  | nil => exact absurd rfl hm
  | cons m ms => exact this

/-- The sample document: `Get`, `Set` and `Get`, `Delete`, `Add`, keys and length, run on the text. -/
example (fl : FloatLib UInt64) :
    Call fl (go% Get) [.bytes Sample.doc.render] Sample.toStr (.ok [.bytes (str "x]\\\\"), .nil]) ∧
    (∃ t, Call fl (go% Set) [.bytes Sample.doc.render, .bytes (str "true")] Sample.toStr (.ok [.bytes t, .nil]) ∧
      Call fl (go% Get) [.bytes t] Sample.toStr (.ok [.bytes (str "true"), .nil])) ∧
    (∃ w', Call fl (go% Delete) [.bytes Sample.doc.render] Sample.toStr (.ok [.bytes (Sample.doc.set Sample.toArr w').render, .nil])) ∧
    (∃ w', Call fl (go% Add) [.bytes Sample.doc.render, .bytes (str "true")] Sample.toArr
      (.ok [.bytes (Sample.doc.set Sample.toArr w').render, .nil])) ∧
    Call fl (go% Length) [.bytes Sample.doc.render] Sample.toArr (.ok [.int 4, .nil]) := by
  have ht : (Json.lit (str "true")).wf := by decide +kernel
  refine ⟨C100_get fl _ _ _ Sample.doc_wf (by decide) Sample.get_str, ?_, ?_, ?_, ?_⟩
  · obtain ⟨t, h1, h2, -⟩ := C100_set_get fl Sample.doc _ _ (.lit (str "true")) Sample.doc_wf (by decide) Sample.get_str ht
    exact ⟨t, h1, h2⟩
  · obtain ⟨n, w', -, -, h, -⟩ := C100_delete fl Sample.doc Sample.toArr (str "1") _ _ Sample.doc_wf Sample.get_arr Sample.get_str
    exact ⟨w', h⟩
  · obtain ⟨w', h, -⟩ := C100_add fl Sample.doc Sample.toArr _ _ (.lit (str "true")) Sample.doc_wf Sample.get_arr ht
    exact ⟨w', h⟩
  · exact (C100_keys_length_partial fl Sample.doc Sample.toArr Sample.doc_wf (by decide) (by decide +kernel)).2 _ Sample.get_arr (by decide +kernel)

/-! ### C101 -/

/-- **C101** `IterateArray` of the text calls the function on each element of a non-empty array in order, until it says
stop or fails (C30). -/
theorem C101_iterateArray {σ : Type} (fl : FloatLib UInt64) {d : Doc} {path : List Text} {g : Text} {es : List (Elem Json)} (hd : d.wf)
    (h : d.get? path = some (.arr g es)) (he : es ≠ []) (cb : σ → Bytes → Cb σ) (u : σ) :
    ∃ N, ∀ fuel depth, N ≤ fuel → N ≤ depth →
      Src.IterateArray.run (cbCtx fl fuel depth (cb1 cb)) fuel true [.bytes d.render, .nil, .strs path] u =
        iterVal (visit cb (es.map fun e => e.v.content) u) := by
  refine ⟨need d.render path + 3, fun fuel depth hf hd' => ?_⟩
  obtain ⟨k, rfl⟩ : ∃ k, depth = k + 3 := ⟨depth - 3, by omega⟩
  rw [run_IterateArray (by omega), C30_iterateArray hd h he]

/-- **C101 (partial)** `IterateKeyValue` of the text on the members of an object (C31, whose exact form this is). -/
theorem C101_iterateKeyValue_partial {σ : Type} (fl : FloatLib UInt64) {d : Doc} {path : List Text} {g : Text} {ms : List (Member Json)} (hd : d.wf)
    (h : d.get? path = some (.obj g ms)) (hm : ms ≠ []) (cb : σ → Bytes → Bytes → Cb σ) (u : σ) :
    ∃ N, ∀ fuel depth, N ≤ fuel → N ≤ depth →
      Src.IterateKeyValue.run (cbCtx fl fuel depth (cb2 cb)) fuel true [.bytes d.render, .nil, .strs path] u =
        iterVal (visitLast cb (ikSeen ms) u) := by
  refine ⟨need d.render path + 3, fun fuel depth hf hd' => ?_⟩
  obtain ⟨k, rfl⟩ : ∃ k, depth = k + 3 := ⟨depth - 3, by omega⟩
  rw [run_IterateKeyValue (by omega), C31_iterateKV_partial hd h hm]

/-- The elements of the sample array, collected. -/
example (fl : FloatLib UInt64) : ∃ N, ∀ fuel depth, N ≤ fuel → N ≤ depth →
    Src.IterateArray.run (cbCtx fl fuel depth (cb1 fun (u : List Bytes) v => .ret (u ++ [v]) true none)) fuel true
      [.bytes Sample.doc.render, .nil, .strs Sample.toArr] [] =
    .ok ([str "10", str "x]\\\\", str "{\"k\":null}", str "[]"], [.nil]) := by
  obtain ⟨N, h⟩ := C101_iterateArray fl Sample.doc_wf Sample.get_arr (by decide) (fun (u : List Bytes) v => .ret (u ++ [v]) true none) []
  refine ⟨N, fun fuel depth h1 h2 => (h fuel depth h1 h2).trans ?_⟩
  decide +kernel

end Jin.Go
