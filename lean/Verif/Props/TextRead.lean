import Verif.Go.Scheme
import Verif.Props.Text
import Verif.Props.Array
import Verif.Props.Scheme
import Verif.Props.Refuse
import Verif.Props.Make
/-!
# Property C119: what the readers and builders of the text say

C05, C33, C37–C39, C41, C45–C47, C61, C73 and C74 for the text of /repo (`Verif.Go.Source`).
-/

namespace Jin.Go
open Spec

section
variable (fl : FloatLib UInt64) {d : Doc} {p : List Text}

/-- **C119** The typed getters are `Get` followed by the conversion (C05). -/
theorem C119_typed (w : Json) (hd : d.wf) (hp : p ≠ []) (h : d.get? p = some w) :
    Call fl (go% GetString) [.bytes d.render] p (.ok [.bytes w.content, .nil]) ∧
    Call fl (go% GetInt) [.bytes d.render] p (match readInt w.content with
      | some n => .ok [.int n, .nil]
      | none => .ok [.int (-1), .err (.integerParse w.content)]) ∧
    Call fl (go% GetFloat) [.bytes d.render] p (match fl.parse w.content with
      | some x => .ok [.float x, .nil]
      | none => .ok [.int (-1), .err (.floatParse w.content)]) ∧
    Call fl (go% GetBool) [.bytes d.render] p (if w.content = str "true" then .ok [.bool true, .nil] else
      if w.content = str "false" then .ok [.bool false, .nil] else .ok [.bool false, .err (.boolParse w.content)]) := by
  refine ⟨(text_GetString fl _ _).one (C01_get_exact d p w hd hp h), ?_, ?_, ?_⟩
  · have := text_GetInt fl d.render p
    rw [C05_getInt d p w hd hp h] at this
    revert this
    cases readInt w.content <;> exact id
  · have := text_GetFloat fl d.render p
    rw [C05_getFloat fl d p w hd hp h] at this
    revert this
    cases fl.parse w.content <;> exact id
  · have := text_GetBool fl d.render p
    rw [C05_getBool d p w hd hp h] at this
    split at this
    · rename_i e; rw [if_pos e]; exact this
    · rename_i e; rw [if_neg e]
      split at this
      · rename_i e; rw [if_pos e]; exact this
      · rename_i e; rw [if_neg e]; exact this

/-- **C119** `IsArray` and `IsValue` say the kind of the value; `IsObject` says true for arrays too (C38). -/
theorem C119_kind_partial {w : Json} (hd : d.wf) (h : d.get? p = some w) :
    Call fl (go% IsArray) [.bytes d.render] p (.ok [.bool (w.kind == .arr), .nil]) ∧
    Call fl (go% IsValue) [.bytes d.render] p (.ok [.bool (w.kind == .scalar), .nil]) ∧
    Call fl (go% IsObject) [.bytes d.render] p (.ok [.bool (w.kind == .obj || w.kind == .arr), .nil]) :=
  ⟨(text_IsArray fl _ _).one (C38_isArray hd h), (text_IsValue fl _ _).one (C38_isValue hd h), (text_IsObject fl _ _).one (C38_isObject_partial hd h)⟩

/-- **C119** `GetType` of arrays, objects and strings, and of literals at a path (C39). -/
theorem C119_type_partial {w : Json} (hd : d.wf) (h : d.get? p = some w) :
    (w.kind = .arr → Call fl (go% GetType) [.bytes d.render] p (.ok [.bytes (str "array"), .nil])) ∧
    (w.kind = .obj → Call fl (go% GetType) [.bytes d.render] p (.ok [.bytes (str "object"), .nil])) ∧
    (∀ raw, w = .str raw → Call fl (go% GetType) [.bytes d.render] p (.ok [.bytes (str "string"), .nil])) ∧
    (p ≠ [] → w = .lit (str "true") ∨ w = .lit (str "false") → Call fl (go% GetType) [.bytes d.render] p (.ok [.bytes (str "boolean"), .nil])) ∧
    (p ≠ [] → w = .lit (str "null") → Call fl (go% GetType) [.bytes d.render] p (.ok [.bytes (str "null"), .nil])) := by
  have n1 : typeName .array = str "array" := by decide +kernel
  have n2 : typeName .object = str "object" := by decide +kernel
  have n3 : typeName .string = str "string" := by decide +kernel
  have n4 : typeName .boolean = str "boolean" := by decide +kernel
  have n5 : typeName .null = str "null" := by decide +kernel
  obtain ⟨h1, h2, h3⟩ := C39_getType_bracket hd h (fun s => (fl.parse s).isSome)
  refine ⟨fun k => n1 ▸ (text_GetType fl _ _).one (h1 k), fun k => n2 ▸ (text_GetType fl _ _).one (h2 k),
    fun raw k => n3 ▸ (text_GetType fl _ _).one (h3 raw k), fun hp k => ?_, fun hp k => ?_⟩
  · rw [← n4]
    refine (text_GetType fl _ _).one ?_
    rcases k with rfl | rfl
    · rw [C39_getType_literal_partial hd h hp, if_pos (.inl (by decide +kernel))]
    · rw [C39_getType_literal_partial hd h hp, if_pos (.inr (by decide +kernel))]
  · rw [← n5]
    refine (text_GetType fl _ _).one ?_
    subst k
    rw [C39_getType_literal_partial hd h hp, if_neg (by decide +kernel), if_pos (by decide +kernel)]

/-- **C119 (partial)** `GetValues` and `GetKeysValues` list the members in order; missing: what C33 misses. -/
theorem C119_members_partial {g : Text} {ms : List (Member Json)} (hd : d.wf) (h : d.get? p = some (.obj g ms)) (hm : ms ≠ [])
    (hl : ∀ m ∈ ms, m.loose = false) :
    Call fl (go% GetValues) [.bytes d.render] p (.ok [.strs (ms.map fun m => m.v.content), .nil]) ∧
    Call fl (go% GetKeysValues) [.bytes d.render] p (.ok [.strs (ms.map Member.key), .strs (ms.map fun m => m.v.content), .nil]) := by
  obtain ⟨h1, h2⟩ := C33_getValues_partial hd h hm hl
  have t1 := text_GetValues fl d.render p
  have t2 := text_GetKeysValues fl d.render p
  rw [h1] at t1
  rw [h2] at t2
  cases ms with
  | nil => exact absurd rfl hm
  | cons m ms => exact ⟨t1, t2⟩

/-- **C119 (partial)** `IsEmpty` of a container; missing: what C37 misses. -/
theorem C119_empty_partial {w : Json} (hd : d.wf) (h : d.get? p = some w) (hc : w.isContainer) (hw : w.pinch = false) :
    Call fl (go% IsEmpty) [.bytes d.render] p (.ok [.bool (w.size == 0), .nil]) :=
  (text_IsEmpty fl _ _).one (C37_isEmpty_partial hd h hc hw)

/-- **C119 (partial)** The array readers return every element; missing: what C61 misses. -/
theorem C119_arrays_partial {g : Text} {es : List (Elem Json)} (hd : d.wf) (h : d.get? p = some (.arr g es)) (hes : es ≠ [])
    (hp : p = [] → d.lead = [] ∧ d.trail = []) :
    ((∀ e ∈ es, e.snug) → Call fl (go% GetStringArray) [.bytes d.render] p (.ok [.strs (es.map fun e => e.v.content), .nil])) ∧
    (∀ f : Elem Json → Int, (∀ e ∈ es, e.snug) → (∀ e ∈ es, readInt e.v.content = some (f e)) →
      Call fl (go% GetIntArray) [.bytes d.render] p (.ok [.ints (es.map f), .nil])) ∧
    (∀ f : Elem Json → UInt64, (∀ e ∈ es, e.snug) → (∀ e ∈ es, fl.parse e.v.content = some (f e)) →
      Call fl (go% GetFloatArray) [.bytes d.render] p (.ok [.floats (es.map f), .nil])) ∧
    (∀ f : Elem Json → Bool, (∀ e ∈ es, e.v.content = if f e then str "true" else str "false") →
      Call fl (go% GetBoolArray) [.bytes d.render] p (.ok [.bools (es.map f), .nil])) :=
  ⟨fun hs => (text_GetStringArray fl _ _).one (C61_strings_partial hd h hes hp hs),
    fun f hs hf => (text_GetIntArray fl _ _).one (C61_ints_partial hd h hes hp hs f hf),
    fun f hs hf => (text_GetFloatArray fl _ _).one (C61_floats_partial fl hd h hes hp hs f hf),
    fun f hf => (text_GetBoolArray fl _ _).one (C61_bools hd h hes hp f hf)⟩

/-- **C119 (partial)** `Add`, `Insert` and `AddKeyValue` refuse the wrong kind of value and give the text back; missing: what C74
misses. -/
theorem C119_wrong_kind_partial (w : Json) (hd : d.wf) (h : d.get? p = some w) (hl : p ≠ [] ∨ 2 ≤ d.render.length) :
    (w.kind ≠ .arr → (∀ raw, w = .str raw → ¬ (raw.head? = some 91 ∧ raw.getLast? = some 93)) → ∀ v i,
      Call fl (go% Add) [.bytes d.render, .bytes v] p (.ok [.bytes d.render, .err .arrayExpected]) ∧
      Call fl (go% Insert) [.bytes d.render, .int i, .bytes v] p (.ok [.bytes d.render, .err .arrayExpected])) ∧
    (w.kind ≠ .obj → (∀ raw, w = .str raw → ¬ (raw.head? = some 123 ∧ raw.getLast? = some 125)) → ∀ k v,
      Call fl (go% AddKeyValue) [.bytes d.render, .bytes k, .bytes v] p (.ok [.bytes d.render, .err .objectExpected])) := by
  obtain ⟨h1, h2⟩ := C74_wrong_kind_partial d p w hd h hl
  exact ⟨fun hk hr v i => ⟨(text_Add fl _ p (some v)).fail (h1 hk hr v i).1, (text_Insert fl _ p i (some v)).fail (h1 hk hr v i).2⟩,
    fun hk hr k v => (text_AddKeyValue fl _ p k (some v)).fail (h2 hk hr k (some v))⟩

/-- **C119 (partial)** `Indent` changes only whitespace: `Flatten` of what it returns is `Flatten` of the text, and `Get` finds the
same scalars; missing: what C41 misses. -/
theorem C119_indent_partial (hd : d.wf) (ha : d.root.allStr noTrailBs) (hr : ∀ raw, d.root ≠ .str raw) :
    ∃ t u, Call1 fl (go% Indent) [.bytes d.render] (.ok [.bytes t]) ∧ Call1 fl (go% Flatten) [.bytes t] (.ok [.bytes u]) ∧
      Call1 fl (go% Flatten) [.bytes d.render] (.ok [.bytes u]) ∧
      ∀ path w, path ≠ [] → d.get? path = some w → w.isContainer = false → SameGet fl d.render path t path := by
  obtain ⟨t, h1, h2, h3⟩ := C41_partial d hd ha hr
  have h := text_Indent fl d.render
  rw [h1] at h
  refine ⟨t, _, h, text_Flatten fl t, ?_, fun path w hp hw hc => sameGet (h3 path w hp hw hc)⟩
  rw [h2]
  exact text_Flatten fl d.render

end

/-- **C119 (partial)** `MakeJsonString` builds the object it is given; missing: what C46 misses. -/
theorem C119_makeJson_partial (fl : FloatLib UInt64) (hf : ∀ v, (fl.parse v).isSome = true → (Json.lit v).wf) (ks : List Text)
    (ss : List (Text × Text)) (hl : ks.length = ss.length) (hne : ks ≠ []) (hk : ∀ k ∈ ks, strOk k) (hs : ∀ s ∈ ss, Means s.1 s.2) :
    ∃ (d : Doc) (g : Text) (ms : List (Member Json)),
      Call1 fl (go% MakeJsonString) [.strs ks, .strs (ss.map Prod.fst)] (.ok [.bytes d.render]) ∧ d.wf ∧
      d.root = .obj g ms ∧ ms.map Member.key = ks ∧ ms.map (fun m => m.v.content) = ss.map Prod.snd ∧
      (ks.Nodup → ∀ (n : Nat) (k : Text) (s : Text × Text), ks[n]? = some k → ss[n]? = some s →
        Call fl (go% Get) [.bytes d.render] [k] (.ok [.bytes s.2, .nil])) := by
  obtain ⟨d, g, ms, h1, h2, h3, h4, h5, h6⟩ := C46_makeJsonString_partial (fun s => (fl.parse s).isSome) hf ks ss hl hne hk hs
  have h := text_MakeJsonString fl (some ks) (ss.map Prod.fst)
  rw [if_pos (by simpa using hl), h1] at h
  refine ⟨d, g, ms, h, h2, h3, h4, h5, fun hn n k s e1 e2 => (text_Get fl _ _).one ?_⟩
  rw [← h1]
  exact h6 hn n k s e1 e2

/-- **C119 (partial)** The builders given nil write an empty container; given an empty slice they write a closing bracket only (C45). -/
theorem C119_make_empty_partial (fl : FloatLib UInt64) :
    Call1 fl (go% MakeArrayString) [.nil] (.ok [.bytes (str "[]")]) ∧ Call1 fl (go% MakeArrayInt) [.nil] (.ok [.bytes (str "[]")]) ∧
    Call1 fl (go% MakeArrayBool) [.nil] (.ok [.bytes (str "[]")]) ∧ Call1 fl (go% MakeArrayFloat) [.nil] (.ok [.bytes (str "[]")]) ∧
    Call1 fl (go% MakeJsonString) [.nil, .strs []] (.ok [.bytes (str "{}")]) ∧ Call1 fl (go% MakeJsonWithMap) [.nil] (.ok [.bytes (str "{}")]) ∧
    Call1 fl (go% MakeEmptyArray) [] (.ok [.bytes (str "[]")]) ∧ Call1 fl (go% MakeEmptyJson) [] (.ok [.bytes (str "{}")]) := by
  obtain ⟨-, h2, h3, h4, h5, -, -, h8, h9, h10, h11⟩ := C45_make_nil_partial fl (fun s => (fl.parse s).isSome)
  have t2 := text_MakeArrayString fl none
  have t3 := text_MakeArrayInt fl none
  have t4 := text_MakeArrayBool fl none
  have t5 := text_MakeArrayFloat fl none
  have t8 := text_MakeJsonString fl none []
  have t9 := text_MakeJsonWithMap (fl := fl) none
  have t10 := text_MakeEmptyArray fl
  have t11 := text_MakeEmptyJson fl
  rw [h2] at t2; rw [h3] at t3; rw [h4] at t4; rw [h5] at t5; rw [h8] at t8; rw [h9] at t9; rw [h10] at t10; rw [h11] at t11
  exact ⟨t2, t3, t4, t5, t8, t9, t10, t11⟩

theorem C119_make_empty_fails (fl : FloatLib UInt64) :
    Call1 fl (go% MakeArrayString) [.strs []] (.ok [.bytes (str "]")]) ∧ Call1 fl (go% MakeArrayInt) [.ints []] (.ok [.bytes (str "]")]) ∧
    Call1 fl (go% MakeArrayBool) [.bools []] (.ok [.bytes (str "]")]) ∧ Call1 fl (go% MakeArrayFloat) [.floats []] (.ok [.bytes (str "]")]) ∧
    Call1 fl (go% MakeJsonString) [.strs [], .strs []] (.ok [.bytes (str "}")]) ∧ Call1 fl (go% MakeJsonWithMap) [.map []] (.ok [.bytes (str "}")]) := by
  obtain ⟨-, h2, h3, h4, h5, -, -, h8, h9⟩ := C45_fails fl (fun s => (fl.parse s).isSome)
  have t2 := text_MakeArrayString fl (some [])
  have t3 := text_MakeArrayInt fl (some [])
  have t4 := text_MakeArrayBool fl (some [])
  have t5 := text_MakeArrayFloat fl (some [])
  have t8 := text_MakeJsonString fl (some []) []
  have t9 := text_MakeJsonWithMap (fl := fl) (some [])
  rw [h2] at t2; rw [h3] at t3; rw [h4] at t4; rw [h5] at t5; rw [h8] at t8; rw [h9] at t9
  exact ⟨t2, t3, t4, t5, t8, t9⟩

/-- **C119 (partial)** `MakeArrayFloat` writes what `FormatFloat` gives if that has no exponent and is, from its third byte on, a non-zero
integer; missing: what C47 misses. -/
theorem C119_floats_partial (fl : FloatLib UInt64) (xs : List UInt64) (h : ∀ x ∈ xs, FloatTextOk (fl.format x)) :
    Call1 fl (go% MakeArrayFloat) [.floats xs] (.ok [.bytes (MakeArrayBytes (some (xs.map fl.format)))]) := by
  have t := text_MakeArrayFloat fl (some xs)
  rw [C47_makeArrayFloat_partial fl xs h] at t
  exact t

/-- **C119** The type tests refuse an empty text (C73). -/
theorem C119_empty_text (fl : FloatLib UInt64) (path : List Bytes) :
    Call fl (go% IsObject) [.bytes []] path (.ok [.bool false, .err (.badJSON 0)]) ∧
    Call fl (go% IsArray) [.bytes []] path (.ok [.bool false, .err (.badJSON 0)]) ∧
    Call fl (go% IsValue) [.bytes []] path (.ok [.bool false, .err (.badJSON 0)]) ∧
    Call fl (go% GetType) [.bytes []] path (.ok [.bytes [], .err (.badJSON 0)]) := by
  obtain ⟨h1, h2, h3, h4⟩ := C73_empty_text (fun s => (fl.parse s).isSome) path
  exact ⟨(text_IsObject fl _ _).bad h1, (text_IsArray fl _ _).bad h2, (text_IsValue fl _ _).bad h3, (text_GetType fl _ _).bad h4⟩

/-- **C119 fails** `IsObject` of an array says true, `IsEmpty` of `[5]` says true (C38, C37). -/
theorem C119_fails (fl : FloatLib UInt64) :
    Call fl (go% IsObject) [.bytes (str "[5]")] [] (.ok [.bool true, .nil]) ∧ Call fl (go% IsEmpty) [.bytes (str "[5]")] [] (.ok [.bool true, .nil]) :=
  ⟨(text_IsObject fl _ _).one (by decide +kernel), (text_IsEmpty fl _ _).one (by decide +kernel)⟩

/-- Cases of the hypotheses, in the sample document. -/
example (fl : FloatLib UInt64) :
    Call fl (go% IsArray) [.bytes Sample.doc.render] Sample.toArr (.ok [.bool true, .nil]) ∧
    Call fl (go% GetType) [.bytes Sample.doc.render] Sample.toStr (.ok [.bytes (str "string"), .nil]) ∧
    Call fl (go% GetString) [.bytes Sample.doc.render] Sample.toStr (.ok [.bytes (str "x]\\\\"), .nil]) ∧
    Call fl (go% Add) [.bytes Sample.doc.render, .bytes (str "1")] [] (.ok [.bytes Sample.doc.render, .err .arrayExpected]) := by
  refine ⟨(C119_kind_partial fl Sample.doc_wf Sample.get_arr).1, (C119_type_partial fl Sample.doc_wf Sample.get_str).2.2.1 _ rfl,
    (C119_typed fl _ Sample.doc_wf (by decide) Sample.get_str).1, ?_⟩
  exact ((C119_wrong_kind_partial fl Sample.doc.root Sample.doc_wf rfl (.inr (by decide +kernel))).1 (by decide +kernel)
    (fun raw h => absurd h (by intro h; have : Sample.doc.root.kind = .obj := by decide +kernel
                               rw [h] at this; cases this)) (str "1") 0).1

end Jin.Go
