import Verif.Go.Scheme
import Verif.Props.Lost
/-!
# Property C141 for the text

Hypothesis and conclusion are answers of the text of /repo (`Verif.Go.Source`).
-/

namespace Jin.Go

section
variable {fl : FloatLib UInt64} {json : Bytes} {path : List Bytes} {e : Err}

theorem get_of_text (h : Call fl (go% Get) [.bytes json] path (.ok [.nil, .err e])) : Get json path = .err e := by
  have := (text_Get (fl := fl) (json := json) (path := path)).unique h
  cases hg : Get json path with
  | ok v => rw [hg] at this; cases this
  | err e' => rw [hg] at this; cases this; rfl
  | panic => rw [hg] at this; cases this

/-- **C141** What the text of `Get` reports for a path the text of the other readers reports too. -/
theorem C141_text_readers (hp : path ≠ []) (h : Call fl (go% Get) [.bytes json] path (.ok [.nil, .err e])) :
    Call fl (go% GetString) [.bytes json] path (.ok [.bytes [], .err e]) ∧ Call fl (go% GetInt) [.bytes json] path (.ok [.int (-1), .err e]) ∧
    Call fl (go% GetFloat) [.bytes json] path (.ok [.int (-1), .err e]) ∧ Call fl (go% GetBool) [.bytes json] path (.ok [.bool false, .err e]) ∧
    Call fl (go% GetStringArray) [.bytes json] path (.ok [.nil, .err e]) ∧ Call fl (go% GetIntArray) [.bytes json] path (.ok [.nil, .err e]) ∧
    Call fl (go% GetFloatArray) [.bytes json] path (.ok [.nil, .err e]) ∧ Call fl (go% GetBoolArray) [.bytes json] path (.ok [.nil, .err e]) ∧
    Call fl (go% IsEmpty) [.bytes json] path (.ok [.bool false, .err e]) := by
  obtain ⟨h1, h2, h3, h4, h5, h6, h7, h8, h9⟩ := C141_readers fl hp (get_of_text h)
  have t1 := text_GetString (fl := fl) (json := json) (path := path)
  have t2 := text_GetInt (fl := fl) (json := json) (path := path)
  have t3 := text_GetFloat (fl := fl) (json := json) (path := path)
  have t4 := text_GetBool (fl := fl) (json := json) (path := path)
  have t5 := text_GetStringArray (fl := fl) (json := json) (path := path)
  have t6 := text_GetIntArray (fl := fl) (json := json) (path := path)
  have t7 := text_GetFloatArray (fl := fl) (json := json) (path := path)
  have t8 := text_GetBoolArray (fl := fl) (json := json) (path := path)
  have t9 := text_IsEmpty (fl := fl) (json := json) (path := path)
  rw [h1] at t1; rw [h2] at t2; rw [h3] at t3; rw [h4] at t4; rw [h5] at t5; rw [h6] at t6; rw [h7] at t7; rw [h8] at t8; rw [h9] at t9
  exact ⟨t1, t2, t3, t4, t5, t6, t7, t8, t9⟩

/-- **C141** The mutators report it and return the text they were given. -/
theorem C141_text_writers (hp : path ≠ []) (h : Call fl (go% Get) [.bytes json] path (.ok [.nil, .err e])) (v : Option Bytes)
    (w key : Bytes) (b : Bool) (n i : Int) (x : UInt64) :
    Call fl (go% Set) [.bytes json, optBytes v] path (.ok [.bytes json, .err e]) ∧
    Call fl (go% SetString) [.bytes json, .bytes w] path (.ok [.bytes json, .err e]) ∧
    Call fl (go% SetInt) [.bytes json, .int n] path (.ok [.bytes json, .err e]) ∧
    Call fl (go% SetFloat) [.bytes json, .float x] path (.ok [.bytes json, .err e]) ∧
    Call fl (go% SetBool) [.bytes json, .bool b] path (.ok [.bytes json, .err e]) ∧
    Call fl (go% Delete) [.bytes json] path (.ok [.bytes json, .err e]) ∧
    Call fl (go% Add) [.bytes json, optBytes v] path (.ok [.bytes json, .err e]) ∧
    Call fl (go% AddString) [.bytes json, .bytes w] path (.ok [.bytes json, .err e]) ∧
    Call fl (go% AddInt) [.bytes json, .int n] path (.ok [.bytes json, .err e]) ∧
    Call fl (go% AddFloat) [.bytes json, .float x] path (.ok [.bytes json, .err e]) ∧
    Call fl (go% AddBool) [.bytes json, .bool b] path (.ok [.bytes json, .err e]) ∧
    Call fl (go% AddKeyValue) [.bytes json, .bytes key, optBytes v] path (.ok [.bytes json, .err e]) ∧
    Call fl (go% Insert) [.bytes json, .int i, optBytes v] path (.ok [.bytes json, .err e]) := by
  obtain ⟨h1, -, h3, h4, h5, h6, h7, -, h9, h10, h11, h12, h13, h14⟩ :=
    C141_writers fl (fun s => (fl.parse s).isSome) hp (get_of_text h) (v.getD []) key b n i x
  obtain ⟨-, h2, -, -, -, -, -, h8, -⟩ := C141_writers fl (fun s => (fl.parse s).isSome) hp (get_of_text h) w key b n i x
  have t1 := text_Set (fl := fl) (json := json) (path := path) v
  have t2 := text_SetString (fl := fl) (json := json) (path := path) w
  have t3 := text_SetInt (fl := fl) (json := json) (path := path) n
  have t4 := text_SetFloat (fl := fl) (json := json) (path := path) x
  have t5 := text_SetBool (fl := fl) (json := json) (path := path) b
  have t6 := text_Delete (fl := fl) (json := json) (path := path)
  have t7 := text_Add (fl := fl) (json := json) (path := path) v
  have t8 := text_AddString (fl := fl) (json := json) (path := path) w
  have t9 := text_AddInt (fl := fl) (json := json) (path := path) n
  have t10 := text_AddFloat (fl := fl) (json := json) (path := path) x
  have t11 := text_AddBool (fl := fl) (json := json) (path := path) b
  have t12 := text_AddKeyValue (fl := fl) (json := json) (path := path) key v
  have t14 := text_Insert (fl := fl) (json := json) (path := path) i v
  have hkv : AddKeyValue json key v path = .done json (some e) := by
    cases v with
    | none => exact h12
    | some v => exact h13
  rw [h1] at t1; rw [h2] at t2; rw [h3] at t3; rw [h4] at t4; rw [h5] at t5; rw [h6] at t6; rw [h7] at t7; rw [h8] at t8; rw [h9] at t9
  rw [h10] at t10; rw [h11] at t11; rw [hkv] at t12; rw [h14] at t14
  exact ⟨t1, t2, t3, t4, t5, t6, t7, t8, t9, t10, t11, t12, t14⟩

/-- **C141** So do the typed forms that test the key or the index first. -/
theorem C141_text_guarded (hp : path ≠ []) (h : Call fl (go% Get) [.bytes json] path (.ok [.nil, .err e])) (w key : Bytes) (b : Bool)
    (n i : Int) (x : UInt64) (hk : key ≠ []) (hi : 0 ≤ i) :
    Call fl (go% AddKeyValueString) [.bytes json, .bytes key, .bytes w] path (.ok [.bytes json, .err e]) ∧
    Call fl (go% AddKeyValueInt) [.bytes json, .bytes key, .int n] path (.ok [.bytes json, .err e]) ∧
    Call fl (go% AddKeyValueFloat) [.bytes json, .bytes key, .float x] path (.ok [.bytes json, .err e]) ∧
    Call fl (go% AddKeyValueBool) [.bytes json, .bytes key, .bool b] path (.ok [.bytes json, .err e]) ∧
    Call fl (go% InsertString) [.bytes json, .int i, .bytes w] path (.ok [.bytes json, .err e]) ∧
    Call fl (go% InsertInt) [.bytes json, .int i, .int n] path (.ok [.bytes json, .err e]) ∧
    Call fl (go% InsertFloat) [.bytes json, .int i, .float x] path (.ok [.bytes json, .err e]) ∧
    Call fl (go% InsertBool) [.bytes json, .int i, .bool b] path (.ok [.bytes json, .err e]) := by
  obtain ⟨h1, h2, h3, h4, h5, h6, h7, h8⟩ := C141_guarded fl (fun s => (fl.parse s).isSome) hp (get_of_text h) w key b n i x hk hi
  have t1 := text_AddKeyValueString (fl := fl) (json := json) (path := path) key w
  have t2 := text_AddKeyValueInt (fl := fl) (json := json) (path := path) key n
  have t3 := text_AddKeyValueFloat (fl := fl) (json := json) (path := path) key x
  have t4 := text_AddKeyValueBool (fl := fl) (json := json) (path := path) key b
  have t5 := text_InsertString (fl := fl) (json := json) (path := path) i w
  have t6 := text_InsertInt (fl := fl) (json := json) (path := path) i n
  have t7 := text_InsertFloat (fl := fl) (json := json) (path := path) i x
  have t8 := text_InsertBool (fl := fl) (json := json) (path := path) i b
  have hk' : (key.length == 0) = false := by simpa using hk
  rw [hk', h1] at t1; rw [h2] at t2; rw [h3] at t3; rw [h4] at t4; rw [if_neg (by omega), h5] at t5
  rw [h6] at t6; rw [h7] at t7; rw [h8] at t8
  exact ⟨t1, t2, t3, t4, t5, t6, t7, t8⟩

/-- **C141** A longer path is refused where the shorter one is, by `Get` and by the functions that make a longer path themselves. -/
theorem C141_text_longer (hp : path ≠ []) (h : Call fl (go% Get) [.bytes json] path (.ok [.nil, .err e])) (hl : e.lost = true)
    (q keys : List Bytes) (key newKey : Bytes) (hk : newKey ≠ []) (v : Option Bytes) :
    Call fl (go% Get) [.bytes json] (path ++ q) (.ok [.nil, .err e]) ∧
    Call fl (go% Store) [.bytes json, .bytes key, optBytes v] path (.ok [.bytes json, .err e]) ∧
    Call fl (go% GetAll) [.bytes json, .strs (key :: keys)] path (.ok [.nil, .err e]) ∧
    Call fl (go% GetAllMap) [.bytes json, .strs (key :: keys)] path (.ok [.nil, .err e]) ∧
    Call fl (go% SetKey) [.bytes json, .bytes newKey] (path ++ [key]) (.ok [.bytes json, .err e]) := by
  have hg := get_of_text h
  obtain ⟨h2, h3, h4⟩ := C141_below hp hg hl key keys v
  have t1 := text_Get (fl := fl) (json := json) (path := path ++ q)
  have t2 := text_Store (fl := fl) (json := json) (path := path) key v
  have t3 := text_GetAll (fl := fl) (json := json) (path := path) (key :: keys)
  have t4 := text_GetAllMap (fl := fl) json path (key :: keys)
  have t5 := text_SetKey (fl := fl) (json := json) (path := path ++ [key]) newKey
  rw [C141_longer hp hg hl q] at t1; rw [h2] at t2; rw [h3] at t3; rw [h4] at t4; rw [C141_setKey hp hg hl key newKey hk] at t5
  exact ⟨t1, t2, t3, t4, t5⟩

/-- **C141** The type functions. -/
theorem C141_text_types (hp : path ≠ []) (h : Call fl (go% Get) [.bytes json] path (.ok [.nil, .err e])) (hl : e.lost = true) :
    Call fl (go% IsObject) [.bytes json] path (.ok [.bool false, .err e]) ∧ Call fl (go% IsArray) [.bytes json] path (.ok [.bool false, .err e]) ∧
    Call fl (go% IsValue) [.bytes json] path (.ok [.bool false, .err e]) ∧ Call fl (go% GetType) [.bytes json] path (.ok [.bytes [], .err e]) := by
  obtain ⟨h1, h2, h3, h4⟩ := C141_types (fun s => (fl.parse s).isSome) hp (get_of_text h) hl
  have t1 := text_IsObject (fl := fl) (json := json) (path := path)
  have t2 := text_IsArray (fl := fl) (json := json) (path := path)
  have t3 := text_IsValue (fl := fl) (json := json) (path := path)
  have t4 := text_GetType (fl := fl) (json := json) (path := path)
  rw [h1] at t1; rw [h2] at t2; rw [h3] at t3; rw [h4] at t4
  exact ⟨t1, t2, t3, t4⟩

/-- **C141 (partial)** The readers of containers; missing: texts of two bytes, where they do not look at the path (`C141_text_fails`). -/
theorem C141_text_containers_partial {σ : Type} (cb : σ → Bytes → Cb σ) (ck : σ → Bytes → Bytes → Cb σ) (u : σ) (hp : path ≠ [])
    (h : Call fl (go% Get) [.bytes json] path (.ok [.nil, .err e])) (hl : e.lost = true) (h2 : json.length ≠ 2) :
    Call fl (go% Length) [.bytes json] path (.ok [.int (-1), .err e]) ∧ Call fl (go% GetMap) [.bytes json] path (.ok [.nil, .err e]) ∧
    Call fl (go% GetKeys) [.bytes json] path (.ok [.nil, .err e]) ∧ Call fl (go% GetValues) [.bytes json] path (.ok [.nil, .err e]) ∧
    Call fl (go% GetKeysValues) [.bytes json] path (.ok [.nil, .nil, .err e]) ∧
    CallCb fl (cb1 cb) (go% IterateArray) ([.bytes json, .nil] ++ path.map .bytes) u (.ok (u, [.err e])) ∧
    CallCb fl (cb2 ck) (go% IterateKeyValue) ([.bytes json, .nil] ++ path.map .bytes) u (.ok (u, [.err e])) := by
  have n1 : json ≠ str "[]" := fun h => h2 (by rw [h]; decide +kernel)
  have n2 : json ≠ str "{}" := fun h => h2 (by rw [h]; decide +kernel)
  obtain ⟨h1, h2'⟩ := C141_length_partial hp (get_of_text h) n1 n2
  obtain ⟨h3, h4, h5, h7⟩ := C141_members_partial ck u hp (get_of_text h) hl n2
  have h6 := C141_elements_partial cb u hp (get_of_text h) hl h2
  have t1 := text_Length (fl := fl) (json := json) (path := path)
  have t2 := text_GetMap (fl := fl) json path
  have t3 := text_GetKeys (fl := fl) (json := json) (path := path)
  have t4 := text_GetValues (fl := fl) (json := json) (path := path)
  have t5 := text_GetKeysValues (fl := fl) (json := json) (path := path)
  have t6 := text_IterateArray (fl := fl) json path cb u
  have t7 := text_IterateKeyValue (fl := fl) json path ck u
  rw [h1] at t1; rw [h2'] at t2; rw [h3] at t3; rw [h4] at t4; rw [h5] at t5; rw [h6] at t6; rw [h7] at t7
  exact ⟨t1, t2, t3, t4, t5, t6, t7⟩

end

/-- **C141** The failures of C141, for the text. -/
theorem C141_text_fails (fl : FloatLib UInt64) :
    Call fl (go% Get) [.bytes (str "{}")] [str "a"] (.ok [.nil, .err (.keyNotFound (str "a"))]) ∧
    Call fl (go% Length) [.bytes (str "{}")] [str "a"] (.ok [.int 0, .nil]) ∧
    Call fl (go% GetKeys) [.bytes (str "{}")] [str "a"] (.ok [.nil, .err .empty]) ∧
    Call fl (go% Get) [.bytes (str "{\"a\":[1")] [str "a"] (.ok [.nil, .err (.badJSON 5)]) ∧
    Call fl (go% IsArray) [.bytes (str "{\"a\":[1")] [str "a"] (.ok [.bool true, .nil]) := by
  obtain ⟨h1, h2, -, h4, -, -, -, h8, h9⟩ := C141_fails
  have t1 := text_Get (fl := fl) (json := str "{}") (path := [str "a"])
  have t2 := text_Length (fl := fl) (json := str "{}") (path := [str "a"])
  have t4 := text_GetKeys (fl := fl) (json := str "{}") (path := [str "a"])
  have t8 := text_Get (fl := fl) (json := str "{\"a\":[1") (path := [str "a"])
  have t9 := text_IsArray (fl := fl) (json := str "{\"a\":[1") (path := [str "a"])
  rw [h1] at t1; rw [h2] at t2; rw [h4] at t4; rw [h8] at t8; rw [h9] at t9
  exact ⟨t1, t2, t4, t8, t9⟩

/-- A key that is missing in the middle of a path. -/
example (fl : FloatLib UInt64) : Call fl (go% Get) [.bytes (str "{\"a\":{\"b\":1}} x")] [str "a", str "c", str "d"] (.ok [.nil, .err (.keyNotFound (str "c"))]) := by
  have h : Get (str "{\"a\":{\"b\":1}} x") [str "a", str "c"] = .err (.keyNotFound (str "c")) := by decide +kernel
  have t := text_Get (fl := fl) (json := str "{\"a\":{\"b\":1}} x") (path := [str "a", str "c"])
  rw [h] at t
  exact (C141_text_longer (by simp) t rfl [str "d"] [] [] (str "k") (by decide +kernel) none).1

end Jin.Go
