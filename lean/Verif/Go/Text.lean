import Verif.Go.Make
/-!
# Go.Text — calls of the functions in the text

`Call fl f args path r`: the call `f(args…, path…)` ends with `r`, given enough rounds for its loops and enough depth for its
calls; the path may be one slice or written out.  `Call1` is a call without a path.
-/

namespace Jin.Go

theorem strings_map (l : List Bytes) : strings (l.map .bytes) = .ok l := by
  induction l with
  | nil => rfl
  | cons a l ih => simp [strings, ih, R.bind]

theorem bindParams_path (ps : List Id) (x : Id) (args : List Val) (path : List Bytes) (h : ps.length = args.length) :
    bindParams true false (ps ++ [x]) (args ++ path.map .bytes) = bindParams true true (ps ++ [x]) (args ++ [.strs path]) := by
  induction ps generalizing args with
  | nil =>
    cases args with
    | nil => simp [bindParams, strings_map, R.bind]
    | cons a b => simp at h
  | cons p ps ih =>
    cases args with
    | nil => simp at h
    | cons a args =>
      have := ih args (by simpa using h)
      cases ps <;> simp_all [bindParams]

/-- `f(args…, path…)` ends with `r`. -/
def Call (fl : FloatLib UInt64) (f : Id) (args : List Val) (path : List Bytes) (r : R (List Val)) : Prop :=
  ∃ N, ∀ fuel depth, N ≤ fuel → N ≤ depth →
    (jin fl).fn fuel depth f true (args ++ [.strs path]) = r ∧ (jin fl).fn fuel depth f false (args ++ path.map .bytes) = r

/-- `f(args…)` ends with `r`. -/
def Call1 (fl : FloatLib UInt64) (f : Id) (args : List Val) (r : R (List Val)) : Prop :=
  ∃ N, ∀ fuel depth, N ≤ fuel → N ≤ depth → (jin fl).fn fuel depth f false args = r

theorem Call.unique {fl : FloatLib UInt64} {f : Id} {args : List Val} {path : List Bytes} {r s : R (List Val)}
    (h : Call fl f args path r) (h' : Call fl f args path s) : r = s := by
  obtain ⟨N, h⟩ := h
  obtain ⟨M, h'⟩ := h'
  rw [← (h (max N M) (max N M) (Nat.le_max_left ..) (Nat.le_max_left ..)).1,
    (h' (max N M) (max N M) (Nat.le_max_right ..) (Nat.le_max_right ..)).1]

theorem Call1.unique {fl : FloatLib UInt64} {f : Id} {args : List Val} {r s : R (List Val)}
    (h : Call1 fl f args r) (h' : Call1 fl f args s) : r = s := by
  obtain ⟨N, h⟩ := h
  obtain ⟨M, h'⟩ := h'
  rw [← h (max N M) (max N M) (Nat.le_max_left ..) (Nat.le_max_left ..),
    h' (max N M) (max N M) (Nat.le_max_right ..) (Nat.le_max_right ..)]

theorem Call.of {fl : FloatLib UInt64} {f : Id} {g : Func} {args : List Val} {path : List Bytes} {r : R (List Val)} {ps : List Id} {x : Id}
    (hg : (jin fl).funcs.find? (fun g => g.name == f) = some g) (hv : g.variadic = true) (hp : g.params = ps ++ [x])
    (hl : ps.length = args.length) (N k : Nat)
    (h : ∀ fuel d, N < fuel → (jin fl).fn fuel (d + (k + 1)) f true (args ++ [.strs path]) = r) : Call fl f args path r := by
  refine ⟨N + k + 2, fun fuel depth hf hd => ?_⟩
  obtain ⟨d, rfl⟩ : ∃ d, depth = d + (k + 1) := ⟨depth - (k + 1), by omega⟩
  have h1 := h fuel d (by omega)
  refine ⟨h1, ?_⟩
  rw [← h1, ← Nat.add_assoc, fn_run hg, fn_run hg, Func.run, Func.run, hv, hp, bindParams_path ps x args path hl]

theorem Call1.of {fl : FloatLib UInt64} {f : Id} {args : List Val} {r : R (List Val)} (N k : Nat)
    (h : ∀ fuel d, N < fuel → (jin fl).fn fuel (d + k) f false args = r) : Call1 fl f args r := by
  refine ⟨N + k + 1, fun fuel depth hf hd => ?_⟩
  obtain ⟨d, rfl⟩ : ∃ d, depth = d + k := ⟨depth - k, by omega⟩
  exact h fuel d (by omega)

theorem le_sum_mem {l : List Nat} {n : Nat} (h : n ∈ l) : n ≤ l.sum := by
  induction l with
  | nil => cases h
  | cons a l ih =>
    rcases List.mem_cons.1 h with rfl | h
    · simp
    · have := ih h
      simp; omega

section
variable (fl : FloatLib UInt64) (json : Bytes) (path : List Bytes)

theorem text_Get :
    Call fl (go% Get) [.bytes json] path (oneVal .bytes .nil (Get json path)) :=
  Call.of (g := Src.Get) (ps := [_]) rfl rfl rfl rfl (need json path) 2 fun _ _ h => run_Get (by omega)

theorem text_GetString :
    Call fl (go% GetString) [.bytes json] path (oneVal .bytes (.bytes []) (GetString json path)) :=
  Call.of (g := Src.GetString) (ps := [_]) rfl rfl rfl rfl (need json path) 3 fun _ _ h => run_GetString (by omega)

theorem text_GetInt :
    Call fl (go% GetInt) [.bytes json] path (oneVal .int (.int (-1)) (GetInt json path)) :=
  Call.of (g := Src.GetInt) (ps := [_]) rfl rfl rfl rfl (need json path) 4 fun _ _ h => run_GetInt (by omega)

theorem text_GetFloat :
    Call fl (go% GetFloat) [.bytes json] path (oneVal .float (.int (-1)) (GetFloat fl json path)) :=
  Call.of (g := Src.GetFloat) (ps := [_]) rfl rfl rfl rfl (need json path) 4 fun _ _ h => run_GetFloat (by omega)

theorem text_GetBool :
    Call fl (go% GetBool) [.bytes json] path (oneVal .bool (.bool false) (GetBool json path)) :=
  Call.of (g := Src.GetBool) (ps := [_]) rfl rfl rfl rfl (need json path) 4 fun _ _ h => run_GetBool (by omega)

theorem text_Set (v : Option Bytes) :
    Call fl (go% Set) [.bytes json, optBytes v] path (mutVals (Set json (v.getD []) path)) :=
  Call.of (g := Src.Set) (ps := [_, _]) rfl rfl rfl rfl (need json path) 2 fun _ _ h => run_Set' (by omega) v

theorem text_Delete :
    Call fl (go% Delete) [.bytes json] path (mutVals (Delete json path)) :=
  Call.of (g := Src.Delete) (ps := [_]) rfl rfl rfl rfl (need json path) 2 fun _ _ h => run_Delete (by omega)

theorem text_SetString (v : Bytes) :
    Call fl (go% SetString) [.bytes json, .bytes v] path (mutVals (SetString (fun s => (fl.parse s).isSome) json v path)) :=
  Call.of (g := Src.SetString) (ps := [_, _]) rfl rfl rfl rfl (need json path) 3 fun _ _ h => run_SetString (by omega) v

theorem text_SetInt (n : Int) :
    Call fl (go% SetInt) [.bytes json, .int n] path (mutVals (SetInt json n path)) :=
  Call.of (g := Src.SetInt) (ps := [_, _]) rfl rfl rfl rfl (need json path) 3 fun _ _ h => run_SetInt (by omega) n

theorem text_SetFloat (x : UInt64) :
    Call fl (go% SetFloat) [.bytes json, .float x] path (mutVals (SetFloat fl json x path)) :=
  Call.of (g := Src.SetFloat) (ps := [_, _]) rfl rfl rfl rfl (need json path) 3 fun _ _ h => run_SetFloat (by omega) x

theorem text_SetBool (b : Bool) :
    Call fl (go% SetBool) [.bytes json, .bool b] path (mutVals (SetBool json b path)) :=
  Call.of (g := Src.SetBool) (ps := [_, _]) rfl rfl rfl rfl (need json path) 3 fun _ _ h => run_SetBool (by omega) b

theorem text_SetKey (newKey : Bytes) :
    Call fl (go% SetKey) [.bytes json, .bytes newKey] path (mutVals (SetKey json newKey path)) :=
  Call.of (g := Src.SetKey) (ps := [_, _]) rfl rfl rfl rfl (need json path + need json (path.dropLast ++ [newKey])) 2 fun _ _ h => run_SetKey (by omega) newKey (by omega)

theorem text_Add (v : Option Bytes) :
    Call fl (go% Add) [.bytes json, optBytes v] path (mutVals (Add json (v.getD []) path)) :=
  Call.of (g := Src.Add) (ps := [_, _]) rfl rfl rfl rfl (need json path) 2 fun _ _ h => run_Add' (by omega) v

theorem text_AddKeyValue (key : Bytes) (v : Option Bytes) :
    Call fl (go% AddKeyValue) [.bytes json, .bytes key, optBytes v] path (mutVals (AddKeyValue json key v path)) :=
  Call.of (g := Src.AddKeyValue) (ps := [_, _, _]) rfl rfl rfl rfl (need json path + need json (path ++ [key])) 3 fun _ _ h => run_AddKeyValue' (by omega) key v (by omega)

theorem text_Insert (index : Int) (v : Option Bytes) :
    Call fl (go% Insert) [.bytes json, .int index, optBytes v] path (mutVals (Insert json index (v.getD []) path)) :=
  Call.of (g := Src.Insert) (ps := [_, _, _]) rfl rfl rfl rfl (need json path + need json (path ++ [itoa index])) 2 fun _ _ h => run_Insert' (by omega) index v (by omega)

theorem text_Store (key : Bytes) (v : Option Bytes) :
    Call fl (go% Store) [.bytes json, .bytes key, optBytes v] path (mutVals (Store json key v path)) :=
  Call.of (g := Src.Store) (ps := [_, _, _]) rfl rfl rfl rfl (need json path + need json (path ++ [key])) 4 fun _ _ h => run_Store' (by omega) key v (by omega)

theorem text_StoreString (key : Bytes) (v : Bytes) :
    Call fl (go% StoreString) [.bytes json, .bytes key, .bytes v] path (mutVals (StoreString (fun s => (fl.parse s).isSome) json key v path)) :=
  Call.of (g := Src.StoreString) (ps := [_, _, _]) rfl rfl rfl rfl (need json path + need json (path ++ [key])) 5 fun _ _ h => run_StoreString (by omega) key v (by omega)

theorem text_StoreInt (key : Bytes) (n : Int) :
    Call fl (go% StoreInt) [.bytes json, .bytes key, .int n] path (mutVals (StoreInt json key n path)) :=
  Call.of (g := Src.StoreInt) (ps := [_, _, _]) rfl rfl rfl rfl (need json path + need json (path ++ [key])) 5 fun _ _ h => run_StoreInt (by omega) key n (by omega)

theorem text_StoreFloat (key : Bytes) (x : UInt64) :
    Call fl (go% StoreFloat) [.bytes json, .bytes key, .float x] path (mutVals (StoreFloat fl json key x path)) :=
  Call.of (g := Src.StoreFloat) (ps := [_, _, _]) rfl rfl rfl rfl (need json path + need json (path ++ [key])) 5 fun _ _ h => run_StoreFloat (by omega) key x (by omega)

theorem text_StoreBool (key : Bytes) (b : Bool) :
    Call fl (go% StoreBool) [.bytes json, .bytes key, .bool b] path (mutVals (StoreBool json key b path)) :=
  Call.of (g := Src.StoreBool) (ps := [_, _, _]) rfl rfl rfl rfl (need json path + need json (path ++ [key])) 5 fun _ _ h => run_StoreBool (by omega) key b (by omega)

theorem text_AddKeyValueString (key : Bytes) (v : Bytes) :
    Call fl (go% AddKeyValueString) [.bytes json, .bytes key, .bytes v] path (if key.length == 0 then .ok [.nil, .err .nullKey] else mutVals (AddKeyValueString (fun s => (fl.parse s).isSome) json key v path)) :=
  Call.of (g := Src.AddKeyValueString) (ps := [_, _, _]) rfl rfl rfl rfl (need json path + need json (path ++ [key])) 4 fun _ _ h => run_AddKeyValueString (by omega) key v (by omega)

theorem text_AddKeyValueInt (key : Bytes) (n : Int) :
    Call fl (go% AddKeyValueInt) [.bytes json, .bytes key, .int n] path (mutVals (AddKeyValueInt json key n path)) :=
  Call.of (g := Src.AddKeyValueInt) (ps := [_, _, _]) rfl rfl rfl rfl (need json path + need json (path ++ [key])) 4 fun _ _ h => run_AddKeyValueInt (by omega) key n (by omega)

theorem text_AddKeyValueInt32 (key : Bytes) (n : Int) :
    Call fl (go% AddKeyValueInt32) [.bytes json, .bytes key, .int n] path (mutVals (AddKeyValueInt32 json key n path)) :=
  Call.of (g := Src.AddKeyValueInt32) (ps := [_, _, _]) rfl rfl rfl rfl (need json path + need json (path ++ [key])) 4 fun _ _ h => run_AddKeyValueInt32 (by omega) key n (by omega)

theorem text_AddKeyValueInt64 (key : Bytes) (n : Int) :
    Call fl (go% AddKeyValueInt64) [.bytes json, .bytes key, .int n] path (mutVals (AddKeyValueInt64 json key n path)) :=
  Call.of (g := Src.AddKeyValueInt64) (ps := [_, _, _]) rfl rfl rfl rfl (need json path + need json (path ++ [key])) 4 fun _ _ h => run_AddKeyValueInt64 (by omega) key n (by omega)

theorem text_AddKeyValueUint (key : Bytes) (n : Nat) :
    Call fl (go% AddKeyValueUint) [.bytes json, .bytes key, .int n] path (mutVals (AddKeyValueUint json key n path)) :=
  Call.of (g := Src.AddKeyValueUint) (ps := [_, _, _]) rfl rfl rfl rfl (need json path + need json (path ++ [key])) 4 fun _ _ h => run_AddKeyValueUint (by omega) key n (by omega)

theorem text_AddKeyValueUint32 (key : Bytes) (n : Nat) :
    Call fl (go% AddKeyValueUint32) [.bytes json, .bytes key, .int n] path (mutVals (AddKeyValueUint32 json key n path)) :=
  Call.of (g := Src.AddKeyValueUint32) (ps := [_, _, _]) rfl rfl rfl rfl (need json path + need json (path ++ [key])) 4 fun _ _ h => run_AddKeyValueUint32 (by omega) key n (by omega)

theorem text_AddKeyValueUint64 (key : Bytes) (n : Nat) :
    Call fl (go% AddKeyValueUint64) [.bytes json, .bytes key, .int n] path (mutVals (AddKeyValueUint64 json key n path)) :=
  Call.of (g := Src.AddKeyValueUint64) (ps := [_, _, _]) rfl rfl rfl rfl (need json path + need json (path ++ [key])) 4 fun _ _ h => run_AddKeyValueUint64 (by omega) key n (by omega)

theorem text_AddKeyValueFloat (key : Bytes) (x : UInt64) :
    Call fl (go% AddKeyValueFloat) [.bytes json, .bytes key, .float x] path (mutVals (AddKeyValueFloat fl json key x path)) :=
  Call.of (g := Src.AddKeyValueFloat) (ps := [_, _, _]) rfl rfl rfl rfl (need json path + need json (path ++ [key])) 4 fun _ _ h => run_AddKeyValueFloat (by omega) key x (by omega)

theorem text_AddKeyValueBool (key : Bytes) (b : Bool) :
    Call fl (go% AddKeyValueBool) [.bytes json, .bytes key, .bool b] path (mutVals (AddKeyValueBool json key b path)) :=
  Call.of (g := Src.AddKeyValueBool) (ps := [_, _, _]) rfl rfl rfl rfl (need json path + need json (path ++ [key])) 4 fun _ _ h => run_AddKeyValueBool (by omega) key b (by omega)

theorem text_AddString (v : Bytes) :
    Call fl (go% AddString) [.bytes json, .bytes v] path (mutVals (AddString (fun s => (fl.parse s).isSome) json v path)) :=
  Call.of (g := Src.AddString) (ps := [_, _]) rfl rfl rfl rfl (need json path) 3 fun _ _ h => run_AddString (by omega) v

theorem text_AddInt (n : Int) :
    Call fl (go% AddInt) [.bytes json, .int n] path (mutVals (AddInt json n path)) :=
  Call.of (g := Src.AddInt) (ps := [_, _]) rfl rfl rfl rfl (need json path) 3 fun _ _ h => run_AddInt (by omega) n

theorem text_AddInt32 (n : Int) :
    Call fl (go% AddInt32) [.bytes json, .int n] path (mutVals (AddInt32 json n path)) :=
  Call.of (g := Src.AddInt32) (ps := [_, _]) rfl rfl rfl rfl (need json path) 3 fun _ _ h => run_AddInt32 (by omega) n

theorem text_AddInt64 (n : Int) :
    Call fl (go% AddInt64) [.bytes json, .int n] path (mutVals (AddInt64 json n path)) :=
  Call.of (g := Src.AddInt64) (ps := [_, _]) rfl rfl rfl rfl (need json path) 3 fun _ _ h => run_AddInt64 (by omega) n

theorem text_AddUint (n : Nat) :
    Call fl (go% AddUint) [.bytes json, .int n] path (mutVals (AddUint json n path)) :=
  Call.of (g := Src.AddUint) (ps := [_, _]) rfl rfl rfl rfl (need json path) 3 fun _ _ h => run_AddUint (by omega) n

theorem text_AddUint32 (n : Nat) :
    Call fl (go% AddUint32) [.bytes json, .int n] path (mutVals (AddUint32 json n path)) :=
  Call.of (g := Src.AddUint32) (ps := [_, _]) rfl rfl rfl rfl (need json path) 3 fun _ _ h => run_AddUint32 (by omega) n

theorem text_AddUint64 (n : Nat) :
    Call fl (go% AddUint64) [.bytes json, .int n] path (mutVals (AddUint64 json n path)) :=
  Call.of (g := Src.AddUint64) (ps := [_, _]) rfl rfl rfl rfl (need json path) 3 fun _ _ h => run_AddUint64 (by omega) n

theorem text_AddFloat (x : UInt64) :
    Call fl (go% AddFloat) [.bytes json, .float x] path (mutVals (AddFloat fl json x path)) :=
  Call.of (g := Src.AddFloat) (ps := [_, _]) rfl rfl rfl rfl (need json path) 3 fun _ _ h => run_AddFloat (by omega) x

theorem text_AddBool (b : Bool) :
    Call fl (go% AddBool) [.bytes json, .bool b] path (mutVals (AddBool json b path)) :=
  Call.of (g := Src.AddBool) (ps := [_, _]) rfl rfl rfl rfl (need json path) 3 fun _ _ h => run_AddBool (by omega) b

theorem text_InsertString (index : Int) (v : Bytes) :
    Call fl (go% InsertString) [.bytes json, .int index, .bytes v] path (if index < 0 then .ok [.nil, .err .indexOutOfRange] else mutVals (InsertString (fun s => (fl.parse s).isSome) json index v path)) :=
  Call.of (g := Src.InsertString) (ps := [_, _, _]) rfl rfl rfl rfl (need json path + need json (path ++ [itoa index])) 3 fun _ _ h => run_InsertString (by omega) index v (by omega)

theorem text_InsertInt (index : Int) (n : Int) :
    Call fl (go% InsertInt) [.bytes json, .int index, .int n] path (mutVals (InsertInt json index n path)) :=
  Call.of (g := Src.InsertInt) (ps := [_, _, _]) rfl rfl rfl rfl (need json path + need json (path ++ [itoa index])) 3 fun _ _ h => run_InsertInt (by omega) index n (by omega)

theorem text_InsertInt32 (index : Int) (n : Int) :
    Call fl (go% InsertInt32) [.bytes json, .int index, .int n] path (mutVals (InsertInt32 json index n path)) :=
  Call.of (g := Src.InsertInt32) (ps := [_, _, _]) rfl rfl rfl rfl (need json path + need json (path ++ [itoa index])) 3 fun _ _ h => run_InsertInt32 (by omega) index n (by omega)

theorem text_InsertInt64 (index : Int) (n : Int) :
    Call fl (go% InsertInt64) [.bytes json, .int index, .int n] path (mutVals (InsertInt64 json index n path)) :=
  Call.of (g := Src.InsertInt64) (ps := [_, _, _]) rfl rfl rfl rfl (need json path + need json (path ++ [itoa index])) 3 fun _ _ h => run_InsertInt64 (by omega) index n (by omega)

theorem text_InsertUint (index : Int) (n : Nat) :
    Call fl (go% InsertUint) [.bytes json, .int index, .int n] path (mutVals (InsertUint json index n path)) :=
  Call.of (g := Src.InsertUint) (ps := [_, _, _]) rfl rfl rfl rfl (need json path + need json (path ++ [itoa index])) 3 fun _ _ h => run_InsertUint (by omega) index n (by omega)

theorem text_InsertUint32 (index : Int) (n : Nat) :
    Call fl (go% InsertUint32) [.bytes json, .int index, .int n] path (mutVals (InsertUint32 json index n path)) :=
  Call.of (g := Src.InsertUint32) (ps := [_, _, _]) rfl rfl rfl rfl (need json path + need json (path ++ [itoa index])) 3 fun _ _ h => run_InsertUint32 (by omega) index n (by omega)

theorem text_InsertUint64 (index : Int) (n : Nat) :
    Call fl (go% InsertUint64) [.bytes json, .int index, .int n] path (mutVals (InsertUint64 json index n path)) :=
  Call.of (g := Src.InsertUint64) (ps := [_, _, _]) rfl rfl rfl rfl (need json path + need json (path ++ [itoa index])) 3 fun _ _ h => run_InsertUint64 (by omega) index n (by omega)

theorem text_InsertFloat (index : Int) (x : UInt64) :
    Call fl (go% InsertFloat) [.bytes json, .int index, .float x] path (mutVals (InsertFloat fl json index x path)) :=
  Call.of (g := Src.InsertFloat) (ps := [_, _, _]) rfl rfl rfl rfl (need json path + need json (path ++ [itoa index])) 3 fun _ _ h => run_InsertFloat (by omega) index x (by omega)

theorem text_InsertBool (index : Int) (b : Bool) :
    Call fl (go% InsertBool) [.bytes json, .int index, .bool b] path (mutVals (InsertBool json index b path)) :=
  Call.of (g := Src.InsertBool) (ps := [_, _, _]) rfl rfl rfl rfl (need json path + need json (path ++ [itoa index])) 3 fun _ _ h => run_InsertBool (by omega) index b (by omega)

theorem text_IsObject :
    Call fl (go% IsObject) [.bytes json] path (oneVal .bool (.bool false) (IsObject json path)) :=
  Call.of (g := Src.IsObject) (ps := [_]) rfl rfl rfl rfl (need json path) 3 fun _ _ h => run_IsObject (by omega)

theorem text_IsArray :
    Call fl (go% IsArray) [.bytes json] path (oneVal .bool (.bool false) (IsArray json path)) :=
  Call.of (g := Src.IsArray) (ps := [_]) rfl rfl rfl rfl (need json path) 3 fun _ _ h => run_IsArray (by omega)

theorem text_IsValue :
    Call fl (go% IsValue) [.bytes json] path (oneVal .bool (.bool false) (IsValue json path)) :=
  Call.of (g := Src.IsValue) (ps := [_]) rfl rfl rfl rfl (need json path) 3 fun _ _ h => run_IsValue (by omega)

theorem text_GetType :
    Call fl (go% GetType) [.bytes json] path (oneVal (fun t => .bytes (typeName t)) (.bytes []) (GetType (fun s => (fl.parse s).isSome) json path)) :=
  Call.of (g := Src.GetType) (ps := [_]) rfl rfl rfl rfl (need json path) 4 fun _ _ h => run_GetType (by omega)

theorem text_IsEmpty :
    Call fl (go% IsEmpty) [.bytes json] path (oneVal .bool (.bool false) (IsEmpty json path)) :=
  Call.of (g := Src.IsEmpty) (ps := [_]) rfl rfl rfl rfl (need json path) 2 fun _ _ h => run_IsEmpty (by omega)

theorem text_ParseArray (arr : Bytes) :
    Call1 fl (go% ParseArray) [.bytes arr] (optStrs (ParseArray arr)) :=
  Call1.of (arr.length) 3 fun _ _ h => run_ParseArray arr h

theorem text_GetIntArray :
    Call fl (go% GetIntArray) [.bytes json] path (oneVal .ints .nil (GetIntArray json path)) :=
  Call.of (g := Src.GetIntArray) (ps := [_]) rfl rfl rfl rfl (need json path) 4 fun _ _ h => run_GetIntArray (by omega)

theorem text_GetFloatArray :
    Call fl (go% GetFloatArray) [.bytes json] path (oneVal .floats .nil (GetFloatArray fl json path)) :=
  Call.of (g := Src.GetFloatArray) (ps := [_]) rfl rfl rfl rfl (need json path) 4 fun _ _ h => run_GetFloatArray (by omega)

theorem text_GetBoolArray :
    Call fl (go% GetBoolArray) [.bytes json] path (oneVal .bools .nil (GetBoolArray json path)) :=
  Call.of (g := Src.GetBoolArray) (ps := [_]) rfl rfl rfl rfl (need json path) 4 fun _ _ h => run_GetBoolArray (by omega)

theorem text_GetStringArray :
    Call fl (go% GetStringArray) [.bytes json] path (oneVal .strs .nil (GetStringArray json path)) :=
  Call.of (g := Src.GetStringArray) (ps := [_]) rfl rfl rfl rfl (need json path) 4 fun _ _ h => run_GetStringArray (by omega)

theorem text_Flatten :
    Call1 fl (go% Flatten) [.bytes json] (.ok [.bytes (Flatten json)]) :=
  Call1.of (json.length) 2 fun _ _ h => run_Flatten  h

theorem text_Indent :
    Call1 fl (go% Indent) [.bytes json] (justVal .bytes (Indent json)) :=
  Call1.of (json.length) 3 fun _ _ h => run_Indent  h

theorem text_Length :
    Call fl (go% Length) [.bytes json] path (oneVal (fun n : Nat => .int n) (.int (-1)) (Length json path)) :=
  Call.of (g := Src.Length) (ps := [_]) rfl rfl rfl rfl (need json path) 3 fun _ _ h => run_Length (by omega)

theorem text_GetKeys :
    Call fl (go% GetKeys) [.bytes json] path (oneVal nilStrs .nil (GetKeys json path)) :=
  Call.of (g := Src.GetKeys) (ps := [_]) rfl rfl rfl rfl (need json path) 3 fun _ _ h => run_GetKeys (by omega)

theorem text_GetValues :
    Call fl (go% GetValues) [.bytes json] path (oneVal nilStrs .nil (GetValues json path)) :=
  Call.of (g := Src.GetValues) (ps := [_]) rfl rfl rfl rfl (need json path) 3 fun _ _ h => run_GetValues (by omega)

theorem text_GetKeysValues :
    Call fl (go% GetKeysValues) [.bytes json] path (pairVals (GetKeysValues json path)) :=
  Call.of (g := Src.GetKeysValues) (ps := [_]) rfl rfl rfl rfl (need json path) 3 fun _ _ h => run_GetKeysValues (by omega)

theorem text_GetAll (keys : List Bytes) :
    Call fl (go% GetAll) [.bytes json, .strs keys] path (oneVal .strs .nil (GetAll json keys path)) :=
  Call.of (g := Src.GetAll) (ps := [_, _]) rfl rfl rfl rfl ((keys.map fun k => need json (path ++ [k])).sum) 4 fun _ _ h =>
    run_GetAll fun _ hk => Nat.lt_of_le_of_lt (le_sum_mem (List.mem_map_of_mem (f := fun k => need json (path ++ [k])) hk)) h

theorem text_MakeEmptyArray :
    Call1 fl (go% MakeEmptyArray) [] (.ok [.bytes MakeEmptyArray]) :=
  Call1.of (0) 1 fun _ _ _ => run_MakeEmptyArray

theorem text_MakeEmptyJson :
    Call1 fl (go% MakeEmptyJson) [] (.ok [.bytes MakeEmptyJson]) :=
  Call1.of (0) 1 fun _ _ _ => run_MakeEmptyJson

theorem text_MakeArrayString (values : Option (List Bytes)) :
    Call1 fl (go% MakeArrayString) [optVal .strs values] (.ok [.bytes (MakeArrayString (fun s => (fl.parse s).isSome) values)]) :=
  Call1.of (0) 4 fun _ _ _ => run_MakeArrayString values

theorem text_MakeArrayInt (values : Option (List Int)) :
    Call1 fl (go% MakeArrayInt) [optVal .ints values] (.ok [.bytes (MakeArrayInt values)]) :=
  Call1.of (0) 2 fun _ _ _ => run_MakeArrayInt values

theorem text_MakeArrayBytes (values : List Bytes) (_hv : values ≠ []) :
    Call fl (go% MakeArrayBytes) [] values (.ok [.bytes (MakeArrayBytes (some values))]) :=
  Call.of (g := Src.MakeArrayBytes) (ps := []) rfl rfl rfl rfl 0 0 fun _ _ _ => run_MakeArrayBytes (some values)

theorem text_MakeArrayBool (values : Option (List Bool)) :
    Call1 fl (go% MakeArrayBool) [optVal .bools values] (.ok [.bytes (MakeArrayBool values)]) :=
  Call1.of (0) 1 fun _ _ _ => run_MakeArrayBool values

theorem text_MakeArrayFloat (values : Option (List UInt64)) :
    Call1 fl (go% MakeArrayFloat) [optVal .floats values] (match MakeArrayFloat fl values with | .ok b => .ok [.bytes b] | _ => .panic) :=
  Call1.of (((values.getD []).map fun x => (fl.format x).length).sum) 2 fun _ _ h => run_MakeArrayFloat values fun l hl x hx =>
    Nat.lt_of_le_of_lt (le_sum_mem (List.mem_map_of_mem (f := fun x => (fl.format x).length) (by rw [hl]; exact hx))) h

theorem text_MakeJsonString (keys : Option (List Bytes)) (values : List Bytes) :
    Call1 fl (go% MakeJsonString) [optVal .strs keys, .strs values] (if (keys.getD []).length = values.length then .ok [.bytes (MakeJsonString (fun s => (fl.parse s).isSome) keys values)] else .ok [.nil]) :=
  Call1.of (0) 4 fun _ _ _ => run_MakeJsonString keys values

end

end Jin.Go
