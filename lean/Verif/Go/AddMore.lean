import Verif.Go.SetMore
import Verif.Go.Insert
/-!
# Go.AddMore — `Store` and the typed forms of `Store`, `AddKeyValue`, `Add` and `Insert`

`AddKeyValueString` and `InsertString` return `nil` where the model has the empty slice.
-/

namespace Jin.Go

section
variable {fl : FloatLib UInt64} {fuel d : Nat} {sp : Bool} {json : Bytes} {path : List Bytes}

theorem formatInt_forms (n : Int) (b : Nat) : (∃ t, formatInt n b = .ok t) ∨ formatInt n b = .panic := by
  rw [formatInt]; split
  · exact .inr rfl
  · exact .inl ⟨_, rfl⟩

/-- What the model makes of `strconv.FormatInt`, as a result. -/
def textR : Out Bytes → R (List Val)
  | .ok b => .ok [.bytes b]
  | _ => .panic

theorem run_formatInt32 (n : Int) : (jin fl).fn fuel (d + 1) (go% strconv.FormatInt) sp [.int n, .int 32] = textR (formatInt n 32) := fn_lib rfl ..
theorem run_formatInt64 (n : Int) : (jin fl).fn fuel (d + 1) (go% strconv.FormatInt) sp [.int n, .int 64] = textR (formatInt n 64) := fn_lib rfl ..
theorem run_formatUint32 (n : Int) : (jin fl).fn fuel (d + 1) (go% strconv.FormatUint) sp [.int n, .int 32] = textR (formatInt n 32) := fn_lib rfl ..
theorem run_formatUint64 (n : Int) : (jin fl).fn fuel (d + 1) (go% strconv.FormatUint) sp [.int n, .int 64] = textR (formatInt n 64) := fn_lib rfl ..

/-! ### Store -/

theorem run_Store' (hf : need json path < fuel) (key : Bytes) (v : Option Bytes) (hf2 : need json (path ++ [key]) < fuel) :
    (jin fl).fn fuel (d + 5) (go% Store) true [.bytes json, .bytes key, optBytes v, .strs path] = mutVals (Store json key v path) := by
  rw [fn_run (g := Src.Store) rfl]
  refine mut_body rfl ?_
  cases h : core json false (path ++ [key]) with
  | panic => run_go [Src.Store, Store, Mut.res, run_core hf2, h, locVals]
  | err e =>
    cases h2 : errEqual (some e) codeKeyNotFound
    · run_go [Src.Store, Store, Mut.res, run_core hf2, h, h2, locVals]
    · rcases Mut.forms (AddKeyValue json key v path) with ⟨b, h3⟩ | ⟨b, e, h3⟩ | h3 <;>
        run_go [Src.Store, Store, Mut.res, run_core hf2, h, h2, locVals, run_AddKeyValue' hf key v hf2, h3, mutVals]
  | ok l =>
    have e1 := elem_pred json l.start
    have e2 := elem_idx json l.stop
    rcases idx_cases json ((l.start : Int) - 1) with ⟨a, h1⟩ | h1
    · cases h2 : a == 34
      · rcases replace_cases json (v.getD []) l.start l.stop with ⟨r, h3⟩ | h3 <;> cases v <;>
          simp only [Option.getD_none, Option.getD_some] at h3 <;>
          run_go [Src.Store, Store, Mut.res, run_core hf2, h, locVals, Mut.bindOut, replaceValue, quotedAt,
            e1, h1, h2, h3, Mut.ofOut, optBytes, Option.getD_none, Option.getD_some]
      · rcases idx_cases json l.stop with ⟨b, h3⟩ | h3
        · rw [idx_nat] at h3
          cases h4 : b == 34
          · rcases replace_cases json (v.getD []) l.start l.stop with ⟨r, h5⟩ | h5 <;> cases v <;>
              simp only [Option.getD_none, Option.getD_some] at h5 <;>
              run_go [Src.Store, Store, Mut.res, run_core hf2, h, locVals, Mut.bindOut, replaceValue, quotedAt,
                e1, h1, h2, h3, h4, h5, e2, idx_nat, Mut.ofOut, optBytes, Option.getD_none, Option.getD_some]
          · rcases replace_cases json (v.getD []) ((l.start : Int) - 1) (l.stop + 1) with ⟨r, h5⟩ | h5 <;> cases v <;>
              simp only [Option.getD_none, Option.getD_some] at h5 <;>
              run_go [Src.Store, Store, Mut.res, run_core hf2, h, locVals, Mut.bindOut, replaceValue, quotedAt,
                e1, h1, h2, h3, h4, h5, e2, idx_nat, Mut.ofOut, optBytes, Option.getD_none, Option.getD_some]
        · rw [idx_nat] at h3
          run_go [Src.Store, Store, Mut.res, run_core hf2, h, locVals, Mut.bindOut, replaceValue, quotedAt,
            e1, h1, h2, h3, e2, idx_nat]
    · run_go [Src.Store, Store, Mut.res, run_core hf2, h, locVals, Mut.bindOut, replaceValue, quotedAt, e1, h1]

theorem run_Store (hf : need json path < fuel) (key v : Bytes) (hf2 : need json (path ++ [key]) < fuel) :
    (jin fl).fn fuel (d + 5) (go% Store) true [.bytes json, .bytes key, .bytes v, .strs path] = mutVals (Store json key (some v) path) :=
  run_Store' hf key (some v) hf2

theorem run_StoreString (hf : need json path < fuel) (key : Bytes) (v : Bytes) (hf2 : need json (path ++ [key]) < fuel) :
    (jin fl).fn fuel (d + 6) (go% StoreString) true [.bytes json, .bytes key, .bytes v, .strs path] =
      mutVals (StoreString (fun s => (fl.parse s).isSome) json key v path) := by
  rw [fn_run (g := Src.StoreString) rfl]
  refine mut_body rfl ?_
  rcases Mut.forms (Store json key (some (formatType (fun s => (fl.parse s).isSome) v)) path) with ⟨b, h⟩ | ⟨b, e, h⟩ | h <;>
    run_go [Src.StoreString, StoreString, Mut.bindOut, run_Store hf key _ hf2, h, mutVals, Mut.res]

theorem run_StoreInt (hf : need json path < fuel) (key : Bytes) (n : Int) (hf2 : need json (path ++ [key]) < fuel) :
    (jin fl).fn fuel (d + 6) (go% StoreInt) true [.bytes json, .bytes key, .int n, .strs path] =
      mutVals (StoreInt json key n path) := by
  rw [fn_run (g := Src.StoreInt) rfl]
  refine mut_body rfl ?_
  rcases Mut.forms (Store json key (some (itoa n)) path) with ⟨b, h⟩ | ⟨b, e, h⟩ | h <;>
    run_go [Src.StoreInt, StoreInt, Mut.bindOut, run_Store hf key _ hf2, h, mutVals, Mut.res]

theorem run_StoreFloat (hf : need json path < fuel) (key : Bytes) (x : UInt64) (hf2 : need json (path ++ [key]) < fuel) :
    (jin fl).fn fuel (d + 6) (go% StoreFloat) true [.bytes json, .bytes key, .float x, .strs path] =
      mutVals (StoreFloat fl json key x path) := by
  rw [fn_run (g := Src.StoreFloat) rfl]
  refine mut_body rfl ?_
  rcases Mut.forms (Store json key (some (fl.format x)) path) with ⟨b, h⟩ | ⟨b, e, h⟩ | h <;>
    run_go [Src.StoreFloat, StoreFloat, Mut.bindOut, run_Store hf key _ hf2, h, mutVals, Mut.res]

theorem run_StoreBool (hf : need json path < fuel) (key : Bytes) (b : Bool) (hf2 : need json (path ++ [key]) < fuel) :
    (jin fl).fn fuel (d + 6) (go% StoreBool) true [.bytes json, .bytes key, .bool b, .strs path] =
      mutVals (StoreBool json key b path) := by
  rw [fn_run (g := Src.StoreBool) rfl]
  refine mut_body rfl ?_
  have ht : bTrue = [116,114,117,101] := rfl
  have hff : bFalse = [102,97,108,115,101] := rfl
  cases b
  · rcases Mut.forms (Store json key (some bFalse) path) with ⟨b, h⟩ | ⟨b, e, h⟩ | h <;>
      run_go [Src.StoreBool, StoreBool, boolText, ← ht, ← hff, Mut.bindOut, run_Store hf key _ hf2, h, mutVals, Mut.res]
  · rcases Mut.forms (Store json key (some bTrue) path) with ⟨b, h⟩ | ⟨b, e, h⟩ | h <;>
      run_go [Src.StoreBool, StoreBool, boolText, ← ht, ← hff, Mut.bindOut, run_Store hf key _ hf2, h, mutVals, Mut.res]

/-! ### AddKeyValue -/

theorem run_AddKeyValueString (hf : need json path < fuel) (key : Bytes) (v : Bytes) (hf2 : need json (path ++ [key]) < fuel) :
    (jin fl).fn fuel (d + 5) (go% AddKeyValueString) true [.bytes json, .bytes key, .bytes v, .strs path] =
      if key.length == 0 then .ok [.nil, .err .nullKey] else mutVals (AddKeyValueString (fun s => (fl.parse s).isSome) json key v path) := by
  cases hk : key.length == 0
  rotate_left
  · rw [fn_run (g := Src.AddKeyValueString) rfl]
    run_go [Func.run, Src.AddKeyValueString, bindParams, hk, if_true]
  rw [if_neg Bool.false_ne_true]
  rw [fn_run (g := Src.AddKeyValueString) rfl]
  refine mut_body rfl ?_
  rcases Mut.forms (AddKeyValue json key (some (formatType (fun s => (fl.parse s).isSome) v)) path) with ⟨b, h⟩ | ⟨b, e, h⟩ | h <;>
    run_go [Src.AddKeyValueString, AddKeyValueString, addKV, hk, Mut.bindOut, run_AddKeyValue hf key _ hf2, h, mutVals, Mut.res]

theorem run_AddKeyValueInt (hf : need json path < fuel) (key : Bytes) (n : Int) (hf2 : need json (path ++ [key]) < fuel) :
    (jin fl).fn fuel (d + 5) (go% AddKeyValueInt) true [.bytes json, .bytes key, .int n, .strs path] =
      mutVals (AddKeyValueInt json key n path) := by
  rw [fn_run (g := Src.AddKeyValueInt) rfl]
  refine mut_body rfl ?_
  cases hk : key.length == 0
  rotate_left
  · run_go [Src.AddKeyValueInt, AddKeyValueInt, addKV, hk, Mut.res]
  rcases Mut.forms (AddKeyValue json key (some (itoa n)) path) with ⟨b, h⟩ | ⟨b, e, h⟩ | h <;>
    run_go [Src.AddKeyValueInt, AddKeyValueInt, addKV, hk, Mut.bindOut, run_AddKeyValue hf key _ hf2, h, mutVals, Mut.res]

theorem run_AddKeyValueInt32 (hf : need json path < fuel) (key : Bytes) (n : Int) (hf2 : need json (path ++ [key]) < fuel) :
    (jin fl).fn fuel (d + 5) (go% AddKeyValueInt32) true [.bytes json, .bytes key, .int n, .strs path] =
      mutVals (AddKeyValueInt32 json key n path) := by
  rw [fn_run (g := Src.AddKeyValueInt32) rfl]
  refine mut_body rfl ?_
  cases hk : key.length == 0
  rotate_left
  · run_go [Src.AddKeyValueInt32, AddKeyValueInt32, addKV, hk, Mut.res]
  rcases formatInt_forms n 32 with ⟨t, ht⟩ | ht
  · rcases Mut.forms (AddKeyValue json key (some t) path) with ⟨b, h⟩ | ⟨b, e, h⟩ | h <;>
      run_go [Src.AddKeyValueInt32, AddKeyValueInt32, addKV, hk, run_formatInt32, textR, ht, Mut.bindOut, run_AddKeyValue hf key _ hf2, h, mutVals, Mut.res]
  · run_go [Src.AddKeyValueInt32, AddKeyValueInt32, addKV, hk, run_formatInt32, textR, ht, Mut.bindOut, Mut.res]

theorem run_AddKeyValueInt64 (hf : need json path < fuel) (key : Bytes) (n : Int) (hf2 : need json (path ++ [key]) < fuel) :
    (jin fl).fn fuel (d + 5) (go% AddKeyValueInt64) true [.bytes json, .bytes key, .int n, .strs path] =
      mutVals (AddKeyValueInt64 json key n path) := by
  rw [fn_run (g := Src.AddKeyValueInt64) rfl]
  refine mut_body rfl ?_
  cases hk : key.length == 0
  rotate_left
  · run_go [Src.AddKeyValueInt64, AddKeyValueInt64, addKV, hk, Mut.res]
  rcases formatInt_forms n 64 with ⟨t, ht⟩ | ht
  · rcases Mut.forms (AddKeyValue json key (some t) path) with ⟨b, h⟩ | ⟨b, e, h⟩ | h <;>
      run_go [Src.AddKeyValueInt64, AddKeyValueInt64, addKV, hk, run_formatInt64, textR, ht, Mut.bindOut, run_AddKeyValue hf key _ hf2, h, mutVals, Mut.res]
  · run_go [Src.AddKeyValueInt64, AddKeyValueInt64, addKV, hk, run_formatInt64, textR, ht, Mut.bindOut, Mut.res]

theorem run_AddKeyValueUint (hf : need json path < fuel) (key : Bytes) (n : Nat) (hf2 : need json (path ++ [key]) < fuel) :
    (jin fl).fn fuel (d + 5) (go% AddKeyValueUint) true [.bytes json, .bytes key, .int n, .strs path] =
      mutVals (AddKeyValueUint json key n path) := by
  rw [fn_run (g := Src.AddKeyValueUint) rfl]
  refine mut_body rfl ?_
  cases hk : key.length == 0
  rotate_left
  · run_go [Src.AddKeyValueUint, AddKeyValueUint, addKV, hk, Mut.res]
  rcases formatInt_forms n 64 with ⟨t, ht⟩ | ht
  · rcases Mut.forms (AddKeyValue json key (some t) path) with ⟨b, h⟩ | ⟨b, e, h⟩ | h <;>
      run_go [Src.AddKeyValueUint, AddKeyValueUint, addKV, hk, run_formatUint64, textR, ht, Mut.bindOut, run_AddKeyValue hf key _ hf2, h, mutVals, Mut.res]
  · run_go [Src.AddKeyValueUint, AddKeyValueUint, addKV, hk, run_formatUint64, textR, ht, Mut.bindOut, Mut.res]

theorem run_AddKeyValueUint32 (hf : need json path < fuel) (key : Bytes) (n : Nat) (hf2 : need json (path ++ [key]) < fuel) :
    (jin fl).fn fuel (d + 5) (go% AddKeyValueUint32) true [.bytes json, .bytes key, .int n, .strs path] =
      mutVals (AddKeyValueUint32 json key n path) := by
  rw [fn_run (g := Src.AddKeyValueUint32) rfl]
  refine mut_body rfl ?_
  cases hk : key.length == 0
  rotate_left
  · run_go [Src.AddKeyValueUint32, AddKeyValueUint32, addKV, hk, Mut.res]
  rcases formatInt_forms n 32 with ⟨t, ht⟩ | ht
  · rcases Mut.forms (AddKeyValue json key (some t) path) with ⟨b, h⟩ | ⟨b, e, h⟩ | h <;>
      run_go [Src.AddKeyValueUint32, AddKeyValueUint32, addKV, hk, run_formatUint32, textR, ht, Mut.bindOut, run_AddKeyValue hf key _ hf2, h, mutVals, Mut.res]
  · run_go [Src.AddKeyValueUint32, AddKeyValueUint32, addKV, hk, run_formatUint32, textR, ht, Mut.bindOut, Mut.res]

theorem run_AddKeyValueUint64 (hf : need json path < fuel) (key : Bytes) (n : Nat) (hf2 : need json (path ++ [key]) < fuel) :
    (jin fl).fn fuel (d + 5) (go% AddKeyValueUint64) true [.bytes json, .bytes key, .int n, .strs path] =
      mutVals (AddKeyValueUint64 json key n path) := by
  rw [fn_run (g := Src.AddKeyValueUint64) rfl]
  refine mut_body rfl ?_
  cases hk : key.length == 0
  rotate_left
  · run_go [Src.AddKeyValueUint64, AddKeyValueUint64, addKV, hk, Mut.res]
  rcases formatInt_forms n 64 with ⟨t, ht⟩ | ht
  · rcases Mut.forms (AddKeyValue json key (some t) path) with ⟨b, h⟩ | ⟨b, e, h⟩ | h <;>
      run_go [Src.AddKeyValueUint64, AddKeyValueUint64, addKV, hk, run_formatUint64, textR, ht, Mut.bindOut, run_AddKeyValue hf key _ hf2, h, mutVals, Mut.res]
  · run_go [Src.AddKeyValueUint64, AddKeyValueUint64, addKV, hk, run_formatUint64, textR, ht, Mut.bindOut, Mut.res]

theorem run_AddKeyValueFloat (hf : need json path < fuel) (key : Bytes) (x : UInt64) (hf2 : need json (path ++ [key]) < fuel) :
    (jin fl).fn fuel (d + 5) (go% AddKeyValueFloat) true [.bytes json, .bytes key, .float x, .strs path] =
      mutVals (AddKeyValueFloat fl json key x path) := by
  rw [fn_run (g := Src.AddKeyValueFloat) rfl]
  refine mut_body rfl ?_
  cases hk : key.length == 0
  rotate_left
  · run_go [Src.AddKeyValueFloat, AddKeyValueFloat, addKV, hk, Mut.res]
  rcases Mut.forms (AddKeyValue json key (some (fl.format x)) path) with ⟨b, h⟩ | ⟨b, e, h⟩ | h <;>
    run_go [Src.AddKeyValueFloat, AddKeyValueFloat, addKV, hk, Mut.bindOut, run_AddKeyValue hf key _ hf2, h, mutVals, Mut.res]

theorem run_AddKeyValueBool (hf : need json path < fuel) (key : Bytes) (b : Bool) (hf2 : need json (path ++ [key]) < fuel) :
    (jin fl).fn fuel (d + 5) (go% AddKeyValueBool) true [.bytes json, .bytes key, .bool b, .strs path] =
      mutVals (AddKeyValueBool json key b path) := by
  rw [fn_run (g := Src.AddKeyValueBool) rfl]
  refine mut_body rfl ?_
  cases hk : key.length == 0
  rotate_left
  · run_go [Src.AddKeyValueBool, AddKeyValueBool, addKV, hk, Mut.res]
  have ht : bTrue = [116,114,117,101] := rfl
  have hff : bFalse = [102,97,108,115,101] := rfl
  cases b
  · rcases Mut.forms (AddKeyValue json key (some bFalse) path) with ⟨b, h⟩ | ⟨b, e, h⟩ | h <;>
      run_go [Src.AddKeyValueBool, AddKeyValueBool, addKV, hk, boolText, ← ht, ← hff, Mut.bindOut, run_AddKeyValue hf key _ hf2, h, mutVals, Mut.res]
  · rcases Mut.forms (AddKeyValue json key (some bTrue) path) with ⟨b, h⟩ | ⟨b, e, h⟩ | h <;>
      run_go [Src.AddKeyValueBool, AddKeyValueBool, addKV, hk, boolText, ← ht, ← hff, Mut.bindOut, run_AddKeyValue hf key _ hf2, h, mutVals, Mut.res]

/-! ### Add -/

theorem run_AddString (hf : need json path < fuel) (v : Bytes) :
    (jin fl).fn fuel (d + 4) (go% AddString) true [.bytes json, .bytes v, .strs path] =
      mutVals (AddString (fun s => (fl.parse s).isSome) json v path) := by
  rw [fn_run (g := Src.AddString) rfl]
  refine mut_body rfl ?_
  rcases Mut.forms (Add json (formatType (fun s => (fl.parse s).isSome) v) path) with ⟨b, h⟩ | ⟨b, e, h⟩ | h <;>
    run_go [Src.AddString, AddString, addText, Mut.bindOut, run_Add hf, h, mutVals, Mut.res]

theorem run_AddInt (hf : need json path < fuel) (n : Int) :
    (jin fl).fn fuel (d + 4) (go% AddInt) true [.bytes json, .int n, .strs path] =
      mutVals (AddInt json n path) := by
  rw [fn_run (g := Src.AddInt) rfl]
  refine mut_body rfl ?_
  rcases Mut.forms (Add json (itoa n) path) with ⟨b, h⟩ | ⟨b, e, h⟩ | h <;>
    run_go [Src.AddInt, AddInt, addText, Mut.bindOut, run_Add hf, h, mutVals, Mut.res]

theorem run_AddInt32 (hf : need json path < fuel) (n : Int) :
    (jin fl).fn fuel (d + 4) (go% AddInt32) true [.bytes json, .int n, .strs path] =
      mutVals (AddInt32 json n path) := by
  rw [fn_run (g := Src.AddInt32) rfl]
  refine mut_body rfl ?_
  rcases formatInt_forms n 32 with ⟨t, ht⟩ | ht
  · rcases Mut.forms (Add json t path) with ⟨b, h⟩ | ⟨b, e, h⟩ | h <;>
      run_go [Src.AddInt32, AddInt32, addText, run_formatInt32, textR, ht, Mut.bindOut, run_Add hf, h, mutVals, Mut.res]
  · run_go [Src.AddInt32, AddInt32, addText, run_formatInt32, textR, ht, Mut.bindOut, Mut.res]

theorem run_AddInt64 (hf : need json path < fuel) (n : Int) :
    (jin fl).fn fuel (d + 4) (go% AddInt64) true [.bytes json, .int n, .strs path] =
      mutVals (AddInt64 json n path) := by
  rw [fn_run (g := Src.AddInt64) rfl]
  refine mut_body rfl ?_
  rcases formatInt_forms n 64 with ⟨t, ht⟩ | ht
  · rcases Mut.forms (Add json t path) with ⟨b, h⟩ | ⟨b, e, h⟩ | h <;>
      run_go [Src.AddInt64, AddInt64, addText, run_formatInt64, textR, ht, Mut.bindOut, run_Add hf, h, mutVals, Mut.res]
  · run_go [Src.AddInt64, AddInt64, addText, run_formatInt64, textR, ht, Mut.bindOut, Mut.res]

theorem run_AddUint (hf : need json path < fuel) (n : Nat) :
    (jin fl).fn fuel (d + 4) (go% AddUint) true [.bytes json, .int n, .strs path] =
      mutVals (AddUint json n path) := by
  rw [fn_run (g := Src.AddUint) rfl]
  refine mut_body rfl ?_
  rcases formatInt_forms n 64 with ⟨t, ht⟩ | ht
  · rcases Mut.forms (Add json t path) with ⟨b, h⟩ | ⟨b, e, h⟩ | h <;>
      run_go [Src.AddUint, AddUint, addText, run_formatUint64, textR, ht, Mut.bindOut, run_Add hf, h, mutVals, Mut.res]
  · run_go [Src.AddUint, AddUint, addText, run_formatUint64, textR, ht, Mut.bindOut, Mut.res]

theorem run_AddUint32 (hf : need json path < fuel) (n : Nat) :
    (jin fl).fn fuel (d + 4) (go% AddUint32) true [.bytes json, .int n, .strs path] =
      mutVals (AddUint32 json n path) := by
  rw [fn_run (g := Src.AddUint32) rfl]
  refine mut_body rfl ?_
  rcases formatInt_forms n 32 with ⟨t, ht⟩ | ht
  · rcases Mut.forms (Add json t path) with ⟨b, h⟩ | ⟨b, e, h⟩ | h <;>
      run_go [Src.AddUint32, AddUint32, addText, run_formatUint32, textR, ht, Mut.bindOut, run_Add hf, h, mutVals, Mut.res]
  · run_go [Src.AddUint32, AddUint32, addText, run_formatUint32, textR, ht, Mut.bindOut, Mut.res]

theorem run_AddUint64 (hf : need json path < fuel) (n : Nat) :
    (jin fl).fn fuel (d + 4) (go% AddUint64) true [.bytes json, .int n, .strs path] =
      mutVals (AddUint64 json n path) := by
  rw [fn_run (g := Src.AddUint64) rfl]
  refine mut_body rfl ?_
  rcases formatInt_forms n 64 with ⟨t, ht⟩ | ht
  · rcases Mut.forms (Add json t path) with ⟨b, h⟩ | ⟨b, e, h⟩ | h <;>
      run_go [Src.AddUint64, AddUint64, addText, run_formatUint64, textR, ht, Mut.bindOut, run_Add hf, h, mutVals, Mut.res]
  · run_go [Src.AddUint64, AddUint64, addText, run_formatUint64, textR, ht, Mut.bindOut, Mut.res]

theorem run_AddFloat (hf : need json path < fuel) (x : UInt64) :
    (jin fl).fn fuel (d + 4) (go% AddFloat) true [.bytes json, .float x, .strs path] =
      mutVals (AddFloat fl json x path) := by
  rw [fn_run (g := Src.AddFloat) rfl]
  refine mut_body rfl ?_
  rcases Mut.forms (Add json (fl.format x) path) with ⟨b, h⟩ | ⟨b, e, h⟩ | h <;>
    run_go [Src.AddFloat, AddFloat, addText, Mut.bindOut, run_Add hf, h, mutVals, Mut.res]

theorem run_AddBool (hf : need json path < fuel) (b : Bool) :
    (jin fl).fn fuel (d + 4) (go% AddBool) true [.bytes json, .bool b, .strs path] =
      mutVals (AddBool json b path) := by
  rw [fn_run (g := Src.AddBool) rfl]
  refine mut_body rfl ?_
  have ht : bTrue = [116,114,117,101] := rfl
  have hff : bFalse = [102,97,108,115,101] := rfl
  cases b
  · rcases Mut.forms (Add json bFalse path) with ⟨b, h⟩ | ⟨b, e, h⟩ | h <;>
      run_go [Src.AddBool, AddBool, addText, boolText, ← ht, ← hff, Mut.bindOut, run_Add hf, h, mutVals, Mut.res]
  · rcases Mut.forms (Add json bTrue path) with ⟨b, h⟩ | ⟨b, e, h⟩ | h <;>
      run_go [Src.AddBool, AddBool, addText, boolText, ← ht, ← hff, Mut.bindOut, run_Add hf, h, mutVals, Mut.res]

/-! ### Insert -/

theorem run_InsertString (hf : need json path < fuel) (index : Int) (v : Bytes) (hf2 : need json (path ++ [itoa index]) < fuel) :
    (jin fl).fn fuel (d + 4) (go% InsertString) true [.bytes json, .int index, .bytes v, .strs path] =
      if index < 0 then .ok [.nil, .err .indexOutOfRange] else mutVals (InsertString (fun s => (fl.parse s).isSome) json index v path) := by
  by_cases hk : index < 0
  · rw [fn_run (g := Src.InsertString) rfl]
    run_go [Func.run, Src.InsertString, bindParams, hk, if_true]
  rw [if_neg hk]
  rw [fn_run (g := Src.InsertString) rfl]
  refine mut_body rfl ?_
  rcases Mut.forms (Insert json index (formatType (fun s => (fl.parse s).isSome) v) path) with ⟨b, h⟩ | ⟨b, e, h⟩ | h <;>
    run_go [Src.InsertString, InsertString, insertText, hk, Mut.bindOut, run_Insert hf index _ hf2, h, mutVals, Mut.res]

theorem run_InsertInt (hf : need json path < fuel) (index : Int) (n : Int) (hf2 : need json (path ++ [itoa index]) < fuel) :
    (jin fl).fn fuel (d + 4) (go% InsertInt) true [.bytes json, .int index, .int n, .strs path] =
      mutVals (InsertInt json index n path) := by
  rw [fn_run (g := Src.InsertInt) rfl]
  refine mut_body rfl ?_
  by_cases hk : index < 0
  · run_go [Src.InsertInt, InsertInt, insertText, hk, Mut.res]
  rcases Mut.forms (Insert json index (itoa n) path) with ⟨b, h⟩ | ⟨b, e, h⟩ | h <;>
    run_go [Src.InsertInt, InsertInt, insertText, hk, Mut.bindOut, run_Insert hf index _ hf2, h, mutVals, Mut.res]

theorem run_InsertInt32 (hf : need json path < fuel) (index : Int) (n : Int) (hf2 : need json (path ++ [itoa index]) < fuel) :
    (jin fl).fn fuel (d + 4) (go% InsertInt32) true [.bytes json, .int index, .int n, .strs path] =
      mutVals (InsertInt32 json index n path) := by
  rw [fn_run (g := Src.InsertInt32) rfl]
  refine mut_body rfl ?_
  by_cases hk : index < 0
  · run_go [Src.InsertInt32, InsertInt32, insertText, hk, Mut.res]
  rcases formatInt_forms n 32 with ⟨t, ht⟩ | ht
  · rcases Mut.forms (Insert json index t path) with ⟨b, h⟩ | ⟨b, e, h⟩ | h <;>
      run_go [Src.InsertInt32, InsertInt32, insertText, hk, run_formatInt32, textR, ht, Mut.bindOut, run_Insert hf index _ hf2, h, mutVals, Mut.res]
  · run_go [Src.InsertInt32, InsertInt32, insertText, hk, run_formatInt32, textR, ht, Mut.bindOut, Mut.res]

theorem run_InsertInt64 (hf : need json path < fuel) (index : Int) (n : Int) (hf2 : need json (path ++ [itoa index]) < fuel) :
    (jin fl).fn fuel (d + 4) (go% InsertInt64) true [.bytes json, .int index, .int n, .strs path] =
      mutVals (InsertInt64 json index n path) := by
  rw [fn_run (g := Src.InsertInt64) rfl]
  refine mut_body rfl ?_
  by_cases hk : index < 0
  · run_go [Src.InsertInt64, InsertInt64, insertText, hk, Mut.res]
  rcases formatInt_forms n 64 with ⟨t, ht⟩ | ht
  · rcases Mut.forms (Insert json index t path) with ⟨b, h⟩ | ⟨b, e, h⟩ | h <;>
      run_go [Src.InsertInt64, InsertInt64, insertText, hk, run_formatInt64, textR, ht, Mut.bindOut, run_Insert hf index _ hf2, h, mutVals, Mut.res]
  · run_go [Src.InsertInt64, InsertInt64, insertText, hk, run_formatInt64, textR, ht, Mut.bindOut, Mut.res]

theorem run_InsertUint (hf : need json path < fuel) (index : Int) (n : Nat) (hf2 : need json (path ++ [itoa index]) < fuel) :
    (jin fl).fn fuel (d + 4) (go% InsertUint) true [.bytes json, .int index, .int n, .strs path] =
      mutVals (InsertUint json index n path) := by
  rw [fn_run (g := Src.InsertUint) rfl]
  refine mut_body rfl ?_
  by_cases hk : index < 0
  · run_go [Src.InsertUint, InsertUint, insertText, hk, Mut.res]
  rcases formatInt_forms n 64 with ⟨t, ht⟩ | ht
  · rcases Mut.forms (Insert json index t path) with ⟨b, h⟩ | ⟨b, e, h⟩ | h <;>
      run_go [Src.InsertUint, InsertUint, insertText, hk, run_formatUint64, textR, ht, Mut.bindOut, run_Insert hf index _ hf2, h, mutVals, Mut.res]
  · run_go [Src.InsertUint, InsertUint, insertText, hk, run_formatUint64, textR, ht, Mut.bindOut, Mut.res]

theorem run_InsertUint32 (hf : need json path < fuel) (index : Int) (n : Nat) (hf2 : need json (path ++ [itoa index]) < fuel) :
    (jin fl).fn fuel (d + 4) (go% InsertUint32) true [.bytes json, .int index, .int n, .strs path] =
      mutVals (InsertUint32 json index n path) := by
  rw [fn_run (g := Src.InsertUint32) rfl]
  refine mut_body rfl ?_
  by_cases hk : index < 0
  · run_go [Src.InsertUint32, InsertUint32, insertText, hk, Mut.res]
  rcases formatInt_forms n 32 with ⟨t, ht⟩ | ht
  · rcases Mut.forms (Insert json index t path) with ⟨b, h⟩ | ⟨b, e, h⟩ | h <;>
      run_go [Src.InsertUint32, InsertUint32, insertText, hk, run_formatUint32, textR, ht, Mut.bindOut, run_Insert hf index _ hf2, h, mutVals, Mut.res]
  · run_go [Src.InsertUint32, InsertUint32, insertText, hk, run_formatUint32, textR, ht, Mut.bindOut, Mut.res]

theorem run_InsertUint64 (hf : need json path < fuel) (index : Int) (n : Nat) (hf2 : need json (path ++ [itoa index]) < fuel) :
    (jin fl).fn fuel (d + 4) (go% InsertUint64) true [.bytes json, .int index, .int n, .strs path] =
      mutVals (InsertUint64 json index n path) := by
  rw [fn_run (g := Src.InsertUint64) rfl]
  refine mut_body rfl ?_
  by_cases hk : index < 0
  · run_go [Src.InsertUint64, InsertUint64, insertText, hk, Mut.res]
  rcases formatInt_forms n 64 with ⟨t, ht⟩ | ht
  · rcases Mut.forms (Insert json index t path) with ⟨b, h⟩ | ⟨b, e, h⟩ | h <;>
      run_go [Src.InsertUint64, InsertUint64, insertText, hk, run_formatUint64, textR, ht, Mut.bindOut, run_Insert hf index _ hf2, h, mutVals, Mut.res]
  · run_go [Src.InsertUint64, InsertUint64, insertText, hk, run_formatUint64, textR, ht, Mut.bindOut, Mut.res]

theorem run_InsertFloat (hf : need json path < fuel) (index : Int) (x : UInt64) (hf2 : need json (path ++ [itoa index]) < fuel) :
    (jin fl).fn fuel (d + 4) (go% InsertFloat) true [.bytes json, .int index, .float x, .strs path] =
      mutVals (InsertFloat fl json index x path) := by
  rw [fn_run (g := Src.InsertFloat) rfl]
  refine mut_body rfl ?_
  by_cases hk : index < 0
  · run_go [Src.InsertFloat, InsertFloat, insertText, hk, Mut.res]
  rcases Mut.forms (Insert json index (fl.format x) path) with ⟨b, h⟩ | ⟨b, e, h⟩ | h <;>
    run_go [Src.InsertFloat, InsertFloat, insertText, hk, Mut.bindOut, run_Insert hf index _ hf2, h, mutVals, Mut.res]

theorem run_InsertBool (hf : need json path < fuel) (index : Int) (b : Bool) (hf2 : need json (path ++ [itoa index]) < fuel) :
    (jin fl).fn fuel (d + 4) (go% InsertBool) true [.bytes json, .int index, .bool b, .strs path] =
      mutVals (InsertBool json index b path) := by
  rw [fn_run (g := Src.InsertBool) rfl]
  refine mut_body rfl ?_
  by_cases hk : index < 0
  · run_go [Src.InsertBool, InsertBool, insertText, hk, Mut.res]
  have ht : bTrue = [116,114,117,101] := rfl
  have hff : bFalse = [102,97,108,115,101] := rfl
  cases b
  · rcases Mut.forms (Insert json index bFalse path) with ⟨b, h⟩ | ⟨b, e, h⟩ | h <;>
      run_go [Src.InsertBool, InsertBool, insertText, hk, boolText, ← ht, ← hff, Mut.bindOut, run_Insert hf index _ hf2, h, mutVals, Mut.res]
  · rcases Mut.forms (Insert json index bTrue path) with ⟨b, h⟩ | ⟨b, e, h⟩ | h <;>
      run_go [Src.InsertBool, InsertBool, insertText, hk, boolText, ← ht, ← hff, Mut.bindOut, run_Insert hf index _ hf2, h, mutVals, Mut.res]

end

end Jin.Go
