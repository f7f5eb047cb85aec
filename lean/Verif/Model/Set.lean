import Verif.Model.Get
/-!
# Model.Set — `/repo/inter_set.go`, `/repo/inter_delete.go`, `/repo/inter_add.go`
-/

namespace Jin

/-- `x, nil` or a panic. -/
def Mut.ofOut : Out Bytes → Mut
  | .ok b => .done b none
  | .err e => .done [] (some e)       -- not reached: `replace` returns no error
  | .panic => .panic

/-- Continue with a value, turning an error into `return json, err`. -/
def Mut.bindOut {α : Type} (json : Bytes) (x : Out α) (f : α → Mut) : Mut :=
  match x with
  | .ok a => f a
  | .err e => .done json (some e)
  | .panic => .panic

/-- `json[start-1] == 34 && json[end] == 34` (inter_set.go:19, 102). -/
def quotedAt (json : Bytes) (start stop : Nat) : Out Bool := do
  let a ← idx json ((start : Int) - 1)
  if a == 34 then do
    let b ← idx json stop
    return b == 34
  else return false

/-- The replacement shared by `Set` (inter_set.go:19-22), `Store` (:102-105) and
`JO.Store` (jin_object_add.go:118-124). -/
def replaceValue (json newValue : Bytes) (start stop : Nat) : Mut :=
  Mut.bindOut json (quotedAt json start stop) fun q =>
    if q then Mut.ofOut (replace json newValue ((start : Int) - 1) (stop + 1))
    else Mut.ofOut (replace json newValue start stop)

/-- `Set`, inter_set.go:11-23. -/
def Set (json newValue : Bytes) (path : List Bytes) : Mut :=
  if path.length == 0 then .done json (some .nullPath)
  else Mut.bindOut json (core json false path) fun l => replaceValue json newValue l.start l.stop

/-- `SetString`, inter_set.go:27-29. -/
def SetString (isFloat : Bytes → Bool) (json newValue : Bytes) (path : List Bytes) : Mut :=
  Set json (formatType isFloat newValue) path

/-- `SetInt`, inter_set.go:33-35. -/
def SetInt (json : Bytes) (n : Int) (path : List Bytes) : Mut := Set json (itoa n) path

/-- `SetFloat`, inter_set.go:39-41. -/
def SetFloat {F : Type} (fl : FloatLib F) (json : Bytes) (x : F) (path : List Bytes) : Mut :=
  Set json (fl.format x) path

/-- The literals of `SetBool`/`AddBool`/… . -/
def boolText (b : Bool) : Bytes := if b then bTrue else bFalse

/-- `SetBool`, inter_set.go:45-50. -/
def SetBool (json : Bytes) (b : Bool) (path : List Bytes) : Mut := Set json (boolText b) path

/-- Body of the loop inter_set.go:76-84. -/
def setKeyBody (json newKey : Bytes) (keyStart : Nat) (i : Nat) (_ : Unit) : Ctl Unit Mut :=
  match json[i]? with
  | none => .ret .panic
  | some curr =>
    if curr == 92 then .goto (i + 1) ()
    else if curr == 34 then .ret (Mut.ofOut (replace json newKey keyStart i))
    else .next ()

/-- `SetKey`, inter_set.go:56-90. -/
def SetKey (json newKey : Bytes) (path : List Bytes) : Mut :=
  if newKey.length == 0 then .done json (some .nullKey)
  else if path.length == 0 then .done json (some .nullPath)
  else
    match core json false (path.dropLast ++ [newKey]) with
    | .panic => .panic
    | .ok _ => .done json (some (.badJSON 0))
    | .err e =>
      if errEqual (some e) codeKeyNotFound then
        Mut.bindOut json (core json false path) fun l =>
          if l.keyStart < 0 then .panic                 -- json[-1]; start > -1 always holds
          else
            match forUp l.start (setKeyBody json newKey l.keyStart.toNat) l.keyStart.toNat () with
            | .ret r => r
            | .done _ => .done json (some (.badJSON l.keyStart))
      else .done json (some e)

/-! ### inter_add.go -/

/-- The two loops inter_add.go:19-44 / 89-114 / 149-174 for an empty path: `o`, `c`
are the expected brackets (`{`,`}` or `[`,`]`), `e` the error for anything else.
Result `(start, end)`. -/
def rootSpan (json : Bytes) (o c : UInt8) (e : Err) : Out (Nat × Nat) := do
  let start ←
    match firstNS json 0 json.length with
    | none => (Out.ok 0 : Out Nat)
    | some i =>
      match json[i]? with
      | none => .panic
      | some b =>
        if b == o then
          if i + 1 == json.length then .err (.badJSON i) else .ok i
        else .err e
  let stop ←
    match lastNS json 0 json.length with
    | none => (Out.ok 0 : Out Nat)
    | some i =>
      match json[i]? with
      | none => .panic
      | some b =>
        if b == c then
          if i == 0 then .err (.badJSON i) else .ok (i + 1)
        else .err e
  return (start, stop)

/-- Where the container is: root span for an empty path, else `core`. -/
def containerSpan (json : Bytes) (o c : UInt8) (e : Err) (path : List Bytes) : Out (Nat × Nat) :=
  if path.length == 0 then rootSpan json o c e
  else do
    let l ← core json false path
    return (l.start, l.stop)

/-- `json[start] == o && json[end-1] == c` (short circuit). -/
def bracketsAt (json : Bytes) (o c : UInt8) (start stop : Nat) : Out Bool := do
  let a ← idx json start
  if a == o then do
    let b ← idx json ((stop : Int) - 1)
    return b == c
  else return false

/-- `AddKeyValue`, inter_add.go:8-76, for a non-nil value. -/
def addKeyValue (json key value : Bytes) (path : List Bytes) : Mut :=
  if json.length < 2 then .done json (some (.badJSON 0))
  else
    Mut.bindOut json (containerSpan json 123 125 .objectExpected path) fun (start, stop) =>
    Mut.bindOut json (bracketsAt json 123 125 start stop) fun b =>
      if b then
        match firstNS json (start + 1) (stop - 1) with
        | none =>                                        -- empty
          Mut.ofOut (replace json (34 :: key ++ [34, 58] ++ value) ((stop : Int) - 1) ((stop : Int) - 1))
        | some _ =>
          match core json false (path ++ [key]) with
          | .panic => .panic
          | .ok _ => .done json (some (.keyAlreadyExist key))
          | .err e =>
            if errEqual (some e) codeKeyNotFound then
              Mut.ofOut (replace json (44 :: 34 :: key ++ [34, 58] ++ value)
                ((stop : Int) - 1) ((stop : Int) - 1))
            else .done json (some e)
      else .done json (some .objectExpected)

/-- `AddKeyValue`, inter_add.go:8-11: a nil value becomes `null`. -/
def AddKeyValue (json key : Bytes) (value : Option Bytes) (path : List Bytes) : Mut :=
  match value with
  | none => addKeyValue json key bNull path
  | some v => addKeyValue json key v path

/-- `Add`, inter_add.go:81-139. -/
def Add (json value : Bytes) (path : List Bytes) : Mut :=
  if json.length < 2 then .done json (some (.badJSON 0))
  else
    Mut.bindOut json (containerSpan json 91 93 .arrayExpected path) fun (start, stop) =>
    Mut.bindOut json (bracketsAt json 91 93 start stop) fun b =>
      if b then
        match firstNS json (start + 1) (stop - 1) with
        | none => Mut.ofOut (replace json value ((stop : Int) - 1) ((stop : Int) - 1))
        | some _ => Mut.ofOut (replace json (44 :: value) ((stop : Int) - 1) ((stop : Int) - 1))
      else .done json (some .arrayExpected)

/-- `startEdge`/`endEdge` of inter_add.go:196-207 and inter_delete.go:29-40: the
loops leave the variable at its zero value when nothing is found. -/
def edges (json : Bytes) (start stop : Nat) : Nat × Nat :=
  ((lastNS json 1 start).getD 0, (firstNS json stop json.length).getD 0)

/-- The quote adjustment inter_add.go:188-193 / inter_delete.go:21-26:
`if json[start-1] == 34 {start--}; if json[end] == 34 {end++}`. -/
def widen (json : Bytes) (start stop : Nat) : Out (Nat × Nat) := do
  let a ← idx json ((start : Int) - 1)
  let b ← idx json stop
  return (if a == 34 then start - 1 else start, if b == 34 then stop + 1 else stop)

/-- `Insert`, inter_add.go:144-230. -/
def Insert (json : Bytes) (index : Int) (value : Bytes) (path : List Bytes) : Mut :=
  Mut.bindOut json (containerSpan json 91 93 .arrayExpected path) fun (start, stop) =>
  Mut.bindOut json (bracketsAt json 91 93 start stop) fun b =>
    if !b then .done json (some .arrayExpected)
    else
      Mut.bindOut json (core json false (path ++ [itoa index])) fun l =>
      Mut.bindOut json (widen json l.start l.stop) fun (start, stop) =>
        let (startEdge, endEdge) := edges json start stop
        Mut.bindOut json (idx json startEdge) fun a =>
        Mut.bindOut json (idx json endEdge) fun z =>
          if (a == 91 || a == 123) && a + 2 == z then
            Mut.ofOut (replace json (value ++ [44]) start start)
          else if z == 44 then Mut.ofOut (replace json (value ++ [44]) start start)
          else if a == 44 then
            Mut.ofOut (replace json (44 :: value) ((start : Int) - 1) ((start : Int) - 1))
          else .done json (some (.badJSON start))

/-- `Delete`, inter_delete.go:6-54. -/
def Delete (json : Bytes) (path : List Bytes) : Mut :=
  if path.length == 0 then .done json (some .nullPath)
  else
    Mut.bindOut json (core json false path) fun l =>
      let start : Nat := if l.keyStart == -1 then l.start else (l.keyStart - 1).toNat
      Mut.bindOut json (widen json start l.stop) fun (start, e) =>
        let (startEdge, endEdge) := edges json start e
        Mut.bindOut json (idx json startEdge) fun a =>
        Mut.bindOut json (idx json endEdge) fun z =>
          if (a == 91 || a == 123) && a + 2 == z then Mut.ofOut (replace json [] start e)
          else if z == 44 then Mut.ofOut (replace json [] start (endEdge + 1))
          else if a == 44 then Mut.ofOut (replace json [] startEdge e)
          else .done json (some (.badJSON start))

/-- `Store`, inter_set.go:94-106 (`nil` value: `replace` appends nothing,
`AddKeyValue` stores `null`). -/
def Store (json key : Bytes) (value : Option Bytes) (path : List Bytes) : Mut :=
  match core json false (path ++ [key]) with
  | .panic => .panic
  | .err e =>
    if errEqual (some e) codeKeyNotFound then AddKeyValue json key value path
    else .done json (some e)
  | .ok l => replaceValue json (value.getD []) l.start l.stop

/-- `StoreString`, inter_set.go:110-112. -/
def StoreString (isFloat : Bytes → Bool) (json key newValue : Bytes) (path : List Bytes) : Mut :=
  Store json key (some (formatType isFloat newValue)) path
/-- `StoreInt`, inter_set.go:116-118. -/
def StoreInt (json key : Bytes) (n : Int) (path : List Bytes) : Mut := Store json key (some (itoa n)) path
/-- `StoreFloat`, inter_set.go:122-124. -/
def StoreFloat {F : Type} (fl : FloatLib F) (json key : Bytes) (x : F) (path : List Bytes) : Mut :=
  Store json key (some (fl.format x)) path
/-- `StoreBool`, inter_set.go:128-133. -/
def StoreBool (json key : Bytes) (b : Bool) (path : List Bytes) : Mut :=
  Store json key (some (boolText b)) path

/-! ### Typed wrappers of inter_add.go:232-455 -/

/-- `AddKeyValueString`, inter_add.go:234-239: a null key returns a `nil` slice. -/
def AddKeyValueString (isFloat : Bytes → Bool) (json key value : Bytes) (path : List Bytes) : Mut :=
  if key.length == 0 then .done [] (some .nullKey)
  else AddKeyValue json key (some (formatType isFloat value)) path

/-- The guard and call shared by the other `AddKeyValueX`, inter_add.go:243-314. -/
def addKV (json key : Bytes) (text : Out Bytes) (path : List Bytes) : Mut :=
  if key.length == 0 then .done json (some .nullKey)
  else Mut.bindOut json text fun t => AddKeyValue json key (some t) path

/-- `AddKeyValueInt`, inter_add.go:243-248. -/
def AddKeyValueInt (json key : Bytes) (n : Int) (path : List Bytes) : Mut := addKV json key (.ok (itoa n)) path
/-- `AddKeyValueUint`, inter_add.go:252-257 (base 64). -/
def AddKeyValueUint (json key : Bytes) (n : Nat) (path : List Bytes) : Mut := addKV json key (formatInt n 64) path
/-- `AddKeyValueInt32`, inter_add.go:261-266 (base 32). -/
def AddKeyValueInt32 (json key : Bytes) (n : Int) (path : List Bytes) : Mut := addKV json key (formatInt n 32) path
/-- `AddKeyValueInt64`, inter_add.go:270-275 (base 64). -/
def AddKeyValueInt64 (json key : Bytes) (n : Int) (path : List Bytes) : Mut := addKV json key (formatInt n 64) path
/-- `AddKeyValueUint32`, inter_add.go:279-284 (base 32). -/
def AddKeyValueUint32 (json key : Bytes) (n : Nat) (path : List Bytes) : Mut := addKV json key (formatInt n 32) path
/-- `AddKeyValueUint64`, inter_add.go:288-293 (base 64). -/
def AddKeyValueUint64 (json key : Bytes) (n : Nat) (path : List Bytes) : Mut := addKV json key (formatInt n 64) path
/-- `AddKeyValueFloat`, inter_add.go:297-302. -/
def AddKeyValueFloat {F : Type} (fl : FloatLib F) (json key : Bytes) (x : F) (path : List Bytes) : Mut :=
  addKV json key (.ok (fl.format x)) path
/-- `AddKeyValueBool`, inter_add.go:306-314. -/
def AddKeyValueBool (json key : Bytes) (b : Bool) (path : List Bytes) : Mut := addKV json key (.ok (boolText b)) path

/-- `AddString`, inter_add.go:318-320. -/
def AddString (isFloat : Bytes → Bool) (json value : Bytes) (path : List Bytes) : Mut :=
  Add json (formatType isFloat value) path
/-- The call shared by `AddInt32` … `AddUint64`, inter_add.go:330-356. -/
def addText (json : Bytes) (text : Out Bytes) (path : List Bytes) : Mut :=
  Mut.bindOut json text fun t => Add json t path
/-- `AddInt`, inter_add.go:324-326. -/
def AddInt (json : Bytes) (n : Int) (path : List Bytes) : Mut := Add json (itoa n) path
/-- `AddInt32`, inter_add.go:330-332 (base 32). -/
def AddInt32 (json : Bytes) (n : Int) (path : List Bytes) : Mut := addText json (formatInt n 32) path
/-- `AddInt64`, inter_add.go:336-338 (base 64). -/
def AddInt64 (json : Bytes) (n : Int) (path : List Bytes) : Mut := addText json (formatInt n 64) path
/-- `AddUint`, inter_add.go:342-344 (base 64). -/
def AddUint (json : Bytes) (n : Nat) (path : List Bytes) : Mut := addText json (formatInt n 64) path
/-- `AddUint32`, inter_add.go:348-350 (base 32). -/
def AddUint32 (json : Bytes) (n : Nat) (path : List Bytes) : Mut := addText json (formatInt n 32) path
/-- `AddUint64`, inter_add.go:354-356 (base 64). -/
def AddUint64 (json : Bytes) (n : Nat) (path : List Bytes) : Mut := addText json (formatInt n 64) path
/-- `AddFloat`, inter_add.go:360-362. -/
def AddFloat {F : Type} (fl : FloatLib F) (json : Bytes) (x : F) (path : List Bytes) : Mut :=
  Add json (fl.format x) path
/-- `AddBool`, inter_add.go:366-371. -/
def AddBool (json : Bytes) (b : Bool) (path : List Bytes) : Mut := Add json (boolText b) path

/-- `InsertString`, inter_add.go:375-380: a negative index returns a `nil` slice. -/
def InsertString (isFloat : Bytes → Bool) (json : Bytes) (index : Int) (value : Bytes) (path : List Bytes) : Mut :=
  if index < 0 then .done [] (some .indexOutOfRange)
  else Insert json index (formatType isFloat value) path
/-- The guard and call shared by the other `InsertX`, inter_add.go:384-455. -/
def insertText (json : Bytes) (index : Int) (text : Out Bytes) (path : List Bytes) : Mut :=
  if index < 0 then .done json (some .indexOutOfRange)
  else Mut.bindOut json text fun t => Insert json index t path
/-- `InsertInt`, inter_add.go:384-389. -/
def InsertInt (json : Bytes) (index n : Int) (path : List Bytes) : Mut := insertText json index (.ok (itoa n)) path
/-- `InsertInt32`, inter_add.go:393-398 (base 32). -/
def InsertInt32 (json : Bytes) (index n : Int) (path : List Bytes) : Mut := insertText json index (formatInt n 32) path
/-- `InsertInt64`, inter_add.go:402-407 (base 64). -/
def InsertInt64 (json : Bytes) (index n : Int) (path : List Bytes) : Mut := insertText json index (formatInt n 64) path
/-- `InsertUint`, inter_add.go:411-416 (base 64). -/
def InsertUint (json : Bytes) (index : Int) (n : Nat) (path : List Bytes) : Mut := insertText json index (formatInt n 64) path
/-- `InsertUint32`, inter_add.go:420-425 (base 32). -/
def InsertUint32 (json : Bytes) (index : Int) (n : Nat) (path : List Bytes) : Mut := insertText json index (formatInt n 32) path
/-- `InsertUint64`, inter_add.go:429-434 (base 64). -/
def InsertUint64 (json : Bytes) (index : Int) (n : Nat) (path : List Bytes) : Mut := insertText json index (formatInt n 64) path
/-- `InsertFloat`, inter_add.go:438-443. -/
def InsertFloat {F : Type} (fl : FloatLib F) (json : Bytes) (index : Int) (x : F) (path : List Bytes) : Mut :=
  insertText json index (.ok (fl.format x)) path
/-- `InsertBool`, inter_add.go:447-455. -/
def InsertBool (json : Bytes) (index : Int) (b : Bool) (path : List Bytes) : Mut :=
  insertText json index (.ok (boolText b)) path

end Jin
