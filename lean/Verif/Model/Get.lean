import Verif.Model.Utils
/-!
# Model.Get — `/repo/inter_get.go` (reads), `/repo/others.go` (`ParseArray`)
-/

namespace Jin

/-- `Get`, inter_get.go:12-21. -/
def Get (json : Bytes) (path : List Bytes) : Out Bytes :=
  if path.length == 0 then .ok json
  else do
    let l ← core json false path
    slice json l.start l.stop

/-- `GetString`, inter_get.go:25-31. -/
def GetString (json : Bytes) (path : List Bytes) : Out Bytes := Get json path

/-- `GetInt`, inter_get.go:36-46. -/
def GetInt (json : Bytes) (path : List Bytes) : Out Int := do
  let v ← GetString json path
  match atoi v with
  | some n => .ok n
  | none => .err (.integerParse v)

/-- `GetFloat`, inter_get.go:51-61. -/
def GetFloat {F : Type} (fl : FloatLib F) (json : Bytes) (path : List Bytes) : Out F := do
  let v ← GetString json path
  match fl.parse v with
  | some n => .ok n
  | none => .err (.floatParse v)

/-- `GetBool`, inter_get.go:66-78. -/
def GetBool (json : Bytes) (path : List Bytes) : Out Bool := do
  let v ← GetString json path
  if v == bTrue then .ok true
  else if v == bFalse then .ok false
  else .err (.boolParse v)

/-! ### Splitting an array text into its elements

`ParseArray` (others.go:193-235), `GetIntArray` (inter_get.go:115-163),
`GetFloatArray` (:181-229) and `GetBoolArray` (:247-305) run the same loop; they
differ only in what they do with an element text.  `conv` is that step at a comma,
`last` the step at the closing bracket (different only in `GetBoolArray`). -/

/-- Loop state: `start`, `inQuote`, `level` and the slice built so far. -/
structure SplitSt (α : Type) where
  start : Nat
  inQuote : Bool
  level : Int
  acc : List α
deriving DecidableEq, Repr

/-- Body of the loop others.go:197-234 (= inter_get.go:119-162, 185-228, 251-304). -/
def splitBody {α : Type} (conv last : Bytes → Out α) (val : Bytes) (i : Nat) (s : SplitSt α) :
    Ctl (SplitSt α) (Out (List α)) :=
  match val[i]? with
  | none => .ret .panic
  | some curr =>
    if curr == 92 then .goto (i + 1) s
    else if curr == 34 then .next { s with inQuote := !s.inQuote }
    else if s.inQuote then .next s
    else
      let s := if curr == 91 || curr == 123 then { s with level := s.level + 1 } else s
      let s := if curr == 93 || curr == 125 then { s with level := s.level - 1 } else s
      if curr == 93 && s.level == 0 then
        match (slice val s.start i) >>= last with
        | .ok a => .brk { s with acc := s.acc ++ [a] }
        | .err e => .ret (.err e)
        | .panic => .ret .panic
      else if s.level == 1 && curr == 44 then
        match (slice val s.start i) >>= conv with
        | .ok a => .next { s with acc := s.acc ++ [a], start := i + 1 }
        | .err e => .ret (.err e)
        | .panic => .ret .panic
      else .next s

/-- The whole loop, from `i = 0` with `start = 1`. -/
def splitArray {α : Type} (conv last : Bytes → Out α) (val : Bytes) : Out (List α) :=
  match forUp val.length (splitBody conv last val) 0 ⟨1, false, 0, []⟩ with
  | .ret r => r
  | .done s => .ok s.acc

/-- `ParseArray`, others.go:185-238; `none` is the `nil` slice of line 237. -/
def ParseArray (arr : Bytes) : Out (Option (List Bytes)) :=
  if arr.length < 2 then .ok (some [])
  else if arr.head? == some 91 && arr.getLast? == some 93 then
    if arr.length == 2 then .ok (some [])
    else (splitArray cleanValueString cleanValueString arr).map some
  else .ok none

/-- `val[0] == 91 && val[lena-1] == 93`. -/
def bracketed (val : Bytes) : Bool := val.head? == some 91 && val.getLast? == some 93

/-- `GetStringArray`, inter_get.go:83-100. -/
def GetStringArray (json : Bytes) (path : List Bytes) : Out (List Bytes) := do
  let val ← GetString json path
  if val.length < 2 then .err (.stringArrayParse val)
  else if bracketed val then do
    let arr ← ParseArray val
    match arr with
    | none => .err (.stringArrayParse val)
    | some arr => .ok arr
  else .err (.stringArrayParse val)

/-- Element step of `GetIntArray`, inter_get.go:139-144, 151-156. -/
def convInt (element : Bytes) : Out Int := do
  let e ← cleanValueString element
  match atoi e with
  | some n => .ok n
  | none => .err (.integerParse e)

/-- `GetIntArray`, inter_get.go:105-166. -/
def GetIntArray (json : Bytes) (path : List Bytes) : Out (List Int) := do
  let val ← GetString json path
  if val.length < 2 then .err (.integerArrayParse val)
  else if bracketed val then splitArray convInt convInt val
  else .err (.integerArrayParse val)

/-- Element step of `GetFloatArray`, inter_get.go:205-210, 217-222. -/
def convFloat {F : Type} (fl : FloatLib F) (element : Bytes) : Out F := do
  let e ← cleanValueString element
  match fl.parse e with
  | some n => .ok n
  | none => .err (.floatParse e)

/-- `GetFloatArray`, inter_get.go:171-232. -/
def GetFloatArray {F : Type} (fl : FloatLib F) (json : Bytes) (path : List Bytes) : Out (List F) := do
  let val ← GetString json path
  if val.length < 2 then .err (.floatArrayParse val)
  else if bracketed val then splitArray (convFloat fl) (convFloat fl) val
  else .err (.floatArrayParse val)

/-- Element step of `GetBoolArray` at a comma, inter_get.go:288-298.  At the
closing bracket (line 280) the error text is `cleanValueString` of the already
cleaned element; that second cleaning only affects the message text, and it can
panic when the cleaned element is empty or a single quote: `convBoolLast`. -/
def convBool (element : Bytes) : Out Bool := do
  let e ← cleanValueString element
  if e == bTrue then .ok true
  else if e == bFalse then .ok false
  else .err (.boolParse e)

/-- Element step of `GetBoolArray` at the closing bracket, inter_get.go:271-281. -/
def convBoolLast (element : Bytes) : Out Bool := do
  let e ← cleanValueString element
  if e == bTrue then .ok true
  else if e == bFalse then .ok false
  else do
    let e2 ← cleanValueString e
    .err (.boolParse e2)

/-- `GetBoolArray`, inter_get.go:237-308. -/
def GetBoolArray (json : Bytes) (path : List Bytes) : Out (List Bool) := do
  let val ← GetString json path
  if val.length < 2 then .err (.boolArrayParse val)
  else if bracketed val then
    splitArray convBool convBoolLast val
  else .err (.boolArrayParse val)

/-! ### GetKeys / GetValues / GetKeysValues -/

/-- State of the loops inter_get.go:343-394, 431-485, 525-586.  `GetKeys` does
not use `start`/`values`, `GetValues` does not use `keyStart`/`keyEnd`/`keys`. -/
structure KvSt where
  start : Nat
  keyStart : Nat
  keyEnd : Nat
  inQuote : Bool
  level : Int
  keys : List Bytes
  values : List Bytes
deriving DecidableEq, Repr

/-- Quote handling shared by the three loops (inter_get.go:348-371, 530-553);
`GetValues` (:436-454) has the same `inQuote` updates and no key bookkeeping. -/
def kvQuote (json : Bytes) (i : Nat) (s : KvSt) : KvSt :=
  if s.inQuote then
    match quoteScan json i i with
    | .real => { s with inQuote := false, keyEnd := i }
    | .escaped => s
    | .off => { s with keyStart := i }
  else { s with inQuote := true, keyStart := i }

/-- Body of the loop of `GetKeys`, inter_get.go:343-394. -/
def keysBody (json : Bytes) (i : Nat) (s : KvSt) : Ctl KvSt Unit :=
  match json[i]? with
  | none => .ret ()
  | some curr =>
    if !isJSONChar true true curr then .next s
    else if curr == 34 then .next (kvQuote json i s)
    else if s.inQuote then .next s
    else if curr == 91 || curr == 123 then .next { s with level := s.level + 1 }
    else if curr == 93 || curr == 125 then
      if s.level == 1 then .brk s else .next { s with level := s.level - 1 }
    else if curr == 58 then
      if s.level == 1 then
        match slice json (s.keyStart + 1) s.keyEnd with
        | .ok key => .next { s with keys := s.keys ++ [key] }
        | _ => .ret ()
      else .next s
    else .next s

/-- Body of the loop of `GetValues`, inter_get.go:431-485. -/
def valuesBody (json : Bytes) (i : Nat) (s : KvSt) : Ctl KvSt Unit :=
  match json[i]? with
  | none => .ret ()
  | some curr =>
    if !isJSONChar true true curr then .next s
    else if curr == 34 then .next (kvQuote json i s)
    else if s.inQuote then .next s
    else if curr == 91 || curr == 123 then .next { s with level := s.level + 1 }
    else if curr == 93 || curr == 125 then
      if s.level == 1 then
        match slice json s.start i >>= cleanValueString with
        | .ok v => .brk { s with values := s.values ++ [v] }
        | _ => .ret ()
      else .next { s with level := s.level - 1 }
    else if curr == 58 then
      if s.level == 1 then .next { s with start := i + 1 } else .next s
    else if curr == 44 then
      if s.level == 1 then
        match slice json s.start i >>= cleanValueString with
        | .ok v => .next { s with values := s.values ++ [v], start := i + 1 }
        | _ => .ret ()
      else .next s
    else .next s

/-- Body of the loop of `GetKeysValues`, inter_get.go:525-586. -/
def keysValuesBody (json : Bytes) (i : Nat) (s : KvSt) : Ctl KvSt Unit :=
  match json[i]? with
  | none => .ret ()
  | some curr =>
    if !isJSONChar true true curr then .next s
    else if curr == 34 then .next (kvQuote json i s)
    else if s.inQuote then .next s
    else if curr == 91 || curr == 123 then .next { s with level := s.level + 1 }
    else if curr == 93 || curr == 125 then
      if s.level == 1 then
        match slice json s.start i >>= cleanValueString with
        | .ok v => .brk { s with values := s.values ++ [v] }
        | _ => .ret ()
      else .next { s with level := s.level - 1 }
    else if curr == 58 then
      if s.level == 1 then
        match slice json (s.keyStart + 1) s.keyEnd with
        | .ok key => .next { s with keys := s.keys ++ [key], start := i + 1 }
        | _ => .ret ()
      else .next s
    else if curr == 44 then
      if s.level == 1 then
        match slice json s.start i >>= cleanValueString with
        | .ok v => .next { s with values := s.values ++ [v], start := i + 1 }
        | _ => .ret ()
      else .next s
    else .next s

/-- The literal `{}`. -/
def bObj : Bytes := [123, 125]
/-- The literal `[]`. -/
def bArr : Bytes := [91, 93]

/-- Start of the value a path points at, as computed at inter_get.go:319-332
(and :409-422, :501-514, inter_iter.go:115-128): spaces are skipped when there
is no path, otherwise `core(json, true, path...)`. -/
def valueStart (json : Bytes) (path : List Bytes) : Out Nat :=
  if path.length == 0 then
    match skipSpaces json 0 with
    | none => .panic
    | some s => .ok s
  else do
    let l ← core json true path
    return l.start

/-- Frame shared by `GetKeys`, `GetValues`, `GetKeysValues`: the `{}` test, the
start position, the `{` test and the loop (a `ret` from the loop is a panic). -/
def kvRun (body : Bytes → Nat → KvSt → Ctl KvSt Unit) (json : Bytes) (path : List Bytes) : Out KvSt :=
  if json == bObj then .err .empty
  else do
    let start ← valueStart json path
    let c ← idx json start
    if c == 123 then
      match forUp json.length (body json) start ⟨start, 0, 0, false, 0, [], []⟩ with
      | .ret _ => .panic
      | .done s => .ok s
    else .err .objectExpected

/-- `GetKeys`, inter_get.go:312-398. -/
def GetKeys (json : Bytes) (path : List Bytes) : Out (List Bytes) :=
  (kvRun keysBody json path).map KvSt.keys

/-- `GetValues`, inter_get.go:402-489. -/
def GetValues (json : Bytes) (path : List Bytes) : Out (List Bytes) :=
  (kvRun valuesBody json path).map KvSt.values

/-- `GetKeysValues`, inter_get.go:493-590. -/
def GetKeysValues (json : Bytes) (path : List Bytes) : Out (List Bytes × List Bytes) :=
  (kvRun keysValuesBody json path).map (fun s => (s.keys, s.values))

/-- `GetAll`, inter_get.go:629-641. -/
def GetAll (json : Bytes) (keys : List Bytes) (path : List Bytes) : Out (List Bytes) :=
  match keys with
  | [] => .ok []
  | k :: ks => do
    let v ← GetString json (path ++ [k])
    let vs ← GetAll json ks path
    return v :: vs

/-- A Go `map[string]string` with the order of first insertion (the order is not
observable through the package). -/
abbrev GoMap := List (Bytes × Bytes)

/-- `m[k] = v`. -/
def GoMap.set (m : GoMap) (k v : Bytes) : GoMap :=
  match m with
  | [] => [(k, v)]
  | (k', v') :: rest => if k' == k then (k, v) :: rest else (k', v') :: GoMap.set rest k v

/-- `m[k]`. -/
def GoMap.get? (m : GoMap) (k : Bytes) : Option Bytes :=
  match m with
  | [] => none
  | (k', v') :: rest => if k' == k then some v' else GoMap.get? rest k

/-- Loop of `GetAllMap`, inter_get.go:649-655. -/
def getAllMapLoop (json : Bytes) (path : List Bytes) : List Bytes → GoMap → Out GoMap
  | [], m => .ok m
  | k :: ks, m => do
    let v ← GetString json (path ++ [k])
    getAllMapLoop json path ks (m.set k v)

/-- `GetAllMap`, inter_get.go:645-657. -/
def GetAllMap (json : Bytes) (keys : List Bytes) (path : List Bytes) : Out GoMap :=
  getAllMapLoop json path keys []

end Jin
