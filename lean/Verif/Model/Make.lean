import Verif.Model.Others
/-!
# Model.Make — `/repo/make.go`, `/repo/jin_object*.go`
-/

namespace Jin

/-- The Go values given to `MakeArray`/`MakeJson`, as far as `fmt.Sprintf("%v", e)`
sees them; `other t` is any further value, with its printed text `t`. -/
inductive GoVal where
  | string (s : Bytes)
  | int (n : Int)
  | bool (b : Bool)
  | nil
  | other (text : Bytes)
deriving DecidableEq, Repr

/-- `fmt.Sprintf("%v", e)`. -/
def sprintV : GoVal → Bytes
  | .string s => s
  | .int n => itoa n
  | .bool b => boolText b
  | .nil => [60, 110, 105, 108, 62]           -- <nil>
  | .other t => t

/-- The loop of the `MakeX` functions: every item followed by a comma. -/
def eachComma (items : List Bytes) : Bytes := (items.map (· ++ [44])).flatten

/-- `js = js[:len(js)-1]; js = append(js, close)` after the loop: the last byte —
the last comma, or the opening bracket when there was no item — is replaced. -/
def closeWith (js : Bytes) (close : UInt8) : Bytes := js.dropLast ++ [close]

/-- Shared shape of `MakeArray` … `MakeArrayBytes`, make.go:171-294: `none` is the
nil slice. -/
def makeArr (items : Option (List Bytes)) : Bytes :=
  match items with
  | none => bArr
  | some items => closeWith (91 :: eachComma items) 93

/-- `MakeEmptyArray`, make.go:164-166. -/
def MakeEmptyArray : Bytes := [91, 93]
/-- `MakeEmptyJson`, make.go:297-299. -/
def MakeEmptyJson : Bytes := [123, 125]

/-- `MakeArray`, make.go:171-184. -/
def MakeArray (isFloat : Bytes → Bool) (elements : Option (List GoVal)) : Bytes :=
  makeArr (elements.map (·.map fun e => formatType isFloat (sprintV e)))
/-- `MakeArrayString`, make.go:189-202. -/
def MakeArrayString (isFloat : Bytes → Bool) (values : Option (List Bytes)) : Bytes :=
  makeArr (values.map (·.map (formatType isFloat)))
/-- `MakeArrayInt`, make.go:207-220. -/
def MakeArrayInt (values : Option (List Int)) : Bytes := makeArr (values.map (·.map itoa))
/-- `MakeArrayBool`, make.go:225-246. -/
def MakeArrayBool (values : Option (List Bool)) : Bytes := makeArr (values.map (·.map boolText))
/-- `MakeArrayBytes`, make.go:281-294. -/
def MakeArrayBytes (values : Option (List Bytes)) : Bytes := makeArr values

/-- The scan make.go:259-264: index of the last `e`, or 0. -/
def lastE (num : Bytes) : Nat → Nat
  | 0 => 0
  | n + 1 => if num[n]? == some 101 then n else lastE num n

/-- Reading the digits of `s` from the value `n`, `strconv.ParseUint` passes 2^64 before a
byte that is no digit, or there is no such byte. -/
def pastRange : Nat → Bytes → Bool
  | _, [] => true
  | n, c :: cs => isDigit c && (decide (2 ^ 64 ≤ n * 10 + (c.toNat - 48)) || pastRange (n * 10 + (c.toNat - 48)) cs)

/-- The number `strconv.Atoi` returns with an error: the nearest bound for a range error
(the text had digits only, or enough of them before another byte), 0 for a syntax error. -/
def atoiBad (s : Bytes) : Int :=
  let r (ds : Bytes) (bound : Int) : Int := if ds != [] && pastRange 0 ds then bound else 0
  match s with
  | 43 :: ds => r ds (2 ^ 63 - 1)
  | 45 :: ds => r ds (-2 ^ 63)
  | ds => r ds (2 ^ 63 - 1)

/-- One element of `MakeArrayFloat`, make.go:258-270; `exp, _ := Atoi(...)` keeps the number
and drops the error. -/
def floatItem (num : Bytes) : Out Bytes := do
  let start := lastE num num.length
  let tail ← slice num (start + 2) num.length
  let exp := (atoi tail).getD (atoiBad tail)
  if exp == 0 then slice num 0 start else return num

/-- All elements. -/
def floatItems : List Bytes → Out (List Bytes)
  | [] => .ok []
  | x :: xs => do
    let y ← floatItem x
    let ys ← floatItems xs
    return y :: ys

/-- `MakeArrayFloat`, make.go:251-276. -/
def MakeArrayFloat {F : Type} (fl : FloatLib F) (values : Option (List F)) : Out Bytes :=
  match values with
  | none => .ok bArr
  | some vs => do
    let items ← floatItems (vs.map fl.format)
    return makeArr (some items)

/-- One member: `"key":value`. -/
def memberText (k v : Bytes) : Bytes := 34 :: k ++ [34, 58] ++ v

/-- Shared shape of `MakeJson`, `MakeJsonString`, `MakeJsonWithMap`. -/
def makeObj (members : List (Bytes × Bytes)) : Bytes :=
  closeWith (123 :: eachComma (members.map fun m => memberText m.1 m.2)) 125

/-- `MakeJsonString`, make.go:327-347; `keys = none` is nil.  The nil result of
line 329 is the empty list. -/
def MakeJsonString (isFloat : Bytes → Bool) (keys : Option (List Bytes)) (values : List Bytes) : Bytes :=
  if (keys.getD []).length != values.length then []
  else match keys with
    | none => [123, 125]
    | some ks => makeObj (ks.zip (values.map (formatType isFloat)))

/-- `MakeJson`, make.go:304-324. -/
def MakeJson (isFloat : Bytes → Bool) (keys : Option (List Bytes)) (values : List GoVal) : Bytes :=
  if (keys.getD []).length != values.length then []
  else match keys with
    | none => [123, 125]
    | some ks => makeObj (ks.zip (values.map fun e => formatType isFloat (sprintV e)))

/-- `MakeJsonWithMap`, make.go:350-367.  Go's map iteration order is unspecified:
the argument is the list of entries in the order the runtime picks, and theorems
quantify over every such list. -/
def MakeJsonWithMap (isFloat : Bytes → Bool) (entries : Option (List (Bytes × Bytes))) : Bytes :=
  match entries with
  | none => [123, 125]
  | some es => makeObj (es.map fun e => (e.1, formatType isFloat e.2))

/-! ### Scheme, make.go:12-161.  `append` in `Scheme.Add` is modelled as producing
a fresh list; `Model/Mem.lean` has the slices in memory, and C78 proves that the keys are the
same. -/

/-- make.go:12-15. -/
structure Scheme where
  originalKeys : List Bytes
  keys : List Bytes
  originalNil : Bool        -- is the slice `originalKeys` nil?
  keysNil : Bool            -- is the slice `keys` nil?
deriving DecidableEq, Repr

/-- `MakeScheme(k1, …, kn)`, make.go:20-22 (with no argument the variadic slice is nil). -/
def MakeScheme (keys : List Bytes) : Scheme := ⟨keys, keys, keys.isEmpty, keys.isEmpty⟩
/-- `Scheme.Add`, make.go:112-120. -/
def Scheme.Add (s : Scheme) (key : Bytes) : Scheme × Bool :=
  if s.keys.contains key then (s, false) else ({ s with keys := s.keys ++ [key], keysNil := false }, true)
/-- `Scheme.Remove`, make.go:125-137. -/
def Scheme.Remove (s : Scheme) (key : Bytes) : Scheme × Bool :=
  ({ s with keys := s.keys.filter (fun k => k != key), keysNil := false }, s.keys.contains key)
/-- `Scheme.Save`, make.go:141-143. -/
def Scheme.Save (s : Scheme) : Scheme := { s with originalKeys := s.keys, originalNil := s.keysNil }
/-- `Scheme.Restore`, make.go:147-149. -/
def Scheme.Restore (s : Scheme) : Scheme := { s with keys := s.originalKeys, keysNil := s.originalNil }
/-- `s.keys` as a possibly nil slice. -/
def Scheme.keySlice (s : Scheme) : Option (List Bytes) := if s.keysNil then none else some s.keys
/-- `Scheme.MakeJson`, make.go:26-28. -/
def Scheme.MakeJson (isFloat : Bytes → Bool) (s : Scheme) (values : List GoVal) : Bytes :=
  Jin.MakeJson isFloat s.keySlice values
/-- `Scheme.MakeJsonString`, make.go:32-34. -/
def Scheme.MakeJsonString (isFloat : Bytes → Bool) (s : Scheme) (values : List Bytes) : Bytes :=
  Jin.MakeJsonString isFloat s.keySlice values

/-- `Scheme.Check`, make.go:74-82. -/
def schemeCheck (json : Bytes) : List Bytes → Out Bool
  | [] => .ok true
  | k :: ks =>
    match Get json [k] with
    | .panic => .panic
    | .err _ => .ok false
    | .ok _ => schemeCheck json ks
/-- `Scheme.Check`, make.go:74-82. -/
def Scheme.Check (s : Scheme) (json : Bytes) : Out Bool := schemeCheck json s.keys

/-- `Scheme.CheckAbs`, make.go:85-107. -/
def Scheme.CheckAbs (s : Scheme) (json : Bytes) : Out Bool :=
  match GetKeys json [] with
  | .panic => .panic
  | .err _ => .ok false
  | .ok keys =>
    if keys.length != s.keys.length then .ok false
    else .ok (keys.all fun k => s.keys.contains k)

/-- Loop of `Scheme.MutateJson`, make.go:41-50: the value of a missing key is `""`,
formatted (twice) to `""`; `newJson` is overwritten with what
`AddKeyValueString` returns even on error.  Line 47 returns `err`, which is nil
there, together with a nil slice: `none`. -/
def mutateLoop (isFloat : Bytes → Bool) (json : Bytes) : List Bytes → Bytes → Out (Option Bytes)
  | [], acc => .ok (some acc)
  | k :: ks, acc =>
    match GetString json [k] with
    | .panic => .panic
    | r =>
      let val := match r with
        | .ok v => v
        | _ => []
      match AddKeyValueString isFloat acc k (formatType isFloat val) [] with
      | .panic => .panic
      | .done acc' err2 =>
        match r, err2 with
        | .ok _, some _ => .ok none
        | _, _ => mutateLoop isFloat json ks acc'

/-- `Scheme.MutateJson`, make.go:37-52. -/
def Scheme.MutateJson (isFloat : Bytes → Bool) (s : Scheme) (json : Bytes) : Out (Option Bytes) :=
  mutateLoop isFloat json s.keys [123, 125]

/-- Loop of `Scheme.MutateJsonAbs`, make.go:59-69. -/
def mutateAbsLoop (isFloat : Bytes → Bool) (json : Bytes) : List Bytes → Bytes → Out Bytes
  | [], acc => .ok acc
  | k :: ks, acc => do
    let val ← GetString json [k]
    match AddKeyValueString isFloat acc k (formatType isFloat val) [] with
    | .panic => .panic
    | .done _ (some e) => .err e
    | .done acc' none => mutateAbsLoop isFloat json ks acc'

/-- `Scheme.MutateJsonAbs`, make.go:55-71. -/
def Scheme.MutateJsonAbs (isFloat : Bytes → Bool) (s : Scheme) (json : Bytes) : Out Bytes :=
  mutateAbsLoop isFloat json s.keys [123, 125]

/-! ### JO, jin_object*.go.  A method that mutates returns the new `body` and its
error as a `Mut`. -/

/-- jin_object.go:5-7. -/
structure JO where
  body : Bytes
deriving DecidableEq, Repr

/-- `NewJSON`, jin_object.go:9-11. -/
def NewJSON : JO := ⟨[123, 125]⟩
/-- `New`, jin_object.go:14-16. -/
def New (b : Bytes) : JO := ⟨b⟩

/-- The mutating calls of the `JO` API, jin_object_add.go, jin_object_set.go,
jin_object_others.go:4-8. -/
inductive JOp (F : Type) where
  | addKeyValue (key : Bytes) (value : Option Bytes) (path : List Bytes)
  | add (value : Bytes) (path : List Bytes)
  | insert (index : Int) (value : Bytes) (path : List Bytes)
  | addKeyValueString (key value : Bytes) (path : List Bytes)
  | addKeyValueInt (key : Bytes) (value : Int) (path : List Bytes)
  | addKeyValueFloat (key : Bytes) (value : F) (path : List Bytes)
  | addKeyValueBool (key : Bytes) (value : Bool) (path : List Bytes)
  | addString (value : Bytes) (path : List Bytes)
  | addInt (value : Int) (path : List Bytes)
  | addFloat (value : F) (path : List Bytes)
  | addBool (value : Bool) (path : List Bytes)
  | insertString (index : Int) (value : Bytes) (path : List Bytes)
  | insertInt (index value : Int) (path : List Bytes)
  | insertFloat (index : Int) (value : F) (path : List Bytes)
  | insertBool (index : Int) (value : Bool) (path : List Bytes)
  | store (key : Bytes) (value : Option Bytes) (path : List Bytes)
  | storeString (key value : Bytes) (path : List Bytes)
  | storeInt (key : Bytes) (value : Int) (path : List Bytes)
  | storeFloat (key : Bytes) (value : F) (path : List Bytes)
  | storeBool (key : Bytes) (value : Bool) (path : List Bytes)
  | set (newValue : Bytes) (path : List Bytes)
  | setString (newValue : Bytes) (path : List Bytes)
  | setInt (newValue : Int) (path : List Bytes)
  | setFloat (newValue : F) (path : List Bytes)
  | setBool (newValue : Bool) (path : List Bytes)
  | setKey (newKey : Bytes) (path : List Bytes)
  | delete (path : List Bytes)

/-- `JO.Store`, jin_object_add.go:110-125 (its own copy of the code of `Store`). -/
def JO.Store (j : JO) (key : Bytes) (value : Option Bytes) (path : List Bytes) : Mut :=
  match core j.body false (path ++ [key]) with
  | .panic => .panic
  | .err e =>
    if errEqual (some e) codeKeyNotFound then AddKeyValue j.body key value path
    else .done j.body (some e)
  | .ok l => replaceValue j.body (value.getD []) l.start l.stop

/-- One mutating call: the new body and the returned error. -/
def JO.step {F : Type} (fl : FloatLib F) (j : JO) : JOp F → Mut
  | .addKeyValue k v p => AddKeyValue j.body k v p              -- jin_object_add.go:6-10
  | .add v p => Add j.body v p                                  -- :13-17
  | .insert i v p => Insert j.body i v p                        -- :20-24
  | .addKeyValueString k v p => AddKeyValueString fl.accepts j.body k v p  -- :27-31
  | .addKeyValueInt k v p => AddKeyValueInt j.body k v p        -- :34-38
  | .addKeyValueFloat k v p => AddKeyValueFloat fl j.body k v p -- :41-45
  | .addKeyValueBool k v p => AddKeyValueBool j.body k v p      -- :48-52
  | .addString v p => AddString fl.accepts j.body v p           -- :55-59
  | .addInt v p => AddInt j.body v p                            -- :62-66
  | .addFloat v p => AddFloat fl j.body v p                     -- :69-73
  | .addBool v p => AddBool j.body v p                          -- :76-80
  | .insertString i v p => InsertString fl.accepts j.body i v p -- :83-87
  | .insertInt i v p => InsertInt j.body i v p                  -- :90-94
  | .insertFloat i v p => InsertFloat fl j.body i v p           -- :97-101
  | .insertBool i v p => InsertBool j.body i v p                -- :104-108
  | .store k v p => j.Store k v p                               -- :110-125
  | .storeString k v p => Jin.Store j.body k (some v) p             -- :128-132, no formatType
  | .storeInt k v p => Jin.Store j.body k (some (itoa v)) p         -- :135-139
  | .storeFloat k v p => Jin.Store j.body k (some (fl.format v)) p  -- :142-146
  | .storeBool k v p => Jin.Store j.body k (some (boolText v)) p    -- :149-157
  | .set v p => Set j.body v p                                  -- jin_object_set.go:4-8
  | .setString v p => SetString fl.accepts j.body v p           -- :11-15
  | .setInt v p => SetInt j.body v p                            -- :18-22
  | .setFloat v p => SetFloat fl j.body v p                     -- :25-29
  | .setBool v p => SetBool j.body v p                          -- :32-36
  | .setKey k p => SetKey j.body k p                            -- :39-43
  | .delete p => Delete j.body p                                -- jin_object_others.go:4-8

end Jin
