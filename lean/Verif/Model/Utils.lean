import Verif.Model.Core
/-!
# Model.Utils — `/repo/utils.go` and `/repo/errors.go`
-/

namespace Jin

/-! ### errors.go -/

/-- Numeric error code, errors.go:8-27; `none` for an error the package did not
build. -/
def Err.code : Err → Option Int
  | .nullPath => some 0
  | .emptyArray => some 2
  | .indexExpected => some 3
  | .objectExpected => some 5
  | .arrayExpected => some 6
  | .indexOutOfRange => some 7
  | .keyNotFound _ => some 8
  | .badJSON _ => some 9
  | .keyAlreadyExist _ => some 11
  | .integerParse _ => some 12
  | .floatParse _ => some 13
  | .boolParse _ => some 14
  | .stringArrayParse _ => some 15
  | .integerArrayParse _ => some 16
  | .floatArrayParse _ => some 17
  | .boolArrayParse _ => some 18
  | .nullKey => some 19
  | .empty => some 20
  | .other _ => none

/-- `fmt.Sprintf("%02d", n)` for the codes `0 … 99` used by the package. -/
def fmt02 (n : Nat) : Bytes := [digitChar (n / 10), digitChar (n % 10)]

/-- ` error_code: ` -/
def bCode : Bytes := [32, 101, 114, 114, 111, 114, 95, 99, 111, 100, 101, 58, 32]

example : bCode = str " error_code: " := by decide +kernel

/-- The text of the message before ` error_code: NN`, errors.go:46-133. -/
def Err.text : Err → Bytes
  | .nullPath => str "error: path cannot be null"
  | .emptyArray => str "error: array is empty"
  | .indexExpected => str "error: index expected, got key value"
  | .objectExpected => str "error: last path must be pointed at an object"
  | .arrayExpected => str "error: last path must be pointed at an array"
  | .indexOutOfRange => str "error: index out of range"
  | .keyNotFound k => str "error: key '" ++ k ++ str "' not found"
  | .badJSON n => str "error: bad json format. at:'" ++ itoa n ++ str "'"
  | .keyAlreadyExist k => str "error: key '" ++ k ++ str "' already exist"
  | .integerParse v => str "parse error: '" ++ v ++ str "' cannot be converted to int."
  | .floatParse v => str "parse error: '" ++ v ++ str "' cannot be converted to float."
  | .boolParse v => str "parse error: '" ++ v ++ str "' cannot be converted to bool."
  | .stringArrayParse v => str "parse error: '" ++ v ++ str "' cannot be converted to []string."
  | .integerArrayParse v => str "parse error: '" ++ v ++ str "' cannot be converted to []int."
  | .floatArrayParse v => str "parse error: '" ++ v ++ str "' cannot be converted to []float."
  | .boolArrayParse v => str "parse error: '" ++ v ++ str "' cannot be converted to []bool."
  | .nullKey => str "error: new key cannot be null"
  | .empty => str "error: Object/Array is empty"
  | .other m => m

/-- `err.Error()`: errors.go:46-133 (`fmt.Errorf("… error_code: %02d", …, code)`). -/
def Err.msg (e : Err) : Bytes :=
  match e.code with
  | some c => e.text ++ bCode ++ fmt02 c.toNat
  | none => e.text

/-- `ErrEqual`, errors.go:29-43; `none` is the `nil` error. -/
def errEqual (e : Option Err) (code : Int) : Bool :=
  match e with
  | none => false
  | some e =>
    let s := e.msg
    if s.length < 2 then false
    else match atoi (s.drop (s.length - 2)) with
      | none => false
      | some c => c == code

/-- `ErrCodeKeyNotFound`, errors.go:15. -/
def codeKeyNotFound : Int := 8

/-! ### utils.go -/

/-- `replace`, utils.go:8-14: `json[:start] + newValue + json[end:]`. -/
def replace (json newValue : Bytes) (start stop : Int) : Out Bytes := do
  let a ← slice json 0 start
  let b ← slice json stop json.length
  return a ++ newValue ++ b

/-- `createTabs`, utils.go:36-42 (`make` panics on a negative length). -/
def createTabs (n : Int) : Out Bytes :=
  if n < 0 then .panic else .ok (List.replicate n.toNat 9)

/-- `stripQuotes`, utils.go:45-52. -/
def stripQuotes (s : Bytes) : Bytes :=
  if s.length > 1 then
    if s.head? == some 34 && s.getLast? == some 34 then (s.drop 1).dropLast else s
  else s

/-- `isBool`, utils.go:90-92. -/
def isBool (v : Bytes) : Bool := v == bTrue || v == bFalse

/-- `isInt`, utils.go:99-102 (`strconv.ParseInt(val, 10, 32)`). -/
def isInt (v : Bytes) : Bool := (parseIntBits 32 v).isSome

/-- `"` + v + `"`. -/
def quote (v : Bytes) : Bytes := 34 :: v ++ [34]

/-- `formatType`, utils.go:54-88; `isFloat` (utils.go:94-97) is the parameter. -/
def formatType (isFloat : Bytes → Bool) (v : Bytes) : Bytes :=
  match v with
  | [] => [34, 34]
  | c :: _ =>
    if isBool v then v
    else if isInt v then
      if c == 48 && v.length > 1 then quote v else v
    else if isFloat v then v
    else if v == bNull then v
    else
      let e := v.getLast?
      if c == 34 && e == some 34 then v
      else if c == 91 && e == some 93 then v
      else if c == 123 && e == some 125 then v
      else quote v

/-- First loop of `cleanValueString`, utils.go:107-109. -/
def cvsUp (s : Bytes) (i : Nat) : Nat :=
  match h : s[i]? with
  | none => i
  | some c => if space c && i + 1 < s.length then cvsUp s (i + 1) else i
termination_by s.length - i
decreasing_by
  have := (List.getElem?_eq_some_iff.1 h).1
  omega

/-- Second loop of `cleanValueString`, utils.go:111-113. -/
def cvsDown (s : Bytes) : Nat → Nat
  | 0 => 0
  | n + 1 =>
    match s[n + 1]? with
    | none => n + 1
    | some c => if space c && n + 1 > 1 then cvsDown s n else n + 1

/-- The common end of `cleanValueString` (utils.go:114-118) and `cleanValue`
(utils.go:140-144). -/
def unquoteSlice (s : Bytes) (start stop : Nat) : Out Bytes := do
  let a ← idx s start
  if a == 34 then
    let b ← idx s stop
    if b == 34 then slice s (start + 1) stop     -- str[start+1 : (end-1)+1]
    else slice s start (stop + 1)
  else slice s start (stop + 1)

/-- `cleanValueString`, utils.go:104-119 (`str[0]` panics on the empty string). -/
def cleanValueString (s : Bytes) : Out Bytes :=
  if s.length == 0 then .panic
  else unquoteSlice s (cvsUp s 0) (cvsDown s (s.length - 1))

/-- First non-space index in `[i, hi)`: `for j := i; j < hi; j++ { if !space(json[j]) {…; break} }`. -/
def firstNS (json : Bytes) (i hi : Nat) : Option Nat :=
  if i < hi then
    match json[i]? with
    | none => none
    | some c => if space c then firstNS json (i + 1) hi else some i
  else none
termination_by hi - i

/-- Last non-space index in `[lo, hi)`: `for j := hi-1; j >= lo; j-- { if !space(json[j]) {…; break} }`. -/
def lastNS (json : Bytes) (lo : Nat) : Nat → Option Nat
  | 0 => none
  | n + 1 =>
    if n < lo then none
    else match json[n]? with
      | none => none
      | some c => if space c then lastNS json lo n else some n

/-- `cleanValue`, utils.go:121-145: the first loop looks at `[0, lens-1)`, the
second at `(start, lens-1]`; when a loop finds no non-space byte its variable
ends at the far bound. -/
def cleanValue (s : Bytes) : Out Bytes :=
  if s.length == 0 then .ok s
  else
    let lens := s.length
    let start := (firstNS s 0 (lens - 1)).getD (lens - 1)
    let stop := (lastNS s (start + 1) lens).getD start
    unquoteSlice s start stop

/-- `getStartEnd`, utils.go:151-183. -/
def getStartEnd (json : Bytes) (path : List Bytes) : Out (Nat × Nat) :=
  if json.length < 2 then .err (.badJSON 0)
  else if path.length != 0 then do
    let l ← core json false path
    return (l.start, l.stop)
  else
    match skipSpaces json 0 with
    | none => .panic
    | some start =>
      -- the test `end < start` cannot fire: json[start] is not a space
      match skipSpacesDown json json.length with
      | none => .panic
      | some stop => .ok (start, stop)

end Jin
