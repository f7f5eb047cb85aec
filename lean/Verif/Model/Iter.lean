import Verif.Model.Set
/-!
# Model.Iter — `/repo/inter_iter.go`, `/repo/inter_type.go`, `GetMap`, `/repo/walk.go`

A Go callback is a function on an explicit state `σ` (everything the closure may
read or write).
-/

namespace Jin

/-- What a callback `func(...) (bool, error)` does. -/
inductive Cb (σ : Type) where
  | ret (s : σ) (keepGoing : Bool) (err : Option Err)
  | panic
deriving Repr

/-- What a function `func(..., callback, ...) error` does: the state the callback
left and the returned error. -/
inductive IterRes (σ : Type) where
  | done (s : σ) (err : Option Err)
  | panic
deriving Repr, DecidableEq

/-- The escape scan of `IterateArray`, inter_iter.go:50-59: unlike `quoteScan` it
stops before index 0 (`k > 0`). -/
def quoteScan1 (json : Bytes) (i : Nat) : Nat → QScan
  | 0 => .off
  | 1 => .off
  | n + 2 =>
    if json[n + 1]? != some 92 then
      if (i - (n + 1)) % 2 != 0 then .real else .escaped
    else quoteScan1 json i (n + 1)

/-- State of the loop inter_iter.go:43-101. -/
structure IaSt (σ : Type) where
  start : Nat
  inQuote : Bool
  level : Int
  user : σ

/-- Body of the loop inter_iter.go:43-101. -/
def iaBody {σ : Type} (json : Bytes) (cb : σ → Bytes → Cb σ) (i : Nat) (s : IaSt σ) :
    Ctl (IaSt σ) (IterRes σ) :=
  match json[i]? with
  | none => .ret .panic
  | some curr =>
    if !isJSONChar true false curr then .next s
    else if curr == 34 then
      if s.inQuote then
        match quoteScan1 json i i with
        | .real => .next { s with inQuote := false }
        | _ => .next s
      else .next { s with inQuote := true }
    else if s.inQuote then .next s
    else if curr == 91 || curr == 123 then .next { s with level := s.level + 1 }
    else if curr == 93 || curr == 125 then
      if s.level < 0 then .ret (.done s.user none)
      else if curr == 93 && s.level == 0 then
        match (slice json s.start i) >>= cleanValue with
        | .ok v =>
          match cb s.user v with
          | .ret u _ e => .ret (.done u e)
          | .panic => .ret .panic
        | _ => .ret .panic
      else .next { s with level := s.level - 1 }
    else if s.level == 0 && curr == 44 then
      match (slice json s.start i) >>= cleanValue with
      | .ok v =>
        match cb s.user v with
        | .ret u _ (some e) => .ret (.done u (some e))
        | .ret u false none => .ret (.done u none)
        | .ret u true none => .next { s with user := u, start := i + 1 }
        | .panic => .ret .panic
      | _ => .ret .panic
    else .next s

/-- `IterateArray`, inter_iter.go:6-103. -/
def IterateArray {σ : Type} (json : Bytes) (cb : σ → Bytes → Cb σ) (path : List Bytes) (u : σ) : IterRes σ :=
  if json.length < 2 then .done u (some (.badJSON 0))
  else if json.length == 2 then
    if json == bArr then .done u none else .done u (some (.badJSON 0))
  else
    let start : Out Nat :=
      if path.length == 0 then
        match skipSpaces json 0 with
        | none => .err (.badJSON ((json.length : Int) - 1))     -- line 20 fires at the last byte
        | some s => .ok s
      else (core json true path).map Loc.start
    match start with
    | .panic => .panic
    | .err e => .done u (some e)
    | .ok start =>
      match json[start]? with
      | none => .panic
      | some c =>
        if c != 91 then .done u (some .arrayExpected)
        else
          match forUp json.length (iaBody json cb) (start + 1) ⟨start + 1, false, 0, u⟩ with
          | .ret r => r
          | .done s => .done s.user (some (.badJSON s.start))

/-- State of the loop inter_iter.go:140-246. -/
structure IkSt (σ : Type) where
  start : Nat
  stop : Nat
  keyStart : Nat
  keyEnd : Nat
  inQuote : Bool
  level : Int
  key : Bytes
  user : σ

/-- Quote handling, inter_iter.go:145-168. -/
def ikQuote {σ : Type} (json : Bytes) (i : Nat) (s : IkSt σ) : IkSt σ :=
  if s.inQuote then
    match quoteScan json i i with
    | .real => { s with inQuote := false, keyEnd := i }
    | .escaped => s
    | .off => { s with keyStart := i }
  else { s with inQuote := true, keyStart := i }

/-- `if json[start] == 34 && json[end] == 34 {json[start+1:end]} else {json[start:end+1]}`,
inter_iter.go:191-195, 220-229. -/
def ikValue (json : Bytes) (start stop : Nat) : Out Bytes := do
  let a ← idx json start
  if a == 34 then
    let b ← idx json stop
    if b == 34 then slice json (start + 1) stop else slice json start (stop + 1)
  else slice json start (stop + 1)

/-- Body of the loop inter_iter.go:140-246. -/
def ikBody {σ : Type} (json : Bytes) (cb : σ → Bytes → Bytes → Cb σ) (i : Nat) (s : IkSt σ) :
    Ctl (IkSt σ) (IterRes σ) :=
  match json[i]? with
  | none => .ret .panic
  | some curr =>
    if !isJSONChar true true curr then .next s
    else if curr == 34 then .next (ikQuote json i s)
    else if s.inQuote then .next s
    else if curr == 91 || curr == 123 then .next { s with level := s.level + 1 }
    else if curr == 93 || curr == 125 then
      if s.level == 1 then
        if curr == 125 then
          let start := (firstNS json s.start i).getD s.start
          let stop := (lastNS json start i).getD s.stop
          match ikValue json start stop with
          | .ok v =>
            match cb s.user s.key v with
            | .ret u _ _ => .ret (.done u none)           -- result and error dropped
            | .panic => .ret .panic
          | _ => .ret .panic
        else .ret (.done s.user none)
      else .next { s with level := s.level - 1 }
    else if s.level == 1 then
      if curr == 44 then
        let start := (firstNS json s.start i).getD s.start
        let stop := (lastNS json (start + 1) i).getD (i - 1)
        match ikValue json start stop with
        | .ok v =>
          match cb s.user s.key v with
          | .ret u _ (some e) => .ret (.done u (some e))
          | .ret u false none => .ret (.done u none)
          | .ret u true none => .next { s with user := u, start := start, stop := stop }
          | .panic => .ret .panic
        | _ => .ret .panic
      else if curr == 58 then
        match slice json (s.keyStart + 1) s.keyEnd with
        | .ok key => .next { s with key := key, start := i + 1 }
        | _ => .ret .panic
      else .next s
    else .next s

/-- `IterateKeyValue`, inter_iter.go:108-250. -/
def IterateKeyValue {σ : Type} (json : Bytes) (cb : σ → Bytes → Bytes → Cb σ) (path : List Bytes) (u : σ) :
    IterRes σ :=
  if json == bObj then .done u (some .empty)
  else
    match valueStart json path with
    | .panic => .panic
    | .err e => .done u (some e)
    | .ok start =>
      match json[start]? with
      | none => .panic
      | some c =>
        if c == 123 then
          match forUp json.length (ikBody json cb) start ⟨start, 0, 0, 0, false, 0, [], u⟩ with
          | .ret r => r
          | .done s => .done s.user none
        else .done u (some .objectExpected)

/-- Result of an iteration whose error is returned and whose state is the value. -/
def IterRes.toOut {σ α : Type} (r : IterRes σ) (f : σ → α) : Out α :=
  match r with
  | .panic => .panic
  | .done _ (some e) => .err e
  | .done s none => .ok (f s)

/-- `GetMap`, inter_get.go:593-625; `none` is the nil map of line 595. -/
def GetMap (json : Bytes) (path : List Bytes) : Out (Option GoMap) :=
  if json == bArr || json == bObj then .ok none
  else do
    let (start, stop) ← getStartEnd json path
    let a ← idx json start
    -- `json[start] == 123 && json[end] == 125`, then `json[start] == 91 && json[end] == 93`
    if a == 123 then
      let z ← idx json stop
      if z == 125 then
        (IterateKeyValue json (fun (m : GoMap) k v => .ret (m.set k v) true none) path []).toOut some
      else .err (.badJSON start)
    else if a == 91 then
      let z ← idx json stop
      if z == 93 then
        (IterateArray json (fun (m : GoMap × Nat) v => .ret (m.1.set (itoa m.2) v, m.2 + 1) true none)
          path ([], 0)).toOut (fun m => some m.1)
      else .err (.badJSON start)
    else .err (.badJSON start)

/-! ### inter_type.go -/

/-- `typeControlCore`, inter_type.go:133-165. -/
def typeControlCore (json control : Bytes) (equal : Bool) (path : List Bytes) : Out (Bool × Nat) :=
  if json.length == 0 then .err (.badJSON 0)
  else do
    let start ← valueStart json path
    -- with an empty `control` json[start] is not read here
    if control.isEmpty then return (!equal, start)
    else
      let c ← idx json start
      return (if control.contains c then equal else !equal, start)

/-- `IsObject`, inter_type.go:17-23. -/
def IsObject (json : Bytes) (path : List Bytes) : Out Bool :=
  (typeControlCore json [91, 123] true path).map Prod.fst
/-- `IsArray`, inter_type.go:28-34. -/
def IsArray (json : Bytes) (path : List Bytes) : Out Bool :=
  (typeControlCore json [91] true path).map Prod.fst
/-- `IsValue`, inter_type.go:39-45. -/
def IsValue (json : Bytes) (path : List Bytes) : Out Bool :=
  (typeControlCore json [91, 123] false path).map Prod.fst

/-- The type names, inter_type.go:5-12. -/
inductive JType where
  | array | object | string | boolean | null | number
deriving DecidableEq, Repr

/-- `GetType`, inter_type.go:49-81; `isFloat` is "`strconv.ParseFloat(val, 64)`
succeeds". -/
def GetType (isFloat : Bytes → Bool) (json : Bytes) (path : List Bytes) : Out JType := do
  let (_, start) ← typeControlCore json [] false path
  let c ← idx json start
  if c == 91 then return .array
  else if c == 123 then return .object
  else if c == 34 then return .string
  else
    let val ← GetString json path
    if val == bTrue || val == bFalse then return .boolean
    else if val == bNull then return .null
    else if (parseIntBits 64 val).isSome then return .number
    else if isFloat val then return .number
    else return .string

/-- First and last byte of the value, inter_type.go:94-115. -/
def emptySpan (json : Bytes) (path : List Bytes) : Out (Nat × Int) :=
  if path.length == 0 then
    match skipSpaces json 0, skipSpacesDown json json.length with
    | some s, some e => .ok (s, (e : Int))
    | _, _ => .panic
  else (core json false path).map fun l => (l.start, (l.stop : Int) - 1)

/-- `IsEmpty`, inter_type.go:87-131. -/
def IsEmpty (json : Bytes) (path : List Bytes) : Out Bool :=
  if json.length == 0 then .err (.badJSON 0)
  else do
    let (start, stop) ← emptySpan json path
    let a ← idx json start
    let z ← idx json stop
    if a == 91 || a == 123 then
      if a + 2 != z then .err (.badJSON stop)
      else match firstNS json (start + 1) (stop.toNat - 1) with
        | some _ => return false
        | none => return true
    else .err .objectExpected

/-! ### walk.go -/

/-- `walk`, walk.go:15-63.  Go's recursion is unbounded; `fuel` bounds the depth
and running out of it is reported as `panic` (stack exhaustion).  The scope of
the `err` variables matters: lines 22 and 34 declare a new `err` whose scope
starts after the statement, so the closures assign the outer one, which is never
read again.  `append(path, …)` may share its backing array between siblings; this
model gives each callback the value `p` has when the callback runs, `Model/Mem.lean` the slice. -/
def walk {σ : Type} (isFloat : Bytes → Bool) (json : Bytes)
    (cb : σ → Bytes → Bytes → List Bytes → Cb σ) : Nat → List Bytes → σ → IterRes σ
  | 0, _, _ => .panic
  | fuel + 1, path, u =>
    match GetType isFloat json path with
    | .panic => .panic
    | .err e => .done u (some e)
    | .ok .object =>
      IterateKeyValue json (fun u k _ =>
        match walk isFloat json cb fuel (path ++ [k]) u with
        | .panic => .panic
        | .done u (some e) => .ret u false (some e)
        | .done u none => .ret u true none) path u
    | .ok .array =>
      match IterateArray json (fun (u : σ × Nat) _ =>
        match walk isFloat json cb fuel (path ++ [itoa u.2]) u.1 with
        | .panic => .panic
        | .done u' (some e) => .ret (u', u.2) false (some e)
        | .done u' none => .ret (u', u.2 + 1) true none) path (u, 0) with
      | .panic => .panic
      | .done u e => .done u.1 e
    | .ok _ =>
      match Get json path with
      | .panic => .panic
      | .err e => .done u (some e)
      | .ok val =>
        match cb u (path.getLast?.getD []) val path with
        | .panic => .panic
        | .ret u _ e => .done u e

/-- `Walk`, walk.go:10-13 (and `JO.Walk`, walk.go:5-8).  The bound on the
depth of the recursion is enough for every text (C102). -/
def Walk {σ : Type} (isFloat : Bytes → Bool) (json : Bytes)
    (cb : σ → Bytes → Bytes → List Bytes → Cb σ) (u : σ) : IterRes σ :=
  walk isFloat json cb (json.length + 1) [] u

end Jin
