import Verif.Model.Iter
/-!
# Model.Others — `/repo/others.go`: `Length`, `Flatten`, `Indent`
(`ParseArray` is in Model.Get)
-/

namespace Jin

/-- State of the loop others.go:21-54: `(length, level, inQuote)`. -/
structure LenSt where
  length : Nat
  level : Int
  inQuote : Bool
deriving DecidableEq, Repr

/-- Body of the loop others.go:21-54. -/
def lenBody (json : Bytes) (i : Nat) (s : LenSt) : Ctl LenSt Unit :=
  match json[i]? with
  | none => .ret ()
  | some curr =>
    if !isJSONChar true false curr then .next s
    else if curr == 34 then
      match quoteScan json i i with
      | .real => .next { s with inQuote := !s.inQuote }
      | _ => .next s
    else if s.inQuote then .next s
    else if curr == 123 || curr == 91 then .next { s with level := s.level + 1 }
    else if curr == 125 || curr == 93 then .next { s with level := s.level - 1 }
    else if curr == 44 && s.level == 1 then .next { s with length := s.length + 1 }
    else .next s

/-- `Length`, others.go:5-64. -/
def Length (json : Bytes) (path : List Bytes) : Out Nat :=
  if json == bArr || json == bObj then .ok 0
  else do
    let (start, stop) ← getStartEnd json path
    match forUp stop (lenBody json) start ⟨0, 0, false⟩ with
    | .ret _ => .panic
    | .done s =>
      if s.length == 0 then
        match firstNS json (start + 1) (stop - 1) with
        | some _ => .ok 1
        | none => .ok 0
      else .ok (s.length + 1)

/-- State of the loop others.go:71-95. -/
structure FlatSt where
  out : Bytes
  inQuote : Bool
deriving DecidableEq, Repr

/-- Body of the loop others.go:71-95. -/
def flatBody (json : Bytes) (i : Nat) (s : FlatSt) : Ctl FlatSt Unit :=
  match json[i]? with
  | none => .ret ()
  | some curr =>
    if curr == 92 then
      match json[i + 1]? with
      | some d => .goto (i + 1) { s with out := s.out ++ [curr, d] }
      | none => .goto (i + 1) { s with out := s.out ++ [curr] }
    else if curr == 34 then .next { out := s.out ++ [curr], inQuote := !s.inQuote }
    else if s.inQuote then .next { s with out := s.out ++ [curr] }
    else if !space curr then .next { s with out := s.out ++ [curr] }
    else .next s

/-- `Flatten`, others.go:68-97.  The loop indexes only `json[i]` with `i < len`
and never returns from inside, so the `ret` case does not arise. -/
def Flatten (json : Bytes) : Bytes :=
  match forUp json.length (flatBody json) 0 ⟨[], false⟩ with
  | .ret _ => []
  | .done s => s.out

/-- State of the loop others.go:107-180. -/
structure IndSt where
  out : Bytes
  inQuote : Bool
  level : Int
deriving DecidableEq, Repr

/-- Body of the loop others.go:107-180; `ret` is a panic (`json[-1]` at line 111
or a negative `make` in `createTabs`). -/
def indBody (json : Bytes) (i : Nat) (s : IndSt) : Ctl IndSt Unit :=
  match json[i]? with
  | none => .ret ()
  | some curr =>
    if curr == 34 then
      match idx json ((i : Int) - 1) with
      | .ok p =>
        if p == 92 then .next { s with out := s.out ++ [curr] }
        else .next { s with out := s.out ++ [curr], inQuote := !s.inQuote }
      | _ => .ret ()
    else if s.inQuote then .next { s with out := s.out ++ [curr] }
    else if !space curr then
      if curr == 91 || curr == 123 then
        match createTabs (s.level + 1) with
        | .ok t => .next { s with level := s.level + 1, out := s.out ++ [curr, 10] ++ t }
        | _ => .ret ()
      else if curr == 93 || curr == 125 then
        match createTabs (s.level - 1) with
        | .ok t => .next { s with level := s.level - 1, out := s.out ++ [10] ++ t ++ [curr] }
        | _ => .ret ()
      else if curr == 44 then
        match createTabs s.level with
        | .ok t => .next { s with out := s.out ++ [curr, 10] ++ t }
        | _ => .ret ()
      else if curr == 58 then .next { s with out := s.out ++ [curr, 32] }
      else .next { s with out := s.out ++ [curr] }
    else .next s

/-- `Indent`, others.go:102-182. -/
def Indent (json : Bytes) : Out Bytes :=
  let json := Flatten json
  match forUp json.length (indBody json) 0 ⟨[], false, 0⟩ with
  | .ret _ => .panic
  | .done s => .ok s.out

end Jin
