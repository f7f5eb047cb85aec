import Verif.Model.Strconv
/-!
# Model.Core — `core`, the path walker of `/repo/inter_core.go`

`core(json, justStart, path...)` returns `(keyStart, start, end, error)`.
-/

namespace Jin

/-- `(keyStart, start, end)` of a successful `core` call. -/
structure Loc where
  keyStart : Int
  start : Nat
  stop : Nat
deriving DecidableEq, Repr

/-! ### Array search, index 0: inter_core.go:58-84 -/

/-- The loop of inter_core.go:62-84 looking for the first non-space byte after
`[`.  State: `(offset, braceType, currentPath)`. -/
structure ZeroSt where
  offset : Nat
  brace : UInt8
  cur : Bytes
deriving DecidableEq, Repr

/-- Body of the loop inter_core.go:62-84. -/
def zeroBody (json : Bytes) (path : List Bytes) (k : Nat) (i : Nat) (s : ZeroSt) :
    Ctl ZeroSt (Out Loc) :=
  match json[i]? with
  | none => .ret .panic
  | some curr =>
    if !space curr then
      if curr == 123 || curr == 91 then
        if k + 1 != path.length then
          match path[k + 1]? with                       -- currentPath = path[k+1]
          | none => .ret .panic
          | some p => .brk ⟨i, curr, p⟩
        else .brk ⟨i, curr, s.cur⟩
      else if k + 1 != path.length then .ret (.err .indexOutOfRange)
      else .brk s
    else .next s

/-! ### Array search, other indices: inter_core.go:85-185 -/

/-- State of the loop inter_core.go:96-179. -/
structure ArrSt where
  level : Nat
  inQuote : Bool
  found : Bool
  indexCount : Int
  offset : Nat
  brace : UInt8
  cur : Bytes
deriving DecidableEq, Repr

/-- The look-ahead loop inter_core.go:131-142: at index `n`, the first non-space
byte at or after `i+1`; `true` when it is a byte other than `[`/`{` and there is
more path to follow, i.e. when the code returns errIndexOutOfRange. -/
def peekBody (json : Bytes) (path : List Bytes) (k : Nat) (j : Nat) (_ : Unit) : Ctl Unit (Out Loc) :=
  match json[j]? with
  | none => .ret .panic
  | some curr =>
    if !space curr then
      if curr != 91 && curr != 123 then
        if k + 1 != path.length then .ret (.err .indexOutOfRange) else .brk ()
      else .brk ()
    else .next ()

/-- Body of the loop inter_core.go:96-179.  At this point `isJSONChar[44]` is
true (initial value, or restored at line 390) and `isJSONChar[58]` is false
(line 95). -/
def arrBody (json : Bytes) (path : List Bytes) (k : Nat) (arrayIndex : Int) (i : Nat) (s : ArrSt) :
    Ctl ArrSt (Out Loc) :=
  match json[i]? with
  | none => .ret .panic
  | some curr =>
    if !isJSONChar true false curr then .next s
    else if curr == 34 then
      match quoteScan json i i with
      | .real => .next { s with inQuote := !s.inQuote }
      | _ => .next s
    else if s.inQuote then .next s
    else if !s.found && s.level == 1 && curr == 44 then
      let s := { s with indexCount := s.indexCount + 1 }
      if s.indexCount == arrayIndex then
        match forUp json.length (peekBody json path k) (i + 1) () with
        | .ret r => .ret r
        | .done _ =>
          if k + 1 == path.length then .brk { s with found := true, offset := i + 1 }
          else .next { s with found := true }
      else .next s
    else if curr == 91 || curr == 123 then
      if s.found then
        match path[k + 1]? with
        | none => .ret .panic
        | some p => .brk { s with offset := i, brace := curr, cur := p }
      else .next { s with level := s.level + 1 }
    else if curr == 93 || curr == 125 then
      if s.level < 2 then .ret (.err .indexOutOfRange)
      else .next { s with level := s.level - 1 }
    else .next s

/-! ### Key search: inter_core.go:186-392 -/

/-- State of the jump loop inter_core.go:283-337 (`stop` is the index the outer
`i` is set to by `i = j`, line 328). -/
structure JumpSt where
  innerLevel : Nat
  inQuote : Bool
  stop : Option Nat
deriving DecidableEq, Repr

/-- Body of the jump loop inter_core.go:283-337 (`isJSONChar[44]` true,
`isJSONChar[58]` false, lines 273-275). -/
def jumpBody (json : Bytes) (k : Nat) (cur : Bytes) (j : Nat) (s : JumpSt) : Ctl JumpSt (Out Loc) :=
  match json[j]? with
  | none => .ret .panic
  | some curr =>
    if !isJSONChar true false curr then .next s
    else if curr == 34 then
      match quoteScan json j j with                     -- (j-1-n)%2 == 0, i.e. (j-n) odd
      | .real => .next { s with inQuote := !s.inQuote }
      | _ => .next s
    else if s.inQuote then .next s
    else if curr == 91 || curr == 123 then .next { s with innerLevel := s.innerLevel + 1 }
    else if curr == 93 || curr == 125 then
      if s.innerLevel < k + 1 then .ret (.err (.keyNotFound cur))
      else .next { s with innerLevel := s.innerLevel - 1 }
    else if curr == 44 then
      if s.innerLevel == k + 1 then .brk { s with stop := some j }
      else .next s
    else .next s

/-- State of the loop inter_core.go:200-384.  `k` is part of it because line 368
increments the outer loop variable. -/
structure KeySt where
  k : Nat
  level : Nat
  inQuote : Bool
  found : Bool
  start : Nat
  stop : Nat
  offset : Nat
  brace : UInt8
  cur : Bytes
  keyStart : Int
deriving DecidableEq, Repr

/-- The comparison inter_core.go:248-258: equal length (`end-start` is a signed
difference) and equal bytes.  `json[start+j]` is in range whenever the lengths
agree, since `end` never exceeds `len(json)`. -/
def sameKey (json : Bytes) (cur : Bytes) (start stop : Nat) : Bool :=
  (cur.length : Int) == (stop : Int) - (start : Int) && (json.drop start).take cur.length == cur

/-- Body of the loop inter_core.go:200-384 (`isJSONChar[44]` is false,
line 199/339, `isJSONChar[58]` is true, lines 184/341). -/
def keyBody (json : Bytes) (path : List Bytes) (i : Nat) (s : KeySt) : Ctl KeySt (Out Loc) :=
  match json[i]? with
  | none => .ret .panic
  | some curr =>
    if !isJSONChar false true curr then .next s
    else if curr == 34 then
      if s.found then .next s
      else if s.level != s.k + 1 then .next s
      else match quoteScan json i i with
        | .escaped => .next s                           -- goto cont
        | .real =>
          if !s.inQuote then .next { s with inQuote := true, start := i + 1 }
          else .next { s with inQuote := false, stop := i }
        | .off =>
          if s.inQuote then .next { s with start := i + 1 }
          else .next { s with stop := i }
    else if s.inQuote then .next s
    else if s.level == s.k + 1 && curr == 58 then
      if sameKey json s.cur s.start s.stop then
        if s.k + 1 == path.length then
          .brk { s with offset := i + 1, found := true, keyStart := s.start }
        else .next { s with offset := i + 1, found := true }
      else
        match forUp json.length (jumpBody json s.k s.cur) i
            ⟨s.level, s.inQuote, none⟩ with
        | .ret r => .ret r
        | .done js => .goto (js.stop.getD i) { s with inQuote := js.inQuote }
    else if curr == 91 then
      if s.found then
        match path[s.k + 1]? with
        | none => .ret .panic
        | some p => .brk { s with offset := i, brace := curr, cur := p }
      else .next { s with level := s.level + 1 }
    else if curr == 123 then
      if s.found then
        match path[s.k + 1]? with
        | none => .ret .panic
        | some p => .next { s with k := s.k + 1, cur := p, found := false, level := s.level + 1 }
      else .next { s with level := s.level + 1 }
    else if curr == 93 || curr == 125 then
      if s.level < s.k + 1 then .ret (.err (.keyNotFound s.cur))
      else .next { s with level := s.level - 1 }
    else .next s

/-! ### The loop over the path: inter_core.go:47-393 -/

/-- Variables that live across iterations of the loop inter_core.go:47. -/
structure CoreSt where
  k : Nat
  offset : Nat
  brace : UInt8
  cur : Bytes
  keyStart : Int
deriving DecidableEq, Repr

/-- One iteration of the loop inter_core.go:47-393 (before the final `k++`). -/
def coreStep (json : Bytes) (path : List Bytes) (s : CoreSt) : LoopRes CoreSt (Out Loc) :=
  if s.brace == 91 then
    match atoi s.cur with
    | none => .ret (.err .indexExpected)
    | some arrayIndex =>
      if arrayIndex == 0 then
        match forUp json.length (zeroBody json path s.k) (s.offset + 1)
            ⟨s.offset + 1, s.brace, s.cur⟩ with
        | .ret r => .ret r
        | .done z => .done { s with offset := z.offset, brace := z.brace, cur := z.cur }
      else
        match forUp json.length (arrBody json path s.k arrayIndex) s.offset
            ⟨0, false, false, 0, s.offset, s.brace, s.cur⟩ with
        | .ret r => .ret r
        | .done a =>
          if !a.found then .ret (.err .indexOutOfRange)
          else .done { s with offset := a.offset, brace := a.brace, cur := a.cur }
  else
    match forUp json.length (keyBody json path) s.offset
        ⟨s.k, s.k, false, false, 0, 0, s.offset, s.brace, s.cur, s.keyStart⟩ with
    | .ret r => .ret r
    | .done t =>
      if !t.found then .ret (.err (.keyNotFound t.cur))
      else .done ⟨t.k, t.offset, t.brace, t.cur, t.keyStart⟩

/-- The loop inter_core.go:47-393.  `k` never decreases inside an iteration, so
`len(path)` iterations (the `fuel` that `core` passes) always suffice; the
`fuel = 0` line is the loop exit. -/
def coreLoop (json : Bytes) (path : List Bytes) : Nat → CoreSt → LoopRes CoreSt (Out Loc)
  | 0, s => .done s
  | fuel + 1, s =>
    if s.k < path.length then
      match coreStep json path s with
      | .ret r => .ret r
      | .done t => coreLoop json path fuel { t with k := t.k + 1 }
    else .done s

/-! ### Extent of the value found: inter_core.go:394-489 -/

/-- Body of the loop inter_core.go:417-456.  State `(level, inQuote)`. -/
def braceBody (json : Bytes) (keyStart : Int) (offset : Nat) (i : Nat) (s : Int × Bool) :
    Ctl (Int × Bool) (Out Loc) :=
  match json[i]? with
  | none => .ret .panic
  | some curr =>
    if !isJSONChar true true curr then .next s
    else if curr == 34 then
      match quoteScan json i i with
      | .real => .next (s.1, !s.2)
      | _ => .next s
    else if s.2 then .next s
    else if curr == 91 || curr == 123 then .next (s.1 + 1, s.2)
    else if curr == 93 || curr == 125 then
      if s.1 == 1 then .ret (.ok ⟨keyStart, offset, i + 1⟩)
      else .next (s.1 - 1, s.2)
    else .next s

/-- Body of the loop inter_core.go:460-472. -/
def stringBody (json : Bytes) (keyStart : Int) (offset : Nat) (i : Nat) (_ : Unit) : Ctl Unit (Out Loc) :=
  match json[i]? with
  | none => .ret .panic
  | some curr =>
    if curr == 92 then .goto (i + 1) ()
    else if curr == 34 then .ret (.ok ⟨keyStart, offset + 1, i⟩)
    else .next ()

/-- Body of the loop inter_core.go:474-483. -/
def plainBody (json : Bytes) (keyStart : Int) (offset : Nat) (i : Nat) (_ : Unit) : Ctl Unit (Out Loc) :=
  match json[i]? with
  | none => .ret .panic
  | some curr =>
    if space curr || curr == 44 || curr == 93 || curr == 125 then
      if offset == i then .ret (.err .emptyArray)
      else .ret (.ok ⟨keyStart, offset, i⟩)
    else .next ()

/-- inter_core.go:411-489: from the first byte of the value to its extent. -/
def extent (json : Bytes) (keyStart : Int) (offset : Nat) (c : UInt8) : Out Loc :=
  let r : LoopRes Unit (Out Loc) :=
    if c == 91 || c == 123 then
      match forUp json.length (braceBody json keyStart offset) offset (0, false) with
      | .ret r => .ret r
      | .done _ => .done ()
    else if c == 34 then forUp json.length (stringBody json keyStart offset) (offset + 1) ()
    else forUp json.length (plainBody json keyStart offset) offset ()
  match r with
  | .ret r => r
  | .done _ => .err (.badJSON offset)

/-- inter_core.go:394-490: everything after the loop over the path. -/
def coreTail (json : Bytes) (justStart : Bool) (s : CoreSt) : Out Loc :=
  if s.offset == 0 then .err (.badJSON 0)
  else match skipSpaces json s.offset with
    | none => .panic
    | some offset =>
      if justStart then .ok ⟨s.keyStart, offset, 0⟩
      else match json[offset]? with
        | none => .panic
        | some c => extent json s.keyStart offset c

/-- `core`, inter_core.go:10-490. -/
def core (json : Bytes) (justStart : Bool) (path : List Bytes) : Out Loc :=
  if json.length < 2 then .err (.badJSON 0)
  else match path with
    | [] => .panic                                      -- path[0]
    | p :: _ =>
      match skipSpaces json 0 with
      | none => .panic
      | some offset =>
        match json[offset]? with
        | none => .panic
        | some brace =>
          match coreLoop json path path.length ⟨0, offset, brace, p, -1⟩ with
          | .ret r => r
          | .done s => coreTail json justStart s

end Jin
