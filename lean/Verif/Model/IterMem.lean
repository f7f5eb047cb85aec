import Verif.Model.ByteMem
/-!
# Model.IterMem — `/repo/inter_iter.go`, `/repo/walk.go` on byte slices in memory

A callback gets slices of the document and may write memory, so the loops read the document anew at
every step.
-/

namespace Jin

/-- Body of the loop inter_iter.go:43-101. -/
def iaBodyMem {σ : Type} (json : BSlice) (cb : BHeap × σ → BSlice → Cb (BHeap × σ)) (i : Nat) (s : IaSt (BHeap × σ)) :
    Ctl (IaSt (BHeap × σ)) (IterRes (BHeap × σ)) :=
  match (s.user.1.read json)[i]? with
  | none => .ret .panic
  | some curr =>
    if !isJSONChar true false curr then .next s
    else if curr == 34 then
      if s.inQuote then
        match quoteScan1 (s.user.1.read json) i i with
        | .real => .next { s with inQuote := false }
        | _ => .next s
      else .next { s with inQuote := true }
    else if s.inQuote then .next s
    else if curr == 91 || curr == 123 then .next { s with level := s.level + 1 }
    else if curr == 93 || curr == 125 then
      if s.level < 0 then .ret (.done s.user none)
      else if curr == 93 && s.level == 0 then
        match (json.sub s.start i).bind (cleanValueMem s.user.1) with
        | some v =>
          match cb s.user v with
          | .ret u _ e => .ret (.done u e)
          | .panic => .ret .panic
        | none => .ret .panic
      else .next { s with level := s.level - 1 }
    else if s.level == 0 && curr == 44 then
      match (json.sub s.start i).bind (cleanValueMem s.user.1) with
      | some v =>
        match cb s.user v with
        | .ret u _ (some e) => .ret (.done u (some e))
        | .ret u false none => .ret (.done u none)
        | .ret u true none => .next { s with user := u, start := i + 1 }
        | .panic => .ret .panic
      | none => .ret .panic
    else .next s

/-- `IterateArray`, inter_iter.go:6-103. -/
def IterateArrayMem {σ : Type} (json : BSlice) (cb : BHeap × σ → BSlice → Cb (BHeap × σ)) (path : List Bytes) (u : BHeap × σ) :
    IterRes (BHeap × σ) :=
  let doc := u.1.read json
  if json.len < 2 then .done u (some (.badJSON 0))
  else if json.len == 2 then
    if doc == bArr then .done u none else .done u (some (.badJSON 0))
  else
    let start : Out Nat :=
      if path.length == 0 then
        match skipSpaces doc 0 with
        | none => .err (.badJSON ((json.len : Int) - 1))
        | some s => .ok s
      else (core doc true path).map Loc.start
    match start with
    | .panic => .panic
    | .err e => .done u (some e)
    | .ok start =>
      match doc[start]? with
      | none => .panic
      | some c =>
        if c != 91 then .done u (some .arrayExpected)
        else
          match forUp json.len (iaBodyMem json cb) (start + 1) ⟨start + 1, false, 0, u⟩ with
          | .ret r => r
          | .done s => .done s.user (some (.badJSON s.start))

/-- State of the loop inter_iter.go:140-246: `key` is a slice of the document, kept until the next
colon. -/
structure IkMem (σ : Type) where
  start : Nat
  stop : Nat
  keyStart : Nat
  keyEnd : Nat
  inQuote : Bool
  level : Int
  key : BSlice
  user : BHeap × σ

/-- Quote handling, inter_iter.go:145-168. -/
def ikQuoteMem {σ : Type} (json : BSlice) (i : Nat) (s : IkMem σ) : IkMem σ :=
  if s.inQuote then
    match quoteScan (s.user.1.read json) i i with
    | .real => { s with inQuote := false, keyEnd := i }
    | .escaped => s
    | .off => { s with keyStart := i }
  else { s with inQuote := true, keyStart := i }

/-- inter_iter.go:191-195 and 220-229; `none` is a panic. -/
def ikValueMem (h : BHeap) (json : BSlice) (start stop : Nat) : Option BSlice :=
  match (h.read json)[start]? with
  | none => none
  | some a =>
    if a == 34 then
      match (h.read json)[stop]? with
      | none => none
      | some b => if b == 34 then json.sub (start + 1) stop else json.sub start (stop + 1)
    else json.sub start (stop + 1)

/-- Body of the loop inter_iter.go:140-246. -/
def ikBodyMem {σ : Type} (json : BSlice) (cb : BHeap × σ → BSlice → BSlice → Cb (BHeap × σ)) (i : Nat) (s : IkMem σ) :
    Ctl (IkMem σ) (IterRes (BHeap × σ)) :=
  match (s.user.1.read json)[i]? with
  | none => .ret .panic
  | some curr =>
    if !isJSONChar true true curr then .next s
    else if curr == 34 then .next (ikQuoteMem json i s)
    else if s.inQuote then .next s
    else if curr == 91 || curr == 123 then .next { s with level := s.level + 1 }
    else if curr == 93 || curr == 125 then
      if s.level == 1 then
        if curr == 125 then
          let start := (firstNS (s.user.1.read json) s.start i).getD s.start
          let stop := (lastNS (s.user.1.read json) start i).getD s.stop
          match ikValueMem s.user.1 json start stop with
          | some v =>
            match cb s.user s.key v with
            | .ret u _ _ => .ret (.done u none)
            | .panic => .ret .panic
          | none => .ret .panic
        else .ret (.done s.user none)
      else .next { s with level := s.level - 1 }
    else if s.level == 1 then
      if curr == 44 then
        let start := (firstNS (s.user.1.read json) s.start i).getD s.start
        let stop := (lastNS (s.user.1.read json) (start + 1) i).getD (i - 1)
        match ikValueMem s.user.1 json start stop with
        | some v =>
          match cb s.user s.key v with
          | .ret u _ (some e) => .ret (.done u (some e))
          | .ret u false none => .ret (.done u none)
          | .ret u true none => .next { s with user := u, start := start, stop := stop }
          | .panic => .ret .panic
        | none => .ret .panic
      else if curr == 58 then
        match json.sub (s.keyStart + 1) s.keyEnd with
        | some key => .next { s with key := key, start := i + 1 }
        | none => .ret .panic
      else .next s
    else .next s

/-- `IterateKeyValue`, inter_iter.go:108-250. -/
def IterateKeyValueMem {σ : Type} (json : BSlice) (cb : BHeap × σ → BSlice → BSlice → Cb (BHeap × σ)) (path : List Bytes)
    (u : BHeap × σ) : IterRes (BHeap × σ) :=
  let doc := u.1.read json
  if doc == bObj then .done u (some .empty)
  else
    match valueStart doc path with
    | .panic => .panic
    | .err e => .done u (some e)
    | .ok start =>
      match doc[start]? with
      | none => .panic
      | some c =>
        if c == 123 then
          match forUp json.len (ikBodyMem json cb) start ⟨start, 0, 0, 0, false, 0, .nil, u⟩ with
          | .ret r => r
          | .done s => .done s.user none
        else .done u (some .objectExpected)

/-- `walk`, walk.go:15-63.  The path is a value here; `Model/Mem.lean` has its memory. -/
def walkBytes {σ : Type} (isFloat : Bytes → Bool) (json : BSlice)
    (cb : BHeap × σ → Bytes → BSlice → List Bytes → Cb (BHeap × σ)) : Nat → List Bytes → BHeap × σ → IterRes (BHeap × σ)
  | 0, _, _ => .panic
  | fuel + 1, path, u =>
    match GetType isFloat (u.1.read json) path with
    | .panic => .panic
    | .err e => .done u (some e)
    | .ok .object =>
      IterateKeyValueMem json (fun u k _ =>
        match walkBytes isFloat json cb fuel (path ++ [u.1.read k]) u with
        | .panic => .panic
        | .done u (some e) => .ret u false (some e)
        | .done u none => .ret u true none) path u
    | .ok .array =>
      match IterateArrayMem json (fun (u : BHeap × (σ × Nat)) _ =>
        match walkBytes isFloat json cb fuel (path ++ [itoa u.2.2]) (u.1, u.2.1) with
        | .panic => .panic
        | .done u' (some e) => .ret (u'.1, (u'.2, u.2.2)) false (some e)
        | .done u' none => .ret (u'.1, (u'.2, u.2.2 + 1)) true none) path (u.1, (u.2, 0)) with
      | .panic => .panic
      | .done u e => .done (u.1, u.2.1) e
    | .ok _ =>
      match GetMem u.1 json path with
      | .panic => .panic
      | .err e => .done u (some e)
      | .ok val =>
        match cb u (path.getLast?.getD []) val path with
        | .panic => .panic
        | .ret u _ e => .done u e

/-- `Walk`, walk.go:10-13. -/
def WalkBytes {σ : Type} (isFloat : Bytes → Bool) (json : BSlice)
    (cb : BHeap × σ → Bytes → BSlice → List Bytes → Cb (BHeap × σ)) (u : BHeap × σ) : IterRes (BHeap × σ) :=
  walkBytes isFloat json cb (json.len + 1) [] u

end Jin
