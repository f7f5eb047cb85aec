import Verif.Model.Iter
/-!
# Model.ByteMem — byte slices in memory

The other model files take a document as a value, and count a slice expression that reaches beyond
`len` as a panic.  In Go a `[]byte` is an array in memory, an offset, a length and a capacity: a
slice expression may reach up to the capacity, `append` writes into the array when there is room,
and a part of a slice shares its memory.  This file models the functions that are given a document
and return one, or return a part of it, on that memory.  Reading (`core`, the loops over `json[i]`)
is by length only, so it is that of the other files on the bytes of the slice.
-/

namespace Jin

/-- Memory: the arrays of bytes allocated so far, each with all its cells. -/
abbrev BHeap := List Bytes

/-- A slice header of Go: array, offset of its first byte, length, capacity. -/
structure BSlice where
  blk : Nat
  off : Nat
  len : Nat
  cap : Nat
deriving Repr, DecidableEq

/-- The `nil` slice. -/
def BSlice.nil : BSlice := ⟨0, 0, 0, 0⟩

/-- The cells of an array. -/
def BHeap.block (h : BHeap) (b : Nat) : Bytes := h[b]?.getD []

/-- The bytes of a slice. -/
def BHeap.read (h : BHeap) (s : BSlice) : Bytes := ((h.block s.blk).drop s.off).take s.len

/-- Writing bytes into an array, from cell `off` on. -/
def BHeap.write (h : BHeap) (b off : Nat) (x : Bytes) : BHeap :=
  h.modify b (fun c => c.take off ++ x ++ c.drop (off + x.length))

/-- `make([]byte, len, cap)`. -/
def BHeap.make (h : BHeap) (len cap : Nat) : BHeap × BSlice :=
  (h ++ [List.replicate cap 0], ⟨h.length, 0, len, cap⟩)

/-- `append(s, x...)` of the Go language: in place when the capacity allows it, else in a new array,
whose spare capacity the language leaves open: `grow n` is its amount for a new length `n`. -/
def BHeap.append (grow : Nat → Nat) (h : BHeap) (s : BSlice) (x : Bytes) : BHeap × BSlice :=
  if s.len + x.length ≤ s.cap then (h.write s.blk (s.off + s.len) x, { s with len := s.len + x.length })
  else
    let n := s.len + x.length
    (h ++ [h.read s ++ x ++ List.replicate (grow n) 0], ⟨h.length, 0, n, n + grow n⟩)

/-- `[]byte(x)` for a string `x`: a new array, again with open spare capacity. -/
def BHeap.ofString (grow : Nat → Nat) (h : BHeap) (x : Bytes) : BHeap × BSlice :=
  (h ++ [x ++ List.replicate (grow x.length) 0], ⟨h.length, 0, x.length, x.length + grow x.length⟩)

/-- The slice expression `s[lo:hi]`: it may reach up to the capacity; `none` is a panic. -/
def BSlice.sub (s : BSlice) (lo hi : Int) : Option BSlice :=
  if 0 ≤ lo ∧ lo ≤ hi ∧ hi ≤ s.cap then some ⟨s.blk, s.off + lo.toNat, (hi - lo).toNat, s.cap - lo.toNat⟩ else none

/-- `replace`, utils.go:8-14; `none` is a panic. -/
def replaceMem (grow : Nat → Nat) (h : BHeap) (json newValue : BSlice) (start stop : Int) : Option BSlice × BHeap :=
  let n : Int := json.len - stop + start + newValue.len
  if n < 0 then (none, h)                                -- make([]byte, 0, n)
  else
    let (h, new) := h.make 0 n.toNat
    match json.sub 0 start with
    | none => (none, h)
    | some a =>
      let (h, new) := h.append grow new (h.read a)
      let (h, new) := h.append grow new (h.read newValue)
      match json.sub stop json.len with
      | none => (none, h)
      | some b =>
        let (h, new) := h.append grow new (h.read b)
        (some new, h)

/-- Result of a mutating function, in memory. -/
inductive MutS where
  | done (json : BSlice) (err : Option Err)
  | panic
deriving Repr, DecidableEq

/-- `return x, nil`, or a panic. -/
def MutS.ofReplace : Option BSlice × BHeap → MutS × BHeap
  | (some s, h) => (.done s none, h)
  | (none, h) => (.panic, h)

/-- Continue with a value, turning an error into `return json, err`. -/
def MutS.bindOut {α : Type} (h : BHeap) (json : BSlice) (x : Out α) (f : α → MutS × BHeap) : MutS × BHeap :=
  match x with
  | .ok a => f a
  | .err e => (.done json (some e), h)
  | .panic => (.panic, h)

/-- inter_set.go:19-22 and 102-105. -/
def replaceValueMem (grow : Nat → Nat) (h : BHeap) (json newValue : BSlice) (start stop : Nat) : MutS × BHeap :=
  MutS.bindOut h json (quotedAt (h.read json) start stop) fun q =>
    if q then MutS.ofReplace (replaceMem grow h json newValue ((start : Int) - 1) (stop + 1))
    else MutS.ofReplace (replaceMem grow h json newValue start stop)

/-- `Set`, inter_set.go:11-23. -/
def SetMem (grow : Nat → Nat) (h : BHeap) (json newValue : BSlice) (path : List Bytes) : MutS × BHeap :=
  if path.length == 0 then (.done json (some .nullPath), h)
  else MutS.bindOut h json (core (h.read json) false path) fun l => replaceValueMem grow h json newValue l.start l.stop

/-- Body of the loop inter_set.go:76-84. -/
def setKeyBodyMem (grow : Nat → Nat) (h : BHeap) (json : BSlice) (newKey : Bytes) (keyStart : Nat) (i : Nat) (_ : Unit) :
    Ctl Unit (MutS × BHeap) :=
  match (h.read json)[i]? with
  | none => .ret (.panic, h)
  | some curr =>
    if curr == 92 then .goto (i + 1) ()
    else if curr == 34 then
      let (h, key) := h.ofString grow newKey
      .ret (MutS.ofReplace (replaceMem grow h json key keyStart i))
    else .next ()

/-- `SetKey`, inter_set.go:56-90. -/
def SetKeyMem (grow : Nat → Nat) (h : BHeap) (json : BSlice) (newKey : Bytes) (path : List Bytes) : MutS × BHeap :=
  if newKey.length == 0 then (.done json (some .nullKey), h)
  else if path.length == 0 then (.done json (some .nullPath), h)
  else
    match core (h.read json) false (path.dropLast ++ [newKey]) with
    | .panic => (.panic, h)
    | .ok _ => (.done json (some (.badJSON 0)), h)
    | .err e =>
      if errEqual (some e) codeKeyNotFound then
        MutS.bindOut h json (core (h.read json) false path) fun l =>
          if l.keyStart < 0 then (.panic, h)
          else
            match forUp l.start (setKeyBodyMem grow h json newKey l.keyStart.toNat) l.keyStart.toNat () with
            | .ret r => r
            | .done _ => (.done json (some (.badJSON l.keyStart)), h)
      else (.done json (some e), h)

/-- `AddKeyValue`, inter_add.go:12-76, for a non-nil value: lines 58 and 67 copy it into a new string. -/
def addKeyValueBytes (grow : Nat → Nat) (h : BHeap) (json : BSlice) (key : Bytes) (value : BSlice) (path : List Bytes) :
    MutS × BHeap :=
  if (h.read json).length < 2 then (.done json (some (.badJSON 0)), h)
  else
    MutS.bindOut h json (containerSpan (h.read json) 123 125 .objectExpected path) fun (start, stop) =>
    MutS.bindOut h json (bracketsAt (h.read json) 123 125 start stop) fun b =>
      if b then
        match firstNS (h.read json) (start + 1) (stop - 1) with
        | none =>
          let (h, val) := h.ofString grow (34 :: key ++ [34, 58] ++ h.read value)
          MutS.ofReplace (replaceMem grow h json val ((stop : Int) - 1) ((stop : Int) - 1))
        | some _ =>
          match core (h.read json) false (path ++ [key]) with
          | .panic => (.panic, h)
          | .ok _ => (.done json (some (.keyAlreadyExist key)), h)
          | .err e =>
            if errEqual (some e) codeKeyNotFound then
              let (h, val) := h.ofString grow (44 :: 34 :: key ++ [34, 58] ++ h.read value)
              MutS.ofReplace (replaceMem grow h json val ((stop : Int) - 1) ((stop : Int) - 1))
            else (.done json (some e), h)
      else (.done json (some .objectExpected), h)

/-- `AddKeyValue`, inter_add.go:8-11: a nil value becomes `[]byte("null")`. -/
def AddKeyValueBytes (grow : Nat → Nat) (h : BHeap) (json : BSlice) (key : Bytes) (value : Option BSlice) (path : List Bytes) :
    MutS × BHeap :=
  match value with
  | none =>
    let (h, v) := h.ofString grow bNull
    addKeyValueBytes grow h json key v path
  | some v => addKeyValueBytes grow h json key v path

/-- `Add`, inter_add.go:81-139; lines 132-134 make the array of the value behind a comma. -/
def AddMem (grow : Nat → Nat) (h : BHeap) (json value : BSlice) (path : List Bytes) : MutS × BHeap :=
  if (h.read json).length < 2 then (.done json (some (.badJSON 0)), h)
  else
    MutS.bindOut h json (containerSpan (h.read json) 91 93 .arrayExpected path) fun (start, stop) =>
    MutS.bindOut h json (bracketsAt (h.read json) 91 93 start stop) fun b =>
      if b then
        match firstNS (h.read json) (start + 1) (stop - 1) with
        | none => MutS.ofReplace (replaceMem grow h json value ((stop : Int) - 1) ((stop : Int) - 1))
        | some _ =>
          let (h, val) := h.make (value.len + 1) (value.len + 1)
          let h := h.write val.blk val.off [44]
          let h := h.write val.blk (val.off + 1) (h.read value)
          MutS.ofReplace (replaceMem grow h json val ((stop : Int) - 1) ((stop : Int) - 1))
      else (.done json (some .arrayExpected), h)

/-- inter_add.go:209-211 and 216-218: the value and a comma in a new array. -/
def thenComma (grow : Nat → Nat) (h : BHeap) (value : BSlice) : BHeap × BSlice :=
  let (h, val) := h.make 0 (value.len + 1)
  let (h, val) := h.append grow val (h.read value)
  h.append grow val [44]

/-- inter_add.go:223-225: a comma and the value in a new array. -/
def commaThen (grow : Nat → Nat) (h : BHeap) (value : BSlice) : BHeap × BSlice :=
  let (h, val) := h.make 0 (value.len + 1)
  let (h, val) := h.append grow val [44]
  h.append grow val (h.read value)

/-- `Insert`, inter_add.go:144-230. -/
def InsertBytes (grow : Nat → Nat) (h : BHeap) (json : BSlice) (index : Int) (value : BSlice) (path : List Bytes) :
    MutS × BHeap :=
  MutS.bindOut h json (containerSpan (h.read json) 91 93 .arrayExpected path) fun (start, stop) =>
  MutS.bindOut h json (bracketsAt (h.read json) 91 93 start stop) fun b =>
    if !b then (.done json (some .arrayExpected), h)
    else
      MutS.bindOut h json (core (h.read json) false (path ++ [itoa index])) fun l =>
      MutS.bindOut h json (widen (h.read json) l.start l.stop) fun (start, stop) =>
        let (startEdge, endEdge) := edges (h.read json) start stop
        MutS.bindOut h json (idx (h.read json) startEdge) fun a =>
        MutS.bindOut h json (idx (h.read json) endEdge) fun z =>
          if (a == 91 || a == 123) && a + 2 == z then
            let (h, val) := thenComma grow h value
            MutS.ofReplace (replaceMem grow h json val start start)
          else if z == 44 then
            let (h, val) := thenComma grow h value
            MutS.ofReplace (replaceMem grow h json val start start)
          else if a == 44 then
            let (h, val) := commaThen grow h value
            MutS.ofReplace (replaceMem grow h json val ((start : Int) - 1) ((start : Int) - 1))
          else (.done json (some (.badJSON start)), h)

/-- `Delete`, inter_delete.go:6-54; `[]byte{}` is a slice of no bytes. -/
def DeleteMem (grow : Nat → Nat) (h : BHeap) (json : BSlice) (path : List Bytes) : MutS × BHeap :=
  if path.length == 0 then (.done json (some .nullPath), h)
  else
    MutS.bindOut h json (core (h.read json) false path) fun l =>
      let start : Nat := if l.keyStart == -1 then l.start else (l.keyStart - 1).toNat
      MutS.bindOut h json (widen (h.read json) start l.stop) fun (start, e) =>
        let (startEdge, endEdge) := edges (h.read json) start e
        MutS.bindOut h json (idx (h.read json) startEdge) fun a =>
        MutS.bindOut h json (idx (h.read json) endEdge) fun z =>
          let (h', empty) := h.make 0 0
          if (a == 91 || a == 123) && a + 2 == z then MutS.ofReplace (replaceMem grow h' json empty start e)
          else if z == 44 then MutS.ofReplace (replaceMem grow h' json empty start (endEdge + 1))
          else if a == 44 then MutS.ofReplace (replaceMem grow h' json empty startEdge e)
          else (.done json (some (.badJSON start)), h)

/-- `Store`, inter_set.go:94-106; a nil value has no bytes. -/
def StoreBytes (grow : Nat → Nat) (h : BHeap) (json : BSlice) (key : Bytes) (value : Option BSlice) (path : List Bytes) :
    MutS × BHeap :=
  match core (h.read json) false (path ++ [key]) with
  | .panic => (.panic, h)
  | .err e =>
    if errEqual (some e) codeKeyNotFound then AddKeyValueBytes grow h json key value path
    else (.done json (some e), h)
  | .ok l => replaceValueMem grow h json (value.getD .nil) l.start l.stop

/-- `AddKeyValueString`, inter_add.go:234-239: `return nil, errNullKey()`. -/
def AddKeyValueStringMem (grow : Nat → Nat) (isFloat : Bytes → Bool) (h : BHeap) (json : BSlice) (key value : Bytes)
    (path : List Bytes) : MutS × BHeap :=
  if key.length == 0 then (.done .nil (some .nullKey), h)
  else
    let (h, v) := h.ofString grow (formatType isFloat value)
    AddKeyValueBytes grow h json key (some v) path

/-- `InsertString`, inter_add.go:375-380: `return nil, errIndexOutOfRange()`. -/
def InsertStringMem (grow : Nat → Nat) (isFloat : Bytes → Bool) (h : BHeap) (json : BSlice) (index : Int) (value : Bytes)
    (path : List Bytes) : MutS × BHeap :=
  if index < 0 then (.done .nil (some .indexOutOfRange), h)
  else
    let (h, v) := h.ofString grow (formatType isFloat value)
    InsertBytes grow h json index v path

/-- `SetString`, inter_set.go:27-29. -/
def SetStringMem (grow : Nat → Nat) (isFloat : Bytes → Bool) (h : BHeap) (json : BSlice) (value : Bytes) (path : List Bytes) :
    MutS × BHeap :=
  let (h, v) := h.ofString grow (formatType isFloat value)
  SetMem grow h json v path

/-- `AddString`, inter_add.go:318-320. -/
def AddStringMem (grow : Nat → Nat) (isFloat : Bytes → Bool) (h : BHeap) (json : BSlice) (value : Bytes) (path : List Bytes) :
    MutS × BHeap :=
  let (h, v) := h.ofString grow (formatType isFloat value)
  AddMem grow h json v path

/-- `StoreString`, inter_set.go:110-112. -/
def StoreStringMem (grow : Nat → Nat) (isFloat : Bytes → Bool) (h : BHeap) (json : BSlice) (key value : Bytes)
    (path : List Bytes) : MutS × BHeap :=
  let (h, v) := h.ofString grow (formatType isFloat value)
  StoreBytes grow h json key (some v) path

/-- `Get`, inter_get.go:12-21: the slice itself, or a part of it. -/
def GetMem (h : BHeap) (json : BSlice) (path : List Bytes) : Out BSlice :=
  if path.length == 0 then .ok json
  else
    match core (h.read json) false path with
    | .panic => .panic
    | .err e => .err e
    | .ok l =>
      match json.sub l.start l.stop with
      | none => .panic
      | some s => .ok s

/-- `cleanValue`, utils.go:121-145; `none` is a panic. -/
def cleanValueMem (h : BHeap) (s : BSlice) : Option BSlice :=
  let str := h.read s
  if s.len == 0 then some s
  else
    let lens := s.len
    let start := (firstNS str 0 (lens - 1)).getD (lens - 1)
    let stop := (lastNS str (start + 1) lens).getD start
    match str[start]?, str[stop]? with
    | some a, some b => if a == 34 && b == 34 then s.sub (start + 1) stop else s.sub start (stop + 1)
    | _, _ => none

end Jin
