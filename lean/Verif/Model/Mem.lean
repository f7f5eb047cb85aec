import Verif.Model.Iter
/-!
# Model.Mem — slices of strings in memory

The other model files take a path as a value.  In Go it is a slice: an array in memory, an
offset, a length and a capacity, and `append` writes into the array when there is room.  This
file models the functions that append to a path slice they were given: `AddKeyValue`, `Insert`,
`Store`, `GetAll`, `GetAllMap` and `walk`, and `Scheme`, which keeps the slice it is made from.
Strings are immutable, so the cells hold values.
-/

namespace Jin

/-- Memory: the arrays of strings allocated so far, each with all its cells. -/
abbrev Heap := List (List Bytes)

/-- A slice header of Go: array, offset of its first cell, length, capacity. -/
structure Slice where
  blk : Nat
  off : Nat
  len : Nat
  cap : Nat
deriving Repr, DecidableEq

/-- The cells of an array. -/
def Heap.block (h : Heap) (b : Nat) : List Bytes := h[b]?.getD []

/-- The strings of a slice. -/
def Heap.read (h : Heap) (s : Slice) : List Bytes := ((h.block s.blk).drop s.off).take s.len

/-- `append(s, x)` of the Go language: in place when the capacity allows it, else in a new array.
The spare capacity of a new array is left open by the language; `grow len` is its amount. -/
def Heap.append (grow : Nat → Nat) (h : Heap) (s : Slice) (x : Bytes) : Heap × Slice :=
  if s.len < s.cap then
    (h.modify s.blk (fun b => b.set (s.off + s.len) x), { s with len := s.len + 1 })
  else
    (h ++ [h.read s ++ x :: List.replicate (grow s.len) []], ⟨h.length, 0, s.len + 1, s.len + 1 + grow s.len⟩)

/-- The spare capacity the Go runtime gives to a one-element append to a full slice of up to 256
strings: it doubles (`runtime.growslice`). -/
def doubling (n : Nat) : Nat := n - 1

/-- `AddKeyValue`, inter_add.go:8-76, for a non-nil value; line 63 appends the key to the path. -/
def addKeyValueMem (grow : Nat → Nat) (h : Heap) (json key value : Bytes) (path : Slice) : Mut × Heap :=
  if json.length < 2 then (.done json (some (.badJSON 0)), h)
  else
    match containerSpan json 123 125 .objectExpected (h.read path) with
    | .panic => (.panic, h)
    | .err e => (.done json (some e), h)
    | .ok (start, stop) =>
      match bracketsAt json 123 125 start stop with
      | .panic => (.panic, h)
      | .err e => (.done json (some e), h)
      | .ok false => (.done json (some .objectExpected), h)
      | .ok true =>
        match firstNS json (start + 1) (stop - 1) with
        | none =>
          (Mut.ofOut (replace json (34 :: key ++ [34, 58] ++ value) ((stop : Int) - 1) ((stop : Int) - 1)), h)
        | some _ =>
          let (h, path) := h.append grow path key
          match core json false (h.read path) with
          | .panic => (.panic, h)
          | .ok _ => (.done json (some (.keyAlreadyExist key)), h)
          | .err e =>
            if errEqual (some e) codeKeyNotFound then
              (Mut.ofOut (replace json (44 :: 34 :: key ++ [34, 58] ++ value)
                ((stop : Int) - 1) ((stop : Int) - 1)), h)
            else (.done json (some e), h)

/-- `AddKeyValue`, inter_add.go:8-11: a nil value becomes `null`. -/
def AddKeyValueMem (grow : Nat → Nat) (h : Heap) (json key : Bytes) (value : Option Bytes) (path : Slice) : Mut × Heap :=
  match value with
  | none => addKeyValueMem grow h json key bNull path
  | some v => addKeyValueMem grow h json key v path

/-- `Insert`, inter_add.go:144-230; line 184 appends the index to the path. -/
def InsertMem (grow : Nat → Nat) (h : Heap) (json : Bytes) (index : Int) (value : Bytes) (path : Slice) : Mut × Heap :=
  match containerSpan json 91 93 .arrayExpected (h.read path) with
  | .panic => (.panic, h)
  | .err e => (.done json (some e), h)
  | .ok (start, stop) =>
    match bracketsAt json 91 93 start stop with
    | .panic => (.panic, h)
    | .err e => (.done json (some e), h)
    | .ok false => (.done json (some .arrayExpected), h)
    | .ok true =>
      let (h, path) := h.append grow path (itoa index)
      (Mut.bindOut json (core json false (h.read path)) fun l =>
       Mut.bindOut json (widen json l.start l.stop) fun (start, stop) =>
        let (startEdge, endEdge) := edges json start stop
        Mut.bindOut json (idx json startEdge) fun a =>
        Mut.bindOut json (idx json endEdge) fun z =>
          if (a == 91 || a == 123) && a + 2 == z then
            Mut.ofOut (replace json (value ++ [44]) start start)
          else if z == 44 then Mut.ofOut (replace json (value ++ [44]) start start)
          else if a == 44 then
            Mut.ofOut (replace json (44 :: value) ((start : Int) - 1) ((start : Int) - 1))
          else .done json (some (.badJSON start)), h)

/-- `Store`, inter_set.go:94-106, and `JO.Store`, jin_object_add.go:110-125; line 95 (111)
appends the key to the path. -/
def StoreMem (grow : Nat → Nat) (h : Heap) (json key : Bytes) (value : Option Bytes) (path : Slice) : Mut × Heap :=
  let (h, full) := h.append grow path key
  match core json false (h.read full) with
  | .panic => (.panic, h)
  | .err e =>
    if errEqual (some e) codeKeyNotFound then AddKeyValueMem grow h json key value path
    else (.done json (some e), h)
  | .ok l => (replaceValue json (value.getD []) l.start l.stop, h)

/-- Loop of `GetAll`, inter_get.go:633-639, with `n` keys to go.  `range` reads each key from
memory when it comes to it; line 634 appends it to the path. -/
def getAllMem (grow : Nat → Nat) (json : Bytes) (keys path : Slice) : Nat → Heap → Out (List Bytes) × Heap
  | 0, h => (.ok [], h)
  | n + 1, h =>
    match (h.read keys)[keys.len - (n + 1)]? with
    | none => (.panic, h)
    | some k =>
      let (h, full) := h.append grow path k
      match GetString json (h.read full) with
      | .panic => (.panic, h)
      | .err e => (.err e, h)
      | .ok v =>
        match getAllMem grow json keys path n h with
        | (.ok vs, h) => (.ok (v :: vs), h)
        | r => r

/-- `GetAll`, inter_get.go:629-641. -/
def GetAllMem (grow : Nat → Nat) (h : Heap) (json : Bytes) (keys path : Slice) : Out (List Bytes) × Heap :=
  getAllMem grow json keys path keys.len h

/-- Loop of `GetAllMap`, inter_get.go:649-655. -/
def getAllMapMem (grow : Nat → Nat) (json : Bytes) (keys path : Slice) : Nat → GoMap → Heap → Out GoMap × Heap
  | 0, m, h => (.ok m, h)
  | n + 1, m, h =>
    match (h.read keys)[keys.len - (n + 1)]? with
    | none => (.panic, h)
    | some k =>
      let (h, full) := h.append grow path k
      match GetString json (h.read full) with
      | .panic => (.panic, h)
      | .err e => (.err e, h)
      | .ok v => getAllMapMem grow json keys path n (m.set k v) h

/-- `GetAllMap`, inter_get.go:645-657. -/
def GetAllMapMem (grow : Nat → Nat) (h : Heap) (json : Bytes) (keys path : Slice) : Out GoMap × Heap :=
  getAllMapMem grow json keys path keys.len [] h

/-- `walk`, walk.go:15-63.  The callback gets the path slice and may read and write memory. -/
def walkMem {σ : Type} (grow : Nat → Nat) (isFloat : Bytes → Bool) (json : Bytes)
    (cb : Heap × σ → Bytes → Bytes → Slice → Cb (Heap × σ)) : Nat → Slice → Heap × σ → IterRes (Heap × σ)
  | 0, _, _ => .panic
  | fuel + 1, path, u =>
    match GetType isFloat json (u.1.read path) with
    | .panic => .panic
    | .err e => .done u (some e)
    | .ok .object =>
      IterateKeyValue json (fun u k _ =>
        let (h, full) := u.1.append grow path k
        match walkMem grow isFloat json cb fuel full (h, u.2) with
        | .panic => .panic
        | .done u (some e) => .ret u false (some e)
        | .done u none => .ret u true none) (u.1.read path) u
    | .ok .array =>
      match IterateArray json (fun (u : (Heap × σ) × Nat) _ =>
        let (h, full) := u.1.1.append grow path (itoa u.2)
        match walkMem grow isFloat json cb fuel full (h, u.1.2) with
        | .panic => .panic
        | .done u' (some e) => .ret (u', u.2) false (some e)
        | .done u' none => .ret (u', u.2 + 1) true none) (u.1.read path) (u, 0) with
      | .panic => .panic
      | .done u e => .done u.1 e
    | .ok _ =>
      match Get json (u.1.read path) with
      | .panic => .panic
      | .err e => .done u (some e)
      | .ok val =>
        match cb u ((u.1.read path).getLast?.getD []) val path with
        | .panic => .panic
        | .ret u _ e => .done u e

/-- `Walk`, walk.go:10-13 (and `JO.Walk`, walk.go:5-8): it starts with `[]string{}`. -/
def WalkMem {σ : Type} (grow : Nat → Nat) (isFloat : Bytes → Bool) (json : Bytes)
    (cb : Heap × σ → Bytes → Bytes → Slice → Cb (Heap × σ)) (u : Heap × σ) : IterRes (Heap × σ) :=
  walkMem grow isFloat json cb (json.length + 1) ⟨0, 0, 0, 0⟩ u

/-- `Scheme`, make.go:12-17, in memory. -/
structure SchemeMem where
  originalKeys : Slice
  keys : Slice

/-- `MakeScheme(args...)`, make.go:20-22: both fields are the slice that is given. -/
def MakeSchemeMem (args : Slice) : SchemeMem := ⟨args, args⟩

/-- `Scheme.Add`, make.go:112-120. -/
def SchemeMem.Add (grow : Nat → Nat) (s : SchemeMem) (key : Bytes) (h : Heap) : Heap × SchemeMem × Bool :=
  if (h.read s.keys).contains key then (h, s, false)
  else
    let (h, keys) := h.append grow s.keys key
    (h, { s with keys := keys }, true)

/-- `Scheme.Remove`, make.go:125-137: `make([]string, 0, len(s.keys))`, filled in order. -/
def SchemeMem.Remove (s : SchemeMem) (key : Bytes) (h : Heap) : Heap × SchemeMem × Bool :=
  let left := (h.read s.keys).filter (· != key)
  (h ++ [left ++ List.replicate (s.keys.len - left.length) []],
    { s with keys := ⟨h.length, 0, left.length, s.keys.len⟩ }, (h.read s.keys).contains key)

/-- `Scheme.Save`, make.go:141-143. -/
def SchemeMem.Save (s : SchemeMem) : SchemeMem := { s with originalKeys := s.keys }

/-- `Scheme.Restore`, make.go:147-149. -/
def SchemeMem.Restore (s : SchemeMem) : SchemeMem := { s with keys := s.originalKeys }

end Jin
