import Verif.Model.Make
/-!
# Model.Parser — `/repo/sequence.go`, `/repo/parse_*.go`

Pointers: a node owns its children (`down`) and `up` is its parent, so the tree is
a value; a variable that points into the tree is represented by the path of
labels that `walk` follows to it.
-/

namespace Jin

/-! ### sequence.go -/

/-- sequence.go:3-7. -/
structure Seq where
  list : List Int
  index : Int
  length : Nat
deriving DecidableEq, Repr

/-- `makeSeq`, sequence.go:9-12. -/
def makeSeq (length : Nat) : Seq := ⟨List.replicate length 0, 0, length⟩

/-- `push`, sequence.go:14-23. -/
def Seq.push (s : Seq) (element : Int) : Out Seq :=
  let s : Seq :=
    if s.index > (s.length : Int) - 1 then
      -- `copy` moves min(len) elements into a zeroed slice of length s.length+4
      ⟨s.list.take (s.length + 4) ++ List.replicate (s.length + 4 - s.list.length) 0, s.index, s.length + 4⟩
    else s
  if 0 ≤ s.index ∧ s.index < s.list.length then
    .ok ⟨s.list.set s.index.toNat element, s.index + 1, s.length⟩
  else .panic

/-- `pop`, sequence.go:25-31. -/
def Seq.pop (s : Seq) : Out (Int × Seq) :=
  if s.index > -1 then
    let s : Seq := { s with index := s.index - 1 }
    if 0 ≤ s.index then
      match s.list[s.index.toNat]? with
      | some v => .ok (v, s)
      | none => .panic
    else .panic
  else .ok (0, s)

/-- `last`, sequence.go:33-35. -/
def Seq.last (s : Seq) : Out Int :=
  if 0 ≤ s.index - 1 then
    match s.list[(s.index - 1).toNat]? with
    | some v => .ok v
    | none => .panic
  else .panic

/-- `inc`, sequence.go:37-39. -/
def Seq.inc (s : Seq) : Out Seq :=
  if 0 ≤ s.index - 1 then
    match s.list[(s.index - 1).toNat]? with
    | some v => .ok { s with list := s.list.set (s.index - 1).toNat (v + 1) }
    | none => .panic
  else .panic

/-! ### parse_core.go -/

/-- `node`, parse_utils.go:8-13 (without `up`). -/
inductive Node where
  | mk (label value : Bytes) (down : List Node)
deriving Repr

def Node.label : Node → Bytes
  | .mk l _ _ => l
def Node.value : Node → Bytes
  | .mk _ v _ => v
def Node.down : Node → List Node
  | .mk _ _ d => d
def Node.setLabel : Node → Bytes → Node
  | .mk _ v d, l => .mk l v d
def Node.setValue : Node → Bytes → Node
  | .mk l _ d, v => .mk l v d
def Node.setDown : Node → List Node → Node
  | .mk l v _, d => .mk l v d

/-- State of the loop parse_core.go:30-116.  `cur` is the node `core` points at,
`ups` its ancestors (innermost first) without the child being built.
`braceList`/`indexList` are stacks, top first: `Seq` behaves as a stack of ints
(proved in Proof.Seq), so the stack is used here directly. -/
structure PcSt where
  cur : Node
  ups : List Node
  braces : List Nat
  idxs : List Nat
  inQuote : Bool
  start : Nat
  stop : Nat
  key : Bytes
  valStart : Nat
  last : UInt8

/-- Append a child to `core`. -/
def Node.addChild (n c : Node) : Node := n.setDown (n.down ++ [c])

/-- Body of the loop parse_core.go:30-116; `ret` is a panic. -/
def pcBody (json : Bytes) (i : Nat) (s : PcSt) : Ctl PcSt Unit :=
  match json[i]? with
  | none => .ret ()
  | some curr =>
    if !isJSONChar true true curr then .next s
    else if curr == 34 then
      if s.inQuote then
        match quoteScan json i i with
        | .real => .next { s with inQuote := false, stop := i }
        | .escaped => .next s
        | .off => .next { s with start := i + 1 }
      else .next { s with inQuote := true, start := i + 1 }
    else if s.inQuote then .next s
    else if curr == 91 || curr == 123 then
      match s.idxs with
      | [] => .ret ()
      | n :: _ =>
        let label := if s.last == 58 then s.key else itoa n
        .next { s with
          cur := .mk label [] [], ups := s.cur :: s.ups
          idxs := 0 :: s.idxs, braces := i :: s.braces
          valStart := i + 1, last := curr }
    else if curr == 93 || curr == 125 then
      match s.idxs with
      | [] => .ret ()
      | n :: idxs =>
        let withChild : Out (Node × Nat) :=
          if s.last == 58 then do
            let v ← slice json s.valStart i
            return (s.cur.addChild (.mk s.key v []), s.valStart)
          else if s.last == 44 then do
            let v ← slice json s.valStart i
            return (s.cur.addChild (.mk (itoa n) v []), i + 1)
          else return (s.cur, s.valStart)
        match withChild, s.braces, s.ups with
        | .ok (cur, valStart), b :: braces, up :: ups =>
          match slice json b (i + 1) with
          | .ok v =>
            .next { s with
              cur := up.addChild (cur.setValue v), ups := ups
              braces := braces, idxs := idxs, valStart := valStart, last := curr }
          | _ => .ret ()
        | _, _, _ => .ret ()
    else if curr == 58 then
      match slice json s.start s.stop with
      | .ok key => .next { s with key := key, valStart := i + 1, last := 58 }
      | _ => .ret ()
    else if curr == 44 then
      match s.idxs with
      | [] => .ret ()
      | n :: idxs =>
        let cur : Out Node :=
          if s.last == 58 then do
            let v ← slice json s.valStart i
            return s.cur.addChild (.mk s.key v [])
          else if s.last == 44 || s.last == 91 then do
            let v ← slice json s.valStart i
            return s.cur.addChild (.mk (itoa n) v [])
          else return s.cur
        match cur with
        | .ok cur => .next { s with cur := cur, idxs := (n + 1) :: idxs, valStart := i + 1, last := 44 }
        | _ => .ret ()
    else .next s

/-- Children are attached when created, so nodes still open at the end of the text
are children of their parents. -/
def foldUps (cur : Node) : List Node → Node
  | [] => cur
  | up :: ups => foldUps (up.addChild cur) ups

/-- `pCore`, parse_core.go:5-118: the node `core` afterwards (its error is always nil). -/
def pCore (json : Bytes) (core : Node) : Out Node :=
  if json.length < 2 then .ok core
  else match skipSpaces json 0 with
    | none => .panic
    | some start =>
      match forUp json.length (pcBody json) start ⟨core, [], [], [0], false, start, 0, [], 0, 0⟩ with
      | .ret _ => .panic
      | .done s => .ok (foldUps s.cur s.ups)

/-- parse_utils.go:18-21. -/
structure Parser where
  core : Node
  json : Bytes

/-- `Parse`, parse_utils.go:70-82. -/
def Parse (json : Bytes) : Out Parser := do
  let core ← pCore json (.mk [] [] [])
  match core.down with
  | [] => .err (.badJSON 0)
  | c :: _ => return ⟨c, json⟩

/-- `node.walk`, parse_utils.go:110-123. -/
def Node.walk (n : Node) : List Bytes → Out Node
  | [] => .ok n
  | p :: ps =>
    match n.down.find? (fun d => d.label == p) with
    | some d => d.walk ps
    | none => .err (.keyNotFound p)

/-- `Parser.Get`, parse_get.go:15-24 (and `GetString`, :50-56). -/
def Parser.Get (p : Parser) (path : List Bytes) : Out Bytes :=
  if path.length == 0 then .ok p.json
  else do
    let curr ← p.core.walk path
    cleanValue curr.value

/-- `Parser.GetInt`, parse_get.go:61-71. -/
def Parser.GetInt (p : Parser) (path : List Bytes) : Out Int := do
  let v ← p.Get path
  match atoi v with
  | some n => .ok n
  | none => .err (.integerParse v)

/-- `Parser.GetFloat`, parse_get.go:76-86. -/
def Parser.GetFloat {F : Type} (fl : FloatLib F) (p : Parser) (path : List Bytes) : Out F := do
  let v ← p.Get path
  match fl.parse v with
  | some n => .ok n
  | none => .err (.floatParse v)

/-- `Parser.GetBool`, parse_get.go:91-103. -/
def Parser.GetBool (p : Parser) (path : List Bytes) : Out Bool := do
  let v ← p.Get path
  if v == bTrue then .ok true
  else if v == bFalse then .ok false
  else .err (.boolParse v)

/-- `Parser.GetStringArray`, parse_get.go:108-125. -/
def Parser.GetStringArray (p : Parser) (path : List Bytes) : Out (List Bytes) := do
  let val ← p.Get path
  if val.length < 2 then .err (.stringArrayParse val)
  else if bracketed val then do
    let arr ← ParseArray val
    match arr with
    | none => .err (.stringArrayParse val)
    | some arr => .ok arr
  else .err (.stringArrayParse val)

/-- `Parser.GetIntArray`, parse_get.go:130-191. -/
def Parser.GetIntArray (p : Parser) (path : List Bytes) : Out (List Int) := do
  let val ← p.Get path
  if val.length < 2 then .err (.integerArrayParse val)
  else if bracketed val then splitArray convInt convInt val
  else .err (.integerArrayParse val)

/-! `dive`/`GetNew`, parse_utils.go:44-67, parse_get.go:31-46. -/

mutual
/-- `node.dive`, parse_utils.go:44-67 with an empty `bytes` argument (the only way
it is called, lines 43-44 of parse_get.go; the recursive call passes it on). -/
def Node.dive : Node → Out Bytes
  | .mk _ value down => do
    let c ← idx value 0
    let body ← diveList value c down
    return (c :: body).dropLast ++ [c + 2]
/-- The loop parse_utils.go:47-59; `d.up.value` is the value of the node itself. -/
def diveList (value : Bytes) (c : UInt8) : List Node → Out Bytes
  | [] => .ok []
  | .mk label v dn :: ds => do
    let val ← if dn.isEmpty then (Out.ok v : Out Bytes) else Node.dive (.mk label v dn)
    let item := if c == 123 then memberText label val else if c == 91 then val else []
    let rest ← diveList value c ds
    return item ++ [44] ++ rest
end

/-- `Parser.GetNew`, parse_get.go:31-46 (nil on a failed walk). -/
def Parser.GetNew (p : Parser) (path : List Bytes) : Out Bytes :=
  match p.core.walk path with
  | .panic => .panic
  | .err _ => .ok []
  | .ok curr =>
    if curr.down.isEmpty then cleanValue curr.value
    else do
      let t ← curr.dive
      cleanValue t

/-! ### Mutators -/

/-- Result of a mutating `Parser` method: the parser afterwards and its error. -/
inductive PRes where
  | done (p : Parser) (err : Option Err)
  | panic

/-- Replace the first element satisfying `q`. -/
def replaceFirst (q : Node → Bool) (f : Node → Node) : List Node → List Node
  | [] => []
  | d :: ds => if q d then f d :: ds else d :: replaceFirst q f ds

/-- Apply `f` to the node `walk` reaches. -/
def Node.updAt (n : Node) (f : Node → Node) : List Bytes → Node
  | [] => f n
  | p :: ps => n.setDown (replaceFirst (fun d => d.label == p) (fun d => d.updAt f ps) n.down)

/-- The loops that refresh the values of the ancestors (e.g. parse_set.go:43-49):
for each prefix in turn, `node.value, err = Get(p.json, prefix...)`, returning
the error if there is one (the value is then nil). -/
def refresh (json : Bytes) : List (List Bytes) → Node → Out (Node × Option Err)
  | [], n => .ok (n, none)
  | q :: qs, n =>
    match Jin.Get json q with
    | .panic => .panic
    | .err e => .ok (n.updAt (·.setValue []) q, some e)
    | .ok v => refresh json qs (n.updAt (·.setValue v) q)

/-- `path[:n]`, `path[:n-1]`, …, `path[:m]` (longest first). -/
def prefixes (path : List Bytes) (m n : Nat) : List (List Bytes) :=
  ((List.range' m (n + 1 - m)).map fun i => path.take i).reverse

/-- Finish a mutator: refresh the ancestors of the new text. -/
def finish (json : Bytes) (core : Node) (qs : List (List Bytes)) : PRes :=
  match refresh json qs core with
  | .ok (core, e) => .done ⟨core, json⟩ e
  | _ => .panic

/-- `lenv >= 2 && (newVal[0] == 91 || newVal[0] == 123)`. -/
def opensContainer (newVal : Bytes) : Bool :=
  newVal.length ≥ 2 && (newVal.head? == some 91 || newVal.head? == some 123)

/-- The JSON bytes a mutator returns, whatever its error (`p.json, _ = …`). -/
def Mut.json? : Mut → Option Bytes
  | .done j _ => some j
  | .panic => none

/-- `Parser.Set`, parse_set.go:9-51. -/
def Parser.Set (p : Parser) (newVal : Bytes) (path : List Bytes) : PRes :=
  if path.length == 0 then .done p (some .nullPath)
  else match p.core.walk path with
    | .panic => .panic
    | .err e => .done p (some e)
    | .ok curr =>
      let newNode : Out Node :=
        if opensContainer newVal then
          (pCore newVal (.mk [] [] [])).map fun n => (n.setLabel curr.label).setValue newVal
        else .ok (curr.setValue newVal)
      match newNode, (Jin.Set p.json newVal path).json? with
      | .ok n, some json =>
        finish json (p.core.updAt (fun _ => n) path) (prefixes path 1 (path.length - 1))
      | _, _ => .panic

/-- `Parser.SetString`, parse_set.go:55-60. -/
def Parser.SetString (p : Parser) (v : Bytes) (path : List Bytes) : PRes :=
  match v.head?, v.getLast? with
  | some a, some z => if a != 34 && z != 34 then p.Set (quote v) path else p.Set v path
  | _, _ => .panic

/-- `Parser.SetInt`, parse_set.go:64-66. -/
def Parser.SetInt (p : Parser) (n : Int) (path : List Bytes) : PRes := p.Set (itoa n) path
/-- `Parser.SetFloat`, parse_set.go:70-72. -/
def Parser.SetFloat {F : Type} (fl : FloatLib F) (p : Parser) (x : F) (path : List Bytes) : PRes :=
  p.Set (fl.format x) path
/-- `Parser.SetBool`, parse_set.go:76-81. -/
def Parser.SetBool (p : Parser) (b : Bool) (path : List Bytes) : PRes := p.Set (boolText b) path

/-- The refresh loop of `SetKey`, parse_set.go:109-115, which ignores the error. -/
def refreshQuiet (json : Bytes) : List (List Bytes) → Node → Out Node
  | [], n => .ok n
  | q :: qs, n =>
    match Jin.Get json q with
    | .panic => .panic
    | .err _ => refreshQuiet json qs (n.updAt (·.setValue []) q)
    | .ok v => refreshQuiet json qs (n.updAt (·.setValue v) q)

/-- `Parser.SetKey`, parse_set.go:87-117. -/
def Parser.SetKey (p : Parser) (newKey : Bytes) (path : List Bytes) : PRes :=
  if path.length == 0 then .done p (some .nullPath)
  else if newKey.length == 0 then .done p (some .nullKey)
  else match p.core.walk path, p.core.walk path.dropLast with
    | .panic, _ => .panic
    | .err e, _ => .done p (some e)
    | .ok _, .ok up =>
      if up.down.any (fun d => d.label == newKey) then .done p (some (.keyAlreadyExist newKey))
      else match (Jin.SetKey p.json newKey path).json? with
        | none => .panic
        | some json =>
          match refreshQuiet json (prefixes path 1 (path.length - 1))
              (p.core.updAt (·.setLabel newKey) path) with
          | .ok core => .done ⟨core, json⟩ none
          | _ => .panic
    | .ok _, _ => .panic                                -- not reached: the parent exists

/-- `deAttach`, parse_utils.go:100-108. -/
def Node.deAttach (up : Node) (label : Bytes) : Node :=
  up.setDown (up.down.filter fun d => d.label != label)

/-- `Parser.Delete`, parse_delete.go:6-30. -/
def Parser.Delete (p : Parser) (path : List Bytes) : PRes :=
  if path.length == 0 then .done p (some .nullPath)
  else match p.core.walk path with
    | .panic => .panic
    | .err e => .done p (some e)
    | .ok curr =>
      let core := p.core.updAt (·.deAttach curr.label) path.dropLast
      match Jin.Delete p.json path with
      | .panic => .panic
      | .done json (some e) => .done ⟨core, json⟩ (some e)
      | .done json none => finish json core (prefixes path 1 (path.length - 1))

/-- Insert text before the last byte: `replace(p.json, t, len-1, len-1)`. -/
def beforeLast (json t : Bytes) : Out Bytes :=
  replace json t ((json.length : Int) - 1) ((json.length : Int) - 1)

/-- `json[0] == o && json[len(json)-1] == c` for `len(json) ≥ 2`, with the errors of
parse_add.go:56-58, 111-113, 165-167, 217-219. -/
def enclosed (json : Bytes) (o c : UInt8) (e : Err) : Option Err :=
  if json.length ≥ 2 then
    if json.head? == some o && json.getLast? == some c then none else some e
  else some (.badJSON 0)

/-- `Parser.AddKeyValue`, parse_add.go:10-114, for a non-nil `newVal`.  `lenv` is
the length of the *key* (line 12), so `newVal[0]` is read whenever the key has
two bytes or more. -/
def Parser.AddKeyValue (p : Parser) (key newVal : Bytes) (path : List Bytes) : PRes :=
  if key.length == 0 then .done p (some .nullKey)
  else match p.Get path with
    | .panic => .panic
    | .err e => .done p (some e)
    | .ok json =>
      let container : Out Bool :=
        if key.length ≥ 2 then (idx newVal 0).map fun c => c == 91 || c == 123 else .ok false
      let newNode : Out Node :=
        match container with
        | .ok true => (pCore newVal (.mk [] [] [])).map fun n => (n.setLabel key).setValue newVal
        | .ok false => .ok (.mk key newVal [])
        | _ => .panic
      if path.length == 0 then
        if p.core.down.any (fun d => d.label == key) then .done p (some (.keyAlreadyExist key))
        else match enclosed json 123 125 .objectExpected with
          | some e => .done p (some e)
          | none =>
            match container, newNode with
            | .ok c, .ok n =>
              let t := memberText key newVal
              match beforeLast p.json (if c && p.json.length == 2 then t else 44 :: t) with
              | .ok json' => .done ⟨p.core.addChild n, json'⟩ none
              | _ => .panic
            | _, _ => .panic
      else match p.core.walk path.dropLast with
        | .ok up =>
          if up.down.any (fun d => d.label == key) then .done p (some (.keyAlreadyExist key))
          else match enclosed json 123 125 .objectExpected with
            | some e => .done p (some e)
            | none =>
              match newNode with
              | .ok n =>
                let core := p.core.updAt (·.addChild n) path
                match Jin.AddKeyValue p.json key (some newVal) path with
                | .panic => .panic
                | .done json' (some e) => .done ⟨core, json'⟩ (some e)
                | .done json' none => finish json' core (prefixes path 1 path.length)
              | _ => .panic
        | _ => .panic                                   -- not reached: `path` was walked by Get

/-- `Parser.Add`, parse_add.go:119-220. -/
def Parser.Add (p : Parser) (newVal : Bytes) (path : List Bytes) : PRes :=
  if newVal.length == 0 then .done p (some .nullKey)
  else match p.Get path with
    | .panic => .panic
    | .err e => .done p (some e)
    | .ok json =>
      match p.core.walk path with
      | .panic => .panic
      | .err e => .done p (some e)
      | .ok curr =>
        match enclosed json 91 93 .arrayExpected with
        | some e => .done p (some e)
        | none =>
          let c := opensContainer newVal
          let label := itoa curr.down.length
          let newNode : Out Node :=
            if c then (pCore newVal (.mk [] [] [])).map fun n => (n.setLabel label).setValue newVal
            else .ok (.mk label newVal [])
          match newNode with
          | .ok n =>
            if path.length == 0 then
              match beforeLast p.json (if c && p.json.length == 2 then newVal else 44 :: newVal) with
              | .ok json' => .done ⟨p.core.addChild n, json'⟩ none
              | _ => .panic
            else
              let core := p.core.updAt (·.addChild n) path
              match Jin.Add p.json newVal path with
              | .panic => .panic
              | .done json' (some e) => .done ⟨core, json'⟩ (some e)
              -- parse_add.go:188 stops one ancestor early in the container case
              | .done json' none => finish json' core (prefixes path (if c then 2 else 1) path.length)
          | _ => .panic

/-- Relabelling loop of `node.insert`, parse_utils.go:90-92. -/
def relabel (index : Nat) : Nat → List Node → List Node
  | _, [] => []
  | i, d :: ds => (if index ≤ i then d.setLabel (itoa (i + 1)) else d) :: relabel index (i + 1) ds

/-- `node.insert`, parse_utils.go:84-98: the parent afterwards. -/
def Node.insertInto (up : Node) (index : Int) : Out Node :=
  if up.down.length != 0 then
    if (up.down.length : Int) - 1 < index then .err .indexOutOfRange
    else if index < 0 then .panic                       -- up.down[index]
    else .ok (up.setDown (relabel index.toNat 0 up.down))
  else .err .indexOutOfRange

/-- `Parser.Insert`, parse_add.go:225-339. -/
def Parser.Insert (p : Parser) (index : Int) (newVal : Bytes) (path : List Bytes) : PRes :=
  if newVal.length == 0 then .done p (some .nullKey)
  else match p.Get path with
    | .panic => .panic
    | .err e => .done p (some e)
    | .ok json =>
      match p.core.walk path with
      | .panic => .panic
      | .err e => .done p (some e)
      | .ok curr =>
        match enclosed json 91 93 .arrayExpected with
        | some e => .done p (some e)
        | none =>
          let c := opensContainer newVal
          let newNode : Out Node :=
            if c then (pCore newVal (.mk [] [] [])).map fun n => n.setLabel (itoa index)
            else .ok (.mk (itoa index) [] [])
          match newNode with
          | .ok n =>
            match curr.insertInto index with
            | .panic => .panic
            | .err e => .done p (some e)
            | .ok curr1 =>
              if path.length == 0 then
                if c then
                  -- lines 245-259: Insert first, relabel again, then append; the
                  -- value of the new node is never set
                  match Jin.Insert p.json index newVal path with
                  | .panic => .panic
                  | .done json' (some e) => .done ⟨curr1, json'⟩ (some e)
                  | .done json' none =>
                    match curr1.insertInto index with
                    | .ok curr2 => .done ⟨curr2.addChild n, json'⟩ none
                    | _ => .panic
                else
                  -- lines 263-278: append, Insert, then relabel again (the new node
                  -- is now one of the children and gets its own label back)
                  let curr2 := curr1.addChild (n.setValue newVal)
                  match Jin.Insert p.json index newVal path with
                  | .panic => .panic
                  | .done json' (some e) => .done ⟨curr2, json'⟩ (some e)
                  | .done json' none =>
                    match curr1.insertInto index with
                    | .ok curr3 => .done ⟨curr3.addChild (n.setValue newVal), json'⟩ none
                    | _ => .panic
              else
                let core := p.core.updAt (fun _ => curr1.addChild (n.setValue newVal)) path
                match Jin.Insert p.json index newVal path with
                | .panic => .panic
                | .done json' (some e) => .done ⟨core, json'⟩ (some e)
                | .done json' none => finish json' core (prefixes path 1 path.length)
          | _ => .panic

end Jin
