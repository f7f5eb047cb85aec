import Verif.Model.ByteMem
import Verif.Model.ParserPtr
/-!
# Model.ParserMem — `/repo/parse_*.go` with pointers and with byte slices in memory

`Model.ParserPtr` has nodes in memory and byte slices as values.  Here the bytes of a node are slices of
the arrays of `Model.ByteMem`: `Parse` and `pCore` keep slices of the text they are given, and
`byteArrayToString` (utils.go:147-149) makes a label that is a window on that text; the mutators keep
the slice of the new value; `Get` gives a slice of an array that the parser still uses.

Reading is by length and by bytes only, so functions that read and write nothing (`walk`, the search for
a label, `getIndex`, `dive`, `createTree`) are those of `Model.ParserPtr` on the bytes of the slices.
-/

namespace Jin

/-- A `string` of a node: bytes of its own that nobody can write to, or a window on an array
(`byteArrayToString`). -/
inductive Label where
  | str (b : Bytes)
  | part (s : BSlice)
deriving Repr, DecidableEq

/-- The bytes of a label, as they are at present. -/
def Label.see (bytes : BHeap) : Label → Bytes
  | .str b => b
  | .part s => bytes.read s

/-- `node`, parse_utils.go:8-13. -/
structure NodeM where
  label : Label
  value : BSlice
  up : Option Nat
  down : List Nat
deriving Repr, DecidableEq

/-- A node with the bytes that its slices have at present. -/
def NodeM.see (bytes : BHeap) (r : NodeM) : NodeRec := ⟨r.label.see bytes, bytes.read r.value, r.up, r.down⟩

/-- Memory of nodes. -/
abbrev MHeap := List NodeM

def MHeap.see (bytes : BHeap) (h : MHeap) : NHeap := h.map (NodeM.see bytes)

/-- `&node{…}`. -/
def MHeap.new (h : MHeap) (r : NodeM) : MHeap × Nat := (h ++ [r], h.length)

/-- `createNode`, parse_utils.go:23-26. -/
def createNodeM (h : MHeap) (up : Option Nat) : MHeap × Nat := h.new ⟨.str [], .nil, up, []⟩

/-- `p.value = v`: the slice, not its bytes. -/
def MHeap.setValue (h : MHeap) (p : Nat) (v : BSlice) : MHeap := h.modify p fun r => { r with value := v }
/-- `p.label = l`. -/
def MHeap.setLabel (h : MHeap) (p : Nat) (l : Label) : MHeap := h.modify p fun r => { r with label := l }
/-- `p.up = u`. -/
def MHeap.setUp (h : MHeap) (p : Nat) (u : Option Nat) : MHeap := h.modify p fun r => { r with up := u }
/-- `p.down = d`. -/
def MHeap.setDown (h : MHeap) (p : Nat) (d : List Nat) : MHeap := h.modify p fun r => { r with down := d }
/-- `p.down = append(p.down, q)`. -/
def MHeap.addDown (h : MHeap) (p q : Nat) : MHeap := h.modify p fun r => { r with down := r.down ++ [q] }

/-- State of the loop parse_core.go:30-116. -/
structure PcM where
  heap : MHeap
  core : Option Nat
  braces : List Nat
  idxs : List Nat
  inQuote : Bool
  start : Nat
  stop : Nat
  key : BSlice
  valStart : Nat
  last : UInt8

/-- `newNode := &node{up: core, label: l, value: v}; core.down = append(core.down, newNode)`; `none` is a panic. -/
def PcM.child (s : PcM) (l : Label) (v : BSlice) : Option (MHeap × Nat) :=
  match s.core with
  | none => none
  | some c =>
    let (h, q) := s.heap.new ⟨l, v, some c, []⟩
    some (h.addDown c q, q)

/-- The label of a new node, parse_core.go:68-75: `byteArrayToString(key)` behind a colon, else the index. -/
def PcM.label (s : PcM) : Option Label :=
  if s.last == 58 then some (.part s.key) else s.idxs.head?.map fun n => .str (itoa (n : Int))

/-- A leaf with the value `json[valStart:i]`, parse_core.go:84-88 and 104-108; `none` is a panic. -/
def PcM.leaf (json : BSlice) (i : Nat) (s : PcM) : Option MHeap :=
  match json.sub s.valStart i, s.label with
  | some v, some l => (s.child l v).map Prod.fst
  | _, _ => none

/-- Body of the loop parse_core.go:30-116; `ret` is a panic. -/
def pcBodyM (bytes : BHeap) (json : BSlice) (i : Nat) (s : PcM) : Ctl PcM Unit :=
  match (bytes.read json)[i]? with
  | none => .ret ()
  | some curr =>
    if !isJSONChar true true curr then .next s
    else if curr == 34 then
      if s.inQuote then
        match quoteScan (bytes.read json) i i with
        | .real => .next { s with inQuote := false, stop := i }
        | .escaped => .next s
        | .off => .next { s with start := i + 1 }
      else .next { s with inQuote := true, start := i + 1 }
    else if s.inQuote then .next s
    else if curr == 91 || curr == 123 then
      match s.label with
      | none => .ret ()
      | some l =>
        match s.child l .nil with
        | none => .ret ()
        | some (h, q) =>
          .next { s with
            heap := h, core := some q, idxs := 0 :: s.idxs, braces := i :: s.braces
            valStart := i + 1, last := curr }
    else if curr == 93 || curr == 125 then
      let child : Option (MHeap × Nat) :=
        if s.last == 58 then (s.leaf json i).map fun h => (h, s.valStart)
        else if s.last == 44 then (s.leaf json i).map fun h => (h, i + 1)
        else some (s.heap, s.valStart)
      match child with
      | none => .ret ()
      | some (h, valStart) =>
        match s.core, s.braces with
        | some c, b :: braces =>
          match json.sub b (i + 1), s.idxs with
          | some v, _ :: idxs =>
            let h := h.setValue c v
            .next { s with
              heap := h, core := h[c]?.bind NodeM.up, braces := braces, idxs := idxs
              valStart := valStart, last := curr }
          | _, _ => .ret ()
        | _, _ => .ret ()
    else if curr == 58 then
      match json.sub s.start s.stop with
      | some key => .next { s with key := key, valStart := i + 1, last := 58 }
      | none => .ret ()
    else if curr == 44 then
      let child : Option MHeap :=
        if s.last == 58 then s.leaf json i
        else if s.last == 44 || s.last == 91 then s.leaf json i
        else some s.heap
      match child, s.idxs with
      | some h, n :: idxs => .next { s with heap := h, idxs := (n + 1) :: idxs, valStart := i + 1, last := 44 }
      | _, _ => .ret ()
    else .next s

/-- `pCore`, parse_core.go:5-118: the nodes afterwards; `none` is a panic.  It writes no bytes. -/
def pCoreM (bytes : BHeap) (json : BSlice) (core : Nat) (h : MHeap) : Option MHeap :=
  if json.len < 2 then some h
  else match skipSpaces (bytes.read json) 0 with
    | none => none
    | some start =>
      match forUp json.len (pcBodyM bytes json) start ⟨h, some core, [], [0], false, start, 0, .nil, 0, 0⟩ with
      | .ret _ => none
      | .done s => some s.heap

/-- parse_utils.go:18-21. -/
structure ParserM where
  core : Nat
  json : BSlice
deriving Repr, DecidableEq

/-- Memory: arrays of bytes and nodes. -/
structure Mem where
  bytes : BHeap
  nodes : MHeap
deriving Repr, DecidableEq

/-- The nodes with the bytes they have at present. -/
def Mem.see (m : Mem) : NHeap := m.nodes.see m.bytes

/-- `Parse`, parse_utils.go:70-82: the parser keeps the slice it is given. -/
def ParseM (json : BSlice) (m : Mem) : Out (ParserM × Mem) :=
  let (h, core) := createNodeM m.nodes none
  match pCoreM m.bytes json core h with
  | none => .panic
  | some h =>
    match h[core]? with
    | none => .panic
    | some r =>
      match r.down with
      | [] => .err (.badJSON 0)
      | c :: _ => .ok (⟨c, json⟩, { m with nodes := h })

/-- `Parser.Get`, parse_get.go:15-24; a panic of `cleanValue` is `none`. -/
def ParserM.Get (m : Mem) (p : ParserM) (path : List Bytes) : Out BSlice :=
  if path.length == 0 then .ok p.json
  else
    match m.see.walk p.core path with
    | .panic => .panic
    | .err e => .err e
    | .ok c =>
      match m.nodes[c]? with
      | none => .panic
      | some r =>
        match cleanValueMem m.bytes r.value with
        | none => .panic
        | some s => .ok s

/-- `Parser.GetNew`, parse_get.go:31-46: the value of a leaf itself, or a text built in new arrays, of which only the
last is kept here. -/
def ParserM.GetNew (grow : Nat → Nat) (m : Mem) (fuel : Nat) (p : ParserM) (path : List Bytes) : Out BSlice × Mem :=
  match m.see.walk p.core path with
  | .panic => (.panic, m)
  | .err _ => (.ok .nil, m)
  | .ok c =>
    match m.nodes[c]? with
    | none => (.panic, m)
    | some r =>
      if r.down.isEmpty then
        match cleanValueMem m.bytes r.value with
        | none => (.panic, m)
        | some s => (.ok s, m)
      else
        match m.see.dive fuel c with
        | .panic => (.panic, m)
        | .err e => (.err e, m)
        | .ok t =>
          let (bytes, s) := m.bytes.ofString grow t
          match cleanValueMem bytes s with
          | none => (.panic, m)
          | some s => (.ok s, { m with bytes := bytes })

/-- Result of a mutating method: the parser and the memory afterwards, and the error. -/
inductive PResM where
  | done (p : ParserM) (m : Mem) (err : Option Err)
  | panic
deriving Repr, DecidableEq

/-- The loops that refresh the ancestors, e.g. parse_set.go:43-49: `curr.value, err = Get(p.json, …)` keeps a slice of
the text. -/
def climbM (bytes : BHeap) (json : BSlice) : List (List Bytes) → Nat → MHeap → Option (MHeap × Option Err)
  | [], _, h => some (h, none)
  | q :: qs, curr, h =>
    match h[curr]?.bind NodeM.up with
    | none => none
    | some u =>
      match GetMem bytes json q with
      | .panic => none
      | .err e => some (h.setValue u .nil, some e)
      | .ok v => climbM bytes json qs u (h.setValue u v)

/-- End of a mutator. -/
def finishM (p : ParserM) (bytes : BHeap) (json : BSlice) (qs : List (List Bytes)) (curr : Nat) (h : MHeap) : PResM :=
  match climbM bytes json qs curr h with
  | none => .panic
  | some (h, e) => .done { p with json := json } ⟨bytes, h⟩ e

/-- `Parser.Set`, parse_set.go:9-51: the node keeps the slice `newVal`. -/
def ParserM.Set (grow : Nat → Nat) (m : Mem) (p : ParserM) (newVal : BSlice) (path : List Bytes) : PResM :=
  if path.length == 0 then .done p m (some .nullPath)
  else
    match m.see.walk p.core path with
    | .panic => .panic
    | .err e => .done p m (some e)
    | .ok curr =>
      let qs := prefixes path 1 (path.length - 1)
      if opensContainer (m.bytes.read newVal) then
        let (h, newCore) := createNodeM m.nodes none
        match pCoreM m.bytes newVal newCore h with
        | none => .panic
        | some h =>
          match h[curr]? with
          | none => .panic
          | some r =>
            let h := h.setLabel newCore r.label
            let h := h.setUp newCore r.up
            match (h.see m.bytes).getIndex curr, r.up with
            | some index, some up =>
              match h[up]? with
              | none => .panic
              | some u =>
                if 0 ≤ index ∧ index < u.down.length then
                  let h := h.setDown up (u.down.set index.toNat newCore)
                  let h := h.setValue newCore newVal
                  match SetMem grow m.bytes p.json newVal path with
                  | (.panic, _) => .panic
                  | (.done json _, bytes) => finishM p bytes json qs newCore h
                else .panic
            | _, _ => .panic
      else
        let h := m.nodes.setValue curr newVal
        match SetMem grow m.bytes p.json newVal path with
        | (.panic, _) => .panic
        | (.done json _, bytes) => finishM p bytes json qs curr h

/-- The refresh loop of `SetKey`, parse_set.go:109-115, which ignores the error. -/
def climbQuietM (bytes : BHeap) (json : BSlice) : List (List Bytes) → Nat → MHeap → Option MHeap
  | [], _, h => some h
  | q :: qs, curr, h =>
    match h[curr]?.bind NodeM.up with
    | none => none
    | some u =>
      match GetMem bytes json q with
      | .panic => none
      | .err _ => climbQuietM bytes json qs u (h.setValue u .nil)
      | .ok v => climbQuietM bytes json qs u (h.setValue u v)

/-- `Parser.SetKey`, parse_set.go:87-117. -/
def ParserM.SetKey (grow : Nat → Nat) (m : Mem) (p : ParserM) (newKey : Bytes) (path : List Bytes) : PResM :=
  if path.length == 0 then .done p m (some .nullPath)
  else if newKey.length == 0 then .done p m (some .nullKey)
  else
    match m.see.walk p.core path with
    | .panic => .panic
    | .err e => .done p m (some e)
    | .ok curr =>
      match (m.nodes[curr]?.bind NodeM.up).bind (m.nodes[·]?) with
      | none => .panic
      | some u =>
        if (m.see.child? newKey u.down).isSome then .done p m (some (.keyAlreadyExist newKey))
        else
          let h := m.nodes.setLabel curr (.str newKey)
          match SetKeyMem grow m.bytes p.json newKey path with
          | (.panic, _) => .panic
          | (.done json _, bytes) =>
            match climbQuietM bytes json (prefixes path 1 (path.length - 1)) curr h with
            | none => .panic
            | some h => .done { p with json := json } ⟨bytes, h⟩ none

/-- `deAttach`, parse_utils.go:100-108; `none` is a panic. -/
def Mem.deAttach (m : Mem) (n : Nat) : Option MHeap :=
  match m.nodes[n]? with
  | none => none
  | some r =>
    match r.up with
    | none => none
    | some up =>
      match m.nodes[up]? with
      | none => none
      | some u =>
        if u.down.length == 0 then none
        else some (m.nodes.setDown up (u.down.filter fun d =>
          match m.nodes[d]? with | some x => x.label.see m.bytes != r.label.see m.bytes | none => false))

/-- `Parser.Delete`, parse_delete.go:6-30. -/
def ParserM.Delete (grow : Nat → Nat) (m : Mem) (p : ParserM) (path : List Bytes) : PResM :=
  if path.length == 0 then .done p m (some .nullPath)
  else
    match m.see.walk p.core path with
    | .panic => .panic
    | .err e => .done p m (some e)
    | .ok curr =>
      match m.deAttach curr with
      | none => .panic
      | some h =>
        match DeleteMem grow m.bytes p.json path with
        | (.panic, _) => .panic
        | (.done json (some e), bytes) => .done { p with json := json } ⟨bytes, h⟩ (some e)
        | (.done json none, bytes) => finishM p bytes json (prefixes path 1 (path.length - 1)) curr h

/-- A node for a value, e.g. parse_add.go:33-36 and 45-47: it keeps the slice. -/
def newNodeM (m : Mem) (container : Bool) (label : Bytes) (newVal : BSlice) : Option (MHeap × Nat) :=
  let (h, q) := createNodeM m.nodes none
  if container then
    match pCoreM m.bytes newVal q h with
    | none => none
    | some h => some ((h.setLabel q (.str label)).setValue q newVal, q)
  else some ((h.setLabel q (.str label)).setValue q newVal, q)

/-- `curr.down = append(curr.down, newNode); newNode.up = curr`. -/
def MHeap.attach (h : MHeap) (curr q : Nat) : MHeap := (h.addDown curr q).setUp q (some curr)

/-- parse_add.go:30, 37-41, 45 and 134, 142-146, 152: `t := []byte("," + text)`, then
`replace(p.json, t, len-1, len-1)`, or with `t[1:]` (`bare`); `none` is a panic. -/
def beforeLastM (grow : Nat → Nat) (bytes : BHeap) (json : BSlice) (text : Bytes) (bare : Bool) : Option (BSlice × BHeap) :=
  let (bytes, t) := bytes.ofString grow (44 :: text)
  match if bare then t.sub 1 t.len else some t with
  | none => none
  | some t =>
    match replaceMem grow bytes json t ((json.len : Int) - 1) ((json.len : Int) - 1) with
    | (none, _) => none
    | (some s, bytes) => some (s, bytes)

/-- `Parser.AddKeyValue`, parse_add.go:10-114, for a non-nil `newVal`. -/
def ParserM.AddKeyValue (grow : Nat → Nat) (m : Mem) (p : ParserM) (key : Bytes) (newVal : BSlice) (path : List Bytes) : PResM :=
  if key.length == 0 then .done p m (some .nullKey)
  else match p.Get m path with
    | .panic => .panic
    | .err e => .done p m (some e)
    | .ok json =>
      let container : Out Bool :=
        if key.length ≥ 2 then (idx (m.bytes.read newVal) 0).map fun c => c == 91 || c == 123 else .ok false
      if path.length == 0 then
        match m.nodes[p.core]? with
        | none => .panic
        | some r =>
          if (m.see.child? key r.down).isSome then .done p m (some (.keyAlreadyExist key))
          else match enclosed (m.bytes.read json) 123 125 .objectExpected with
            | some e => .done p m (some e)
            | none =>
              match container with
              | .ok c =>
                match newNodeM m c key newVal with
                | none => .panic
                | some (h, q) =>
                  match beforeLastM grow m.bytes p.json (memberText key (m.bytes.read newVal)) (c && p.json.len == 2) with
                  | some (json', bytes) => .done { p with json := json' } ⟨bytes, h.attach p.core q⟩ none
                  | none => .panic
              | _ => .panic
      else match m.see.walk p.core path with
        | .panic => .panic
        | .err e => .done p m (some e)
        | .ok curr =>
          match (m.nodes[curr]?.bind NodeM.up).bind (m.nodes[·]?) with
          | none => .panic
          | some u =>
            if (m.see.child? key u.down).isSome then .done p m (some (.keyAlreadyExist key))
            else match enclosed (m.bytes.read json) 123 125 .objectExpected with
              | some e => .done p m (some e)
              | none =>
                match container with
                | .ok c =>
                  match newNodeM m c key newVal with
                  | none => .panic
                  | some (h, q) =>
                    let h := h.attach curr q
                    match AddKeyValueBytes grow m.bytes p.json key (some newVal) path with
                    | (.panic, _) => .panic
                    | (.done json' (some e), bytes) => .done { p with json := json' } ⟨bytes, h⟩ (some e)
                    | (.done json' none, bytes) => finishM p bytes json' (prefixes path 1 path.length) q h
                | _ => .panic

/-- `Parser.Add`, parse_add.go:119-220. -/
def ParserM.Add (grow : Nat → Nat) (m : Mem) (p : ParserM) (newVal : BSlice) (path : List Bytes) : PResM :=
  if newVal.len == 0 then .done p m (some .nullKey)
  else match p.Get m path with
    | .panic => .panic
    | .err e => .done p m (some e)
    | .ok json =>
      match m.see.walk p.core path with                   -- p.core itself for an empty path
      | .panic => .panic
      | .err e => .done p m (some e)
      | .ok curr =>
        match enclosed (m.bytes.read json) 91 93 .arrayExpected with
        | some e => .done p m (some e)
        | none =>
          match m.nodes[curr]? with
          | none => .panic
          | some r =>
            let c := opensContainer (m.bytes.read newVal)
            match newNodeM m c (itoa r.down.length) newVal with
            | none => .panic
            | some (h, q) =>
              let h := h.attach curr q
              if path.length == 0 then
                match beforeLastM grow m.bytes p.json (m.bytes.read newVal) (c && p.json.len == 2) with
                | some (json', bytes) => .done { p with json := json' } ⟨bytes, h⟩ none
                | none => .panic
              else
                match AddMem grow m.bytes p.json newVal path with
                | (.panic, _) => .panic
                | (.done json' (some e), bytes) => .done { p with json := json' } ⟨bytes, h⟩ (some e)
                | (.done json' none, bytes) => finishM p bytes json' (prefixes path (if c then 2 else 1) path.length) q h

/-- The loop of `node.insert`, parse_utils.go:90-92, over `up.down` from its `i`-th element on. -/
def relabelM (index : Nat) : Nat → List Nat → MHeap → MHeap
  | _, [], h => h
  | i, d :: ds, h => relabelM index (i + 1) ds (if index ≤ i then h.setLabel d (.str (itoa (i + 1))) else h)

/-- `node.insert`, parse_utils.go:84-98. -/
def MHeap.insert (h : MHeap) (n up : Nat) (index : Int) : Out MHeap :=
  match h[up]? with
  | none => .panic
  | some u =>
    if u.down.length != 0 then
      if (u.down.length : Int) - 1 < index then .err .indexOutOfRange
      else if index < 0 then .panic                       -- up.down[index]
      else .ok (((relabelM index.toNat 0 u.down h).setLabel n (.str (itoa index))).setUp n (some up))
    else .err .indexOutOfRange

/-- A node without label and value, parse_add.go:244-245, 263, 293-294, 317. -/
def bareNodeM (m : Mem) (container : Bool) (newVal : BSlice) : Option (MHeap × Nat) :=
  let (h, q) := createNodeM m.nodes none
  if container then (pCoreM m.bytes newVal q h).map fun h => (h, q) else some (h, q)

/-- `Parser.Insert`, parse_add.go:225-339. -/
def ParserM.Insert (grow : Nat → Nat) (m : Mem) (p : ParserM) (index : Int) (newVal : BSlice) (path : List Bytes) : PResM :=
  if newVal.len == 0 then .done p m (some .nullKey)
  else match p.Get m path with
    | .panic => .panic
    | .err e => .done p m (some e)
    | .ok json =>
      match m.see.walk p.core path with                   -- p.core itself for an empty path
      | .panic => .panic
      | .err e => .done p m (some e)
      | .ok curr =>
        match enclosed (m.bytes.read json) 91 93 .arrayExpected with
        | some e => .done p m (some e)
        | none =>
          let c := opensContainer (m.bytes.read newVal)
          match bareNodeM m c newVal with
          | none => .panic
          | some (h, q) =>
            match h.insert q curr index with
            | .panic => .panic
            | .err e => .done p { m with nodes := h } (some e)
            | .ok h =>
              if path.length == 0 then
                if c then                                 -- lines 246-259
                  match InsertBytes grow m.bytes p.json index newVal path with
                  | (.panic, _) => .panic
                  | (.done json' (some e), bytes) => .done { p with json := json' } ⟨bytes, h⟩ (some e)
                  | (.done json' none, bytes) =>
                    match h.insert q curr index with
                    | .panic => .panic
                    | .err e => .done { p with json := json' } ⟨bytes, h⟩ (some e)
                    | .ok h => .done { p with json := json' } ⟨bytes, h.attach curr q⟩ none
                else                                      -- lines 264-278
                  let h := (h.setValue q newVal).addDown curr q
                  match InsertBytes grow m.bytes p.json index newVal path with
                  | (.panic, _) => .panic
                  | (.done json' (some e), bytes) => .done { p with json := json' } ⟨bytes, h⟩ (some e)
                  | (.done json' none, bytes) =>
                    match h.insert q curr index with
                    | .panic => .panic
                    | .err e => .done { p with json := json' } ⟨bytes, h⟩ (some e)
                    | .ok h => .done { p with json := json' } ⟨bytes, h.setUp q (some curr)⟩ none
              else
                let h := (h.setValue q newVal).attach curr q
                match InsertBytes grow m.bytes p.json index newVal path with
                | (.panic, _) => .panic
                | (.done json' (some e), bytes) => .done { p with json := json' } ⟨bytes, h⟩ (some e)
                | (.done json' none, bytes) => finishM p bytes json' (prefixes path 1 path.length) q h

end Jin
