import Verif.Model.ParserMore
/-!
# Model.ParserPtr — `/repo/parse_*.go` with pointers

`Model.Parser` takes the tree of nodes as a value and a pointer into it as a path of labels.  Here
nodes are cells of a memory and pointers are their addresses: every assignment of the code through
`up`, `down`, `curr`, `newNode` is a write to that memory.  The stacks of `pCore` are lists, as in
`Model.Parser`; byte slices are values.
-/

namespace Jin

/-- `node`, parse_utils.go:8-13; `none` is `nil`. -/
structure NodeRec where
  label : Bytes
  value : Bytes
  up : Option Nat
  down : List Nat

/-- Memory of nodes: a pointer is the position of its cell. -/
abbrev NHeap := List NodeRec

/-- `&node{…}`. -/
def NHeap.new (h : NHeap) (r : NodeRec) : NHeap × Nat := (h ++ [r], h.length)

/-- `createNode`, parse_utils.go:23-26. -/
def createNode (h : NHeap) (up : Option Nat) : NHeap × Nat := h.new ⟨[], [], up, []⟩

/-- `p.value = v`. -/
def NHeap.setValue (h : NHeap) (p : Nat) (v : Bytes) : NHeap := h.modify p fun r => { r with value := v }
/-- `p.label = l`. -/
def NHeap.setLabel (h : NHeap) (p : Nat) (l : Bytes) : NHeap := h.modify p fun r => { r with label := l }
/-- `p.up = u`. -/
def NHeap.setUp (h : NHeap) (p : Nat) (u : Option Nat) : NHeap := h.modify p fun r => { r with up := u }
/-- `p.down = d`. -/
def NHeap.setDown (h : NHeap) (p : Nat) (d : List Nat) : NHeap := h.modify p fun r => { r with down := d }
/-- `p.down = append(p.down, q)`. -/
def NHeap.addDown (h : NHeap) (p q : Nat) : NHeap := h.modify p fun r => { r with down := r.down ++ [q] }

/-- `b` is `a` or below it, following `down`. -/
inductive NHeap.Reach (h : NHeap) : Nat → Nat → Prop where
  | refl {a : Nat} : NHeap.Reach h a a
  | kid {a b d : Nat} {r : NodeRec} : h[a]? = some r → d ∈ r.down → NHeap.Reach h d b → NHeap.Reach h a b

/-- State of the loop parse_core.go:30-116. -/
structure PcP where
  heap : NHeap
  core : Option Nat
  braces : List Nat
  idxs : List Nat
  inQuote : Bool
  start : Nat
  stop : Nat
  key : Bytes
  valStart : Nat
  last : UInt8

/-- `newNode := &node{up: core, label: l, value: v}; core.down = append(core.down, newNode)`; `none` is a panic. -/
def PcP.child (s : PcP) (l v : Bytes) : Option (NHeap × Nat) :=
  match s.core with
  | none => none
  | some c =>
    let (h, q) := s.heap.new ⟨l, v, some c, []⟩
    some (h.addDown c q, q)

/-- The label of a new node, parse_core.go:68-75: the key behind a colon, else the index; `none` is a panic. -/
def PcP.label (s : PcP) : Option Bytes :=
  if s.last == 58 then some s.key else s.idxs.head?.map fun n => itoa (n : Int)

/-- A leaf with the value `json[valStart:i]`, parse_core.go:84-88 and 104-108; `none` is a panic. -/
def PcP.leaf (json : Bytes) (i : Nat) (s : PcP) : Option NHeap :=
  match slice json s.valStart i, s.label with
  | .ok v, some l => (s.child l v).map Prod.fst
  | _, _ => none

/-- Body of the loop parse_core.go:30-116; `ret` is a panic. -/
def pcBodyP (json : Bytes) (i : Nat) (s : PcP) : Ctl PcP Unit :=
  match json[i]? with
  | none => .ret ()
  | some curr =>
    if !isJSONChar true true curr then .next s
    else if curr == 34 then
      if s.inQuote then
        match quoteScan json i i with
        | .real => .next { s with inQuote := false, stop := i }
        | .escaped => .next s
        | .off => .next { s with start := i + 1 }
      else .next { s with inQuote := true, start := i + 1 }
    else if s.inQuote then .next s
    else if curr == 91 || curr == 123 then
      match s.label with
      | none => .ret ()
      | some l =>
        match s.child l [] with
        | none => .ret ()
        | some (h, q) =>
          .next { s with
            heap := h, core := some q, idxs := 0 :: s.idxs, braces := i :: s.braces
            valStart := i + 1, last := curr }
    else if curr == 93 || curr == 125 then
      let child : Option (NHeap × Nat) :=
        if s.last == 58 then (s.leaf json i).map fun h => (h, s.valStart)
        else if s.last == 44 then (s.leaf json i).map fun h => (h, i + 1)
        else some (s.heap, s.valStart)
      match child with
      | none => .ret ()
      | some (h, valStart) =>
        match s.core, s.braces with
        | some c, b :: braces =>
          match slice json b (i + 1), s.idxs with
          | .ok v, _ :: idxs =>
            let h := h.setValue c v
            .next { s with
              heap := h, core := h[c]?.bind NodeRec.up, braces := braces, idxs := idxs
              valStart := valStart, last := curr }
          | _, _ => .ret ()
        | _, _ => .ret ()
    else if curr == 58 then
      match slice json s.start s.stop with
      | .ok key => .next { s with key := key, valStart := i + 1, last := 58 }
      | _ => .ret ()
    else if curr == 44 then
      let child : Option NHeap :=
        if s.last == 58 then s.leaf json i
        else if s.last == 44 || s.last == 91 then s.leaf json i
        else some s.heap
      match child, s.idxs with
      | some h, n :: idxs => .next { s with heap := h, idxs := (n + 1) :: idxs, valStart := i + 1, last := 44 }
      | _, _ => .ret ()
    else .next s

/-- `pCore`, parse_core.go:5-118: the memory afterwards; `none` is a panic. -/
def pCoreP (json : Bytes) (core : Nat) (h : NHeap) : Option NHeap :=
  if json.length < 2 then some h
  else match skipSpaces json 0 with
    | none => none
    | some start =>
      match forUp json.length (pcBodyP json) start ⟨h, some core, [], [0], false, start, 0, [], 0, 0⟩ with
      | .ret _ => none
      | .done s => some s.heap

/-- parse_utils.go:18-21. -/
structure ParserP where
  core : Nat
  json : Bytes

/-- `Parse`, parse_utils.go:70-82. -/
def ParseP (json : Bytes) (h : NHeap) : Out (ParserP × NHeap) :=
  let (h, core) := createNode h none
  match pCoreP json core h with
  | none => .panic
  | some h =>
    match h[core]? with
    | none => .panic
    | some r =>
      match r.down with
      | [] => .err (.badJSON 0)
      | c :: _ => .ok (⟨c, json⟩, h)

/-- The loop parse_utils.go:112-117: the first of the nodes with a label. -/
def NHeap.child? (h : NHeap) (p : Bytes) (down : List Nat) : Option Nat :=
  down.find? fun d => match h[d]? with
    | some r => r.label == p
    | none => false

/-- `node.walk`, parse_utils.go:110-123. -/
def NHeap.walk (h : NHeap) (n : Nat) : List Bytes → Out Nat
  | [] => .ok n
  | p :: ps =>
    match h[n]? with
    | none => .panic
    | some r =>
      match h.child? p r.down with
      | some d => h.walk d ps
      | none => .err (.keyNotFound p)

/-- `Parser.Get`, parse_get.go:15-24. -/
def ParserP.Get (h : NHeap) (p : ParserP) (path : List Bytes) : Out Bytes :=
  if path.length == 0 then .ok p.json
  else
    match h.walk p.core path with
    | .panic => .panic
    | .err e => .err e
    | .ok c =>
      match h[c]? with
      | none => .panic
      | some r => cleanValue r.value

mutual
/-- `node.dive`, parse_utils.go:44-67 (with an empty `bytes`), on pointers.  The recursion is over the memory, so it
carries a bound on its depth. -/
def NHeap.dive (h : NHeap) : Nat → Nat → Out Bytes
  | 0, _ => .panic
  | fuel + 1, n =>
    match h[n]? with
    | none => .panic
    | some r => do
      let c ← idx r.value 0
      let body ← NHeap.diveList h fuel r.down
      return (c :: body).dropLast ++ [c + 2]
/-- The loop parse_utils.go:47-59. -/
def NHeap.diveList (h : NHeap) : Nat → List Nat → Out Bytes
  | _, [] => .ok []
  | 0, _ :: _ => .panic
  | fuel + 1, d :: ds =>
    match h[d]? with
    | none => .panic
    | some r => do
      let val ← if r.down.isEmpty then (Out.ok r.value : Out Bytes) else NHeap.dive h fuel d
      match r.up.bind (h[·]?) with                        -- d.up.value[0]
      | none => .panic
      | some u => do
        let c ← idx u.value 0
        let item := if c == 123 then memberText r.label val else if c == 91 then val else []
        let rest ← NHeap.diveList h fuel ds
        return item ++ [44] ++ rest
end

/-- `Parser.GetNew`, parse_get.go:31-46. -/
def ParserP.GetNew (h : NHeap) (fuel : Nat) (p : ParserP) (path : List Bytes) : Out Bytes :=
  match h.walk p.core path with
  | .panic => .panic
  | .err _ => .ok []
  | .ok c =>
    match h[c]? with
    | none => .panic
    | some r =>
      if r.down.isEmpty then cleanValue r.value
      else do
        let t ← h.dive fuel c
        cleanValue t

/-- Result of a mutating method: the parser and the memory afterwards, and the error. -/
inductive PResP where
  | done (p : ParserP) (h : NHeap) (err : Option Err)
  | panic

/-- The loops that refresh the ancestors, e.g. parse_set.go:43-49: `curr = curr.up; curr.value, err = Get(p.json, …)`. -/
def climb (json : Bytes) : List (List Bytes) → Nat → NHeap → Option (NHeap × Option Err)
  | [], _, h => some (h, none)
  | q :: qs, curr, h =>
    match h[curr]?.bind NodeRec.up with
    | none => none
    | some u =>
      match Jin.Get json q with
      | .panic => none
      | .err e => some (h.setValue u [], some e)
      | .ok v => climb json qs u (h.setValue u v)

/-- End of a mutator. -/
def finishP (p : ParserP) (json : Bytes) (qs : List (List Bytes)) (curr : Nat) (h : NHeap) : PResP :=
  match climb json qs curr h with
  | none => .panic
  | some (h, e) => .done { p with json := json } h e

/-- `getIndex`, parse_utils.go:125-132; `none` is a panic. -/
def NHeap.getIndex (h : NHeap) (n : Nat) : Option Int :=
  match h[n]? with
  | none => none
  | some r =>
    match r.up.bind (h[·]?) with
    | none => none
    | some u =>
      match u.down.findIdx? fun d => match h[d]? with | some x => x.label == r.label | none => false with
      | some i => some i
      | none => some (-1)

/-- `Parser.Set`, parse_set.go:9-51. -/
def ParserP.Set (h : NHeap) (p : ParserP) (newVal : Bytes) (path : List Bytes) : PResP :=
  if path.length == 0 then .done p h (some .nullPath)
  else
    match h.walk p.core path with
    | .panic => .panic
    | .err e => .done p h (some e)
    | .ok curr =>
      let qs := prefixes path 1 (path.length - 1)
      if opensContainer newVal then
        let (h, newCore) := createNode h none
        match pCoreP newVal newCore h with
        | none => .panic
        | some h =>
          match h[curr]? with
          | none => .panic
          | some r =>
            let h := h.setLabel newCore r.label
            let h := h.setUp newCore r.up
            match h.getIndex curr, r.up with
            | some index, some up =>
              match h[up]? with
              | none => .panic
              | some u =>
                if 0 ≤ index ∧ index < u.down.length then
                  let h := h.setDown up (u.down.set index.toNat newCore)
                  let h := h.setValue newCore newVal
                  match (Jin.Set p.json newVal path).json? with
                  | none => .panic
                  | some json => finishP p json qs newCore h
                else .panic
            | _, _ => .panic
      else
        let h := h.setValue curr newVal
        match (Jin.Set p.json newVal path).json? with
        | none => .panic
        | some json => finishP p json qs curr h

/-- The refresh loop of `SetKey`, parse_set.go:109-115, which ignores the error. -/
def climbQuiet (json : Bytes) : List (List Bytes) → Nat → NHeap → Option NHeap
  | [], _, h => some h
  | q :: qs, curr, h =>
    match h[curr]?.bind NodeRec.up with
    | none => none
    | some u =>
      match Jin.Get json q with
      | .panic => none
      | .err _ => climbQuiet json qs u (h.setValue u [])
      | .ok v => climbQuiet json qs u (h.setValue u v)

/-- `Parser.SetKey`, parse_set.go:87-117. -/
def ParserP.SetKey (h : NHeap) (p : ParserP) (newKey : Bytes) (path : List Bytes) : PResP :=
  if path.length == 0 then .done p h (some .nullPath)
  else if newKey.length == 0 then .done p h (some .nullKey)
  else
    match h.walk p.core path with
    | .panic => .panic
    | .err e => .done p h (some e)
    | .ok curr =>
      match (h[curr]?.bind NodeRec.up).bind (h[·]?) with
      | none => .panic
      | some u =>
        if (h.child? newKey u.down).isSome then .done p h (some (.keyAlreadyExist newKey))
        else
          let h := h.setLabel curr newKey
          match (Jin.SetKey p.json newKey path).json? with
          | none => .panic
          | some json =>
            match climbQuiet json (prefixes path 1 (path.length - 1)) curr h with
            | none => .panic
            | some h => .done { p with json := json } h none

/-- `deAttach`, parse_utils.go:100-108: the parent keeps the children with another label; `none` is a panic (of
`make([]*node, 0, len(n.up.down)-1)` too). -/
def NHeap.deAttach (h : NHeap) (n : Nat) : Option NHeap :=
  match h[n]? with
  | none => none
  | some r =>
    match r.up with
    | none => none
    | some up =>
      match h[up]? with
      | none => none
      | some u => if u.down.length == 0 then none else some (h.setDown up (u.down.filter fun d => match h[d]? with | some x => x.label != r.label | none => false))

/-- `Parser.Delete`, parse_delete.go:6-30. -/
def ParserP.Delete (h : NHeap) (p : ParserP) (path : List Bytes) : PResP :=
  if path.length == 0 then .done p h (some .nullPath)
  else
    match h.walk p.core path with
    | .panic => .panic
    | .err e => .done p h (some e)
    | .ok curr =>
      match h.deAttach curr with
      | none => .panic
      | some h =>
        match Jin.Delete p.json path with
        | .panic => .panic
        | .done json (some e) => .done { p with json := json } h (some e)
        | .done json none => finishP p json (prefixes path 1 (path.length - 1)) curr h

/-- A node for a value, e.g. parse_add.go:33-36 and 45-47: parsed into when it is a container. -/
def newNodeP (h : NHeap) (container : Bool) (label newVal : Bytes) : Option (NHeap × Nat) :=
  let (h, q) := createNode h none
  if container then
    match pCoreP newVal q h with
    | none => none
    | some h => some ((h.setLabel q label).setValue q newVal, q)
  else some ((h.setLabel q label).setValue q newVal, q)

/-- `curr.down = append(curr.down, newNode); newNode.up = curr`. -/
def NHeap.attach (h : NHeap) (curr q : Nat) : NHeap := (h.addDown curr q).setUp q (some curr)

/-- `Parser.AddKeyValue`, parse_add.go:10-114, for a non-nil `newVal`. -/
def ParserP.AddKeyValue (h : NHeap) (p : ParserP) (key newVal : Bytes) (path : List Bytes) : PResP :=
  if key.length == 0 then .done p h (some .nullKey)
  else match p.Get h path with
    | .panic => .panic
    | .err e => .done p h (some e)
    | .ok json =>
      let container : Out Bool :=
        if key.length ≥ 2 then (idx newVal 0).map fun c => c == 91 || c == 123 else .ok false
      if path.length == 0 then
        match h[p.core]? with
        | none => .panic
        | some r =>
          if (h.child? key r.down).isSome then .done p h (some (.keyAlreadyExist key))
          else match enclosed json 123 125 .objectExpected with
            | some e => .done p h (some e)
            | none =>
              match container with
              | .ok c =>
                match newNodeP h c key newVal with
                | none => .panic
                | some (h, q) =>
                  let t := memberText key newVal
                  match beforeLast p.json (if c && p.json.length == 2 then t else 44 :: t) with
                  | .ok json' => .done { p with json := json' } (h.attach p.core q) none
                  | _ => .panic
              | _ => .panic
      else match h.walk p.core path with
        | .panic => .panic
        | .err e => .done p h (some e)
        | .ok curr =>
          match (h[curr]?.bind NodeRec.up).bind (h[·]?) with
          | none => .panic
          | some u =>
            if (h.child? key u.down).isSome then .done p h (some (.keyAlreadyExist key))
            else match enclosed json 123 125 .objectExpected with
              | some e => .done p h (some e)
              | none =>
                match container with
                | .ok c =>
                  match newNodeP h c key newVal with
                  | none => .panic
                  | some (h, q) =>
                    let h := h.attach curr q
                    match Jin.AddKeyValue p.json key (some newVal) path with
                    | .panic => .panic
                    | .done json' (some e) => .done { p with json := json' } h (some e)
                    | .done json' none => finishP p json' (prefixes path 1 path.length) q h
                | _ => .panic

/-- `Parser.Add`, parse_add.go:119-220. -/
def ParserP.Add (h : NHeap) (p : ParserP) (newVal : Bytes) (path : List Bytes) : PResP :=
  if newVal.length == 0 then .done p h (some .nullKey)
  else match p.Get h path with
    | .panic => .panic
    | .err e => .done p h (some e)
    | .ok json =>
      match h.walk p.core path with                       -- p.core itself for an empty path
      | .panic => .panic
      | .err e => .done p h (some e)
      | .ok curr =>
        match enclosed json 91 93 .arrayExpected with
        | some e => .done p h (some e)
        | none =>
          match h[curr]? with
          | none => .panic
          | some r =>
            let c := opensContainer newVal
            match newNodeP h c (itoa r.down.length) newVal with
            | none => .panic
            | some (h, q) =>
              let h := h.attach curr q
              if path.length == 0 then
                match beforeLast p.json (if c && p.json.length == 2 then newVal else 44 :: newVal) with
                | .ok json' => .done { p with json := json' } h none
                | _ => .panic
              else
                match Jin.Add p.json newVal path with
                | .panic => .panic
                | .done json' (some e) => .done { p with json := json' } h (some e)
                | .done json' none => finishP p json' (prefixes path (if c then 2 else 1) path.length) q h

/-- The loop of `node.insert`, parse_utils.go:90-92, over `up.down` from its `i`-th element on. -/
def relabelP (index : Nat) : Nat → List Nat → NHeap → NHeap
  | _, [], h => h
  | i, d :: ds, h => relabelP index (i + 1) ds (if index ≤ i then h.setLabel d (itoa (i + 1)) else h)

/-- `node.insert`, parse_utils.go:84-98. -/
def NHeap.insert (h : NHeap) (n up : Nat) (index : Int) : Out NHeap :=
  match h[up]? with
  | none => .panic
  | some u =>
    if u.down.length != 0 then
      if (u.down.length : Int) - 1 < index then .err .indexOutOfRange
      else if index < 0 then .panic                       -- up.down[index]
      else .ok (((relabelP index.toNat 0 u.down h).setLabel n (itoa index)).setUp n (some up))
    else .err .indexOutOfRange

/-- A node without label and value, parse_add.go:244-245, 263, 293-294, 317. -/
def bareNodeP (h : NHeap) (container : Bool) (newVal : Bytes) : Option (NHeap × Nat) :=
  let (h, q) := createNode h none
  if container then (pCoreP newVal q h).map fun h => (h, q) else some (h, q)

/-- `Parser.Insert`, parse_add.go:225-339. -/
def ParserP.Insert (h : NHeap) (p : ParserP) (index : Int) (newVal : Bytes) (path : List Bytes) : PResP :=
  if newVal.length == 0 then .done p h (some .nullKey)
  else match p.Get h path with
    | .panic => .panic
    | .err e => .done p h (some e)
    | .ok json =>
      match h.walk p.core path with                       -- p.core itself for an empty path
      | .panic => .panic
      | .err e => .done p h (some e)
      | .ok curr =>
        match enclosed json 91 93 .arrayExpected with
        | some e => .done p h (some e)
        | none =>
          let c := opensContainer newVal
          match bareNodeP h c newVal with
          | none => .panic
          | some (h, q) =>
            match h.insert q curr index with
            | .panic => .panic
            | .err e => .done p h (some e)
            | .ok h =>
              if path.length == 0 then
                if c then                                 -- lines 246-259
                  match Jin.Insert p.json index newVal path with
                  | .panic => .panic
                  | .done json' (some e) => .done { p with json := json' } h (some e)
                  | .done json' none =>
                    match h.insert q curr index with
                    | .panic => .panic
                    | .err e => .done { p with json := json' } h (some e)
                    | .ok h => .done { p with json := json' } (h.attach curr q) none
                else                                      -- lines 264-278
                  let h := (h.setValue q newVal).addDown curr q
                  match Jin.Insert p.json index newVal path with
                  | .panic => .panic
                  | .done json' (some e) => .done { p with json := json' } h (some e)
                  | .done json' none =>
                    match h.insert q curr index with
                    | .panic => .panic
                    | .err e => .done { p with json := json' } h (some e)
                    | .ok h => .done { p with json := json' } (h.setUp q (some curr)) none
              else
                let h := (h.setValue q newVal).attach curr q
                match Jin.Insert p.json index newVal path with
                | .panic => .panic
                | .done json' (some e) => .done { p with json := json' } h (some e)
                | .done json' none => finishP p json' (prefixes path 1 path.length) q h

/-- `node.createTree`, parse_utils.go:149-173, over `n.down`: the text appended to `*str`; like `dive` it carries a
bound. -/
def NHeap.createTrees (h : NHeap) (pad : Bytes → Bytes) (withValues : Bool) : Nat → Nat → List Nat → Option Bytes
  | _, _, [] => some []
  | 0, _, _ :: _ => none
  | fuel + 1, depth, d :: ds =>
    match h[d]? with
    | none => none
    | some r => do
      let below ← if r.down.length > 0 then h.createTrees pad withValues fuel (depth + 1) r.down else some []
      let rest ← h.createTrees pad withValues fuel depth ds
      return treeLine pad depth withValues r.label r.value ++ (below ++ rest)

/-- `Parser.Tree`, `Parser.TreeFull`, parse_utils.go:136-147; `none` is a panic. -/
def ParserP.tree (h : NHeap) (fuel : Nat) (pad : Bytes → Bytes) (withValues : Bool) (p : ParserP) : Option Bytes :=
  match h[p.core]? with
  | none => none
  | some r => h.createTrees pad withValues fuel 0 r.down

end Jin
