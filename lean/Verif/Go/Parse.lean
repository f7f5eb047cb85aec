import Lean
import Verif.Go.Syntax
/-!
# Go.Parse — reading Go text

A reader for the part of Go in `Go.Syntax`, and the command `go_source name "text"`, which reads a file when the module is
compiled and defines for each of its functions `f` the tree `Src.f : Func` (with its loops as `Src.f.for1`, `Src.f.for2`, …
and their bodies as `Src.f.body1`, `Src.f.body2`, … in the order of the text, and the bodies of its function literals as
`Src.f.lit1`, …), and `Src.name.funcs`, `Src.name.consts`.  A method `m` of `T` is the function `T.m`.

A pointer to a `JO`, `Scheme`, `Parser` or `sequance` is read as the variables for the fields of what it points to: a method
gets them as its first parameters and returns them as its first results.  This is right where there is one such pointer to a
structure, as in this package.  Pointers to a `node` are addresses; the functions that use them get the memory of nodes as the
parameter `heap` and return it as their first result.  A `*string` is read as the string it points to, which the function
returns before its results.
-/

namespace Jin.Go.Parse

open Jin.Go

inductive Tok where
  | id (s : String)
  | int (n : Nat)
  | str (b : List UInt8)
  | op (s : String)
  | eof
deriving BEq, Repr, Inhabited

def keywords : List String :=
  ["break", "case", "const", "continue", "default", "else", "for", "func", "goto", "if", "import", "package", "range", "return",
   "switch", "type", "var", "struct", "map", "interface"]

/-- Does a line end here, i.e. is a semicolon put behind the token at the end of a line? -/
def Tok.ends : Tok → Bool
  | .id s => !keywords.contains s || ["break", "continue", "return"].contains s
  | .int _ => true
  | .str _ => true
  | .op s => [")", "]", "}", "++", "--"].contains s
  | .eof => false

def ops : List String :=
  ["...", "&&", "||", "==", "!=", "<=", ">=", ":=", "++", "--", "+=", "-=",
   "+", "-", "*", "/", "%", "&", "|", "!", "=", "<", ">", "(", ")", "[", "]", "{", "}", ",", ";", ":", "."]

def isLetter (c : Char) : Bool := c.isAlpha || c == '_'

partial def lex (s : List Char) (acc : Array Tok) : Except String (Array Tok) :=
  let nl (acc : Array Tok) := if (acc.back?.map Tok.ends).getD false then acc.push (.op ";") else acc
  match s with
  | [] => .ok ((nl acc).push .eof)
  | '\n' :: r => lex r (nl acc)
  | '/' :: '/' :: r => lex (r.dropWhile (· != '\n')) acc
  | '`' :: r =>
    let b := r.takeWhile (· != '`')
    lex (r.drop (b.length + 1)) (acc.push (.str (String.ofList b).toUTF8.toList))
  | '"' :: r =>
    let rec go (r : List Char) (b : List Char) : Except String (List Char × List Char) :=
      match r with
      | '"' :: r => .ok (b.reverse, r)
      | '\\' :: 'n' :: r => go r ('\n' :: b)
      | '\\' :: 't' :: r => go r ('\t' :: b)
      | '\\' :: '"' :: r => go r ('"' :: b)
      | '\\' :: '\\' :: r => go r ('\\' :: b)
      | '\\' :: _ => .error "escape in a string"
      | '\n' :: _ | [] => .error "unterminated string"
      | c :: r => go r (c :: b)
    match go r [] with
    | .ok (b, r) => lex r (acc.push (.str (String.ofList b).toUTF8.toList))
    | .error e => .error e
  | '\'' :: c :: '\'' :: r => if c == '\\' then .error "escape in a rune" else lex r (acc.push (.int c.toNat))
  | c :: r =>
    if c.isWhitespace then lex r acc
    else if c.isDigit then
      let d := s.takeWhile Char.isDigit
      lex (s.drop d.length) (acc.push (.int ((String.ofList d).toNat?.getD 0)))
    else if isLetter c then
      let d := s.takeWhile fun c => isLetter c || c.isDigit
      lex (s.drop d.length) (acc.push (.id (String.ofList d)))
    else match ops.find? fun o => o.toList.isPrefixOf s with
      | some o => lex (s.drop o.length) (acc.push (.op o))
      | none => .error s!"unexpected character {c}"

/-- The letters of a name as a number in base 256; `_` is 0. -/
def code (s : String) : Id := if s == "_" then 0 else s.toUTF8.toList.foldl (fun n c => n * 256 + c.toNat) 0

/-- The structures that are read as their fields. -/
def structs : List (String × List String) :=
  [("JO", ["body"]), ("Scheme", ["originalKeys", "keys"]), ("Parser", ["core", "json"]), ("sequance", ["list", "index", "length"])]

/-- Functions whose result is such a structure, where they are called. -/
def makers : List (String × String) := [("makeSeq", "sequance")]

/-- Functions that use the memory of nodes; so do the methods of `node` and `Parser`. -/
def heapFuncs : List String := ["createNode", "pCore", "Parse"]

/-- The methods of `node`. -/
def nodeMethods : List String := ["dive", "insert", "deAttach", "walk", "getIndex", "createTree"]

/-- Methods without results that are called in the package. -/
def voids : List String := ["push", "inc", "deAttach", "createTree"]

structure PState where
  toks : Array Tok
  pos : Nat := 0
  /-- the parameter that is a function -/
  cb : Option String := none
  /-- variables of structures read as their fields -/
  vars : List (String × String) := []
  /-- what is returned before the results -/
  pre : List Expr := []
  /-- how many results the function has, and where a structure is among them -/
  results : List (Option String) := []
  /-- calls to be run before the statement that is being read -/
  calls : List Stmt := []
  tmp : Nat := 0
  /-- the function literal among the arguments just read: parameters, variables it changes, body -/
  lit : Option (List Id × List Id × Stmt) := none
  /-- the own parameter that is a function is among them -/
  cbArg : Bool := false
  /-- the parameters that are a `*string` -/
  strPtrs : List String := []
  /-- the strings whose address is among them -/
  refs : List Id := []

abbrev P := StateT PState (Except String)

def peek : P Tok := do let s ← get; return s.toks.getD s.pos .eof
def peekAt (n : Nat) : P Tok := do let s ← get; return s.toks.getD (s.pos + n) .eof
def next : P Tok := do let t ← peek; modify fun s => { s with pos := s.pos + 1 }; return t
def isOp (o : String) : P Bool := do return (← peek) == .op o
def isId (o : String) : P Bool := do return (← peek) == .id o
def fail {α : Type} (m : String) : P α := do
  let s ← get
  throw s!"{m} before {repr ((s.toks.toList.drop s.pos).take 8)}"
def eat (o : String) : P Bool := do if ← isOp o then let _ ← next; return true else return false
def expect (o : String) : P Unit := do if !(← eat o) then fail s!"expected {o}"
def eatId (o : String) : P Bool := do if ← isId o then let _ ← next; return true else return false
def ident : P String := do
  match ← next with
  | .id s => if keywords.contains s then fail s!"keyword {s}" else return s
  | _ => fail "expected a name"

/-- Types, as far as zero values and literals need them. -/
inductive Ty where
  | int | byte | bool | string | float | error | func | slice (k : Kind) | node | struct (s : String) | strPtr | other
deriving BEq, Repr

mutual
partial def type : P Ty := do
  match ← next with
  | .id "int" | .id "int32" | .id "int64" | .id "uint" | .id "uint32" | .id "uint64" => return .int
  | .id "byte" => return .byte
  | .id "bool" => return .bool
  | .id "string" => return .string
  | .id "float64" => return .float
  | .id "error" => return .error
  | .id "interface" => expect "{"; expect "}"; return .other
  | .id "map" => expect "["; let _ ← type; expect "]"; let _ ← type; return .other
  | .id "func" =>
    expect "("
    let _ ← params
    let _ ← results
    return .func
  | .op "*" =>
    if let .id s ← peek then
      if s == "node" then let _ ← next; return .node
      if s == "string" then let _ ← next; return .strPtr
      if structs.any fun t => t.1 == s then let _ ← next; return .struct s
    let _ ← type
    return .other
  | .op "[" => do
    expect "]"
    match ← type with
    | .byte => return .slice .bytes
    | .string => return .slice .strs
    | .int => return .slice .ints
    | .bool => return .slice .bools
    | .float => return .slice .floats
    | .node => return .slice .ptrs
    | _ => return .other
  | .id _ => if ← eat "." then let _ ← ident; return .other else return .other
  | _ => fail "expected a type"

/-- Results of a function type. -/
partial def results : P (List Ty) := do
  if ← eat "(" then return (← params).map fun p => p.2.1
  else match ← peek with
    | .id s => if ["string", "int", "bool", "error", "byte", "float64", "map"].contains s then return [← type] else return []
    | .op "[" | .op "*" => return [← type]
    | _ => return []

/-- Parameters up to the closing parenthesis: names and types, with `variadic` for the last. -/
partial def params : P (List (String × Ty × Bool)) := do
  let mut out : List (String × Ty × Bool) := []
  let mut names : List String := []
  while !(← eat ")") do
    -- `name, name type` or `type`
    match ← peek, ← peekAt 1 with
    | .id n, .op "," | .id n, .op ")" =>
      let _ ← next
      names := names ++ [n]
    | .id n, _ =>
      if n == "func" || n == "map" || n == "interface" then
        let t ← type
        out := out ++ [("_", t, false)]
      else
        let _ ← next
        let v ← eat "..."
        let t ← type
        out := out ++ (names ++ [n]).map fun n => (n, t, v)
        names := []
    | _, _ =>
      let _ ← eat "..."
      let t ← type
      out := out ++ [("_", t, false)]
    let _ ← eat ","
  return out ++ names.map fun n => (n, Ty.other, false)
end

def ofList : List Expr → Exprs
  | [] => .nil
  | e :: es => .cons e (ofList es)

def prec : String → Option (Nat × (Expr → Expr → Expr))
  | "||" => some (1, .or)
  | "&&" => some (2, .and)
  | "==" => some (3, .bin .eq)
  | "!=" => some (3, .bin .ne)
  | "<" => some (3, .bin .lt)
  | "<=" => some (3, .bin .le)
  | ">" => some (3, .bin .gt)
  | ">=" => some (3, .bin .ge)
  | "+" => some (4, .bin .add)
  | "-" => some (4, .bin .sub)
  | "*" => some (5, .bin .mul)
  | "%" => some (5, .bin .mod)
  | "&" => some (5, .bin .land)
  | _ => none

def heapVar : Expr := .var (code "heap")

def field : String → Option Field
  | "label" => some .label
  | "value" => some .value
  | "up" => some .up
  | "down" => some .down
  | _ => none

/-- A name for a result of a call. -/
def fresh : P Id := do
  let n := (← get).tmp + 1
  modify fun s => { s with tmp := n }
  return code s!"%{n}"

/-- The fields of a structure as variables. -/
def fieldsOf (x t : String) : List Id := ((structs.lookup t).getD []).map fun f => code (x ++ "." ++ f)

/-- A call of a function or method: the variables it changes, its name, and the arguments it gets first. -/
structure Callee where
  outs : List Id
  name : String
  first : List Expr

/-- Does a function use the memory of nodes? -/
def usesHeap (name : String) : Bool := heapFuncs.contains name || "node.".isPrefixOf name || "Parser.".isPrefixOf name

def plainCallee (name : String) : Callee :=
  if usesHeap name then ⟨[code "heap"], name, [heapVar]⟩ else ⟨[], name, []⟩

/-- A method of a structure that is the variable `x`, of the type `t`. -/
def structCallee (x t m : String) : Callee :=
  let c := plainCallee (t ++ "." ++ m)
  ⟨c.outs ++ fieldsOf x t, c.name, c.first ++ (fieldsOf x t).map .var⟩

/-- A method of a node. -/
def nodeCallee (e : Expr) (m : String) : P Callee := do
  unless nodeMethods.contains m do fail "method"
  let c := plainCallee ("node." ++ m)
  return ⟨c.outs, c.name, c.first ++ [e]⟩

/-- A call in an expression: run it before the statement when it changes variables. -/
def hoist (c : Callee) (spread : Bool) (args : List Expr) : P Expr := do
  if c.outs.isEmpty then return .call (code c.name) spread (ofList (c.first ++ args))
  let t ← fresh
  modify fun s => { s with calls := s.calls ++
    [.decl t (.lit .nil), .call false (c.outs ++ [t]) (code c.name) spread (ofList (c.first ++ args))] }
  return .var t

/-- Does a statement declare a variable of the block it stands in? -/
def declares : Stmt → Bool
  | .decl .. => true
  | .call new .. => new
  | .callback new .. => new
  | .callCb new .. => new
  | .callLit new .. => new
  | .new .. => true
  | .seq s t => declares s || declares t
  | .label s _ t => declares s || declares t
  | _ => false

def block (s : Stmt) : Stmt := if declares s then .block s else s

def plain : List Stmt → Stmt
  | [] => .skip
  | [s] => s
  | s :: r => .seq s (plain r)

/-- A list of statements; a label splits it. -/
def join : List (Sum Stmt String) → Stmt
  | l =>
    match l.findIdx? fun | .inr _ => true | _ => false with
    | none => plain (l.filterMap fun | .inl s => some s | _ => none)
    | some i =>
      match l.drop i with
      | .inr n :: r =>
        .label (plain ((l.take i).filterMap fun | .inl s => some s | _ => none)) (code n)
          (plain (r.filterMap fun | .inl s => some s | _ => none))
      | _ => .skip

/-- The variables a statement changes that are declared outside, and those it declares in its block. -/
partial def changes (bound : List Id) : Stmt → List Id × List Id
  | .decl x _ | .new x _ _ _ => ([], [x])
  | .assign x _ | .store x _ _ | .copy x _ _ => (out [x], [])
  | .setField .. => (out [code "heap"], [])
  | .call new xs .. | .callback new xs _ | .callCb new xs .. => if new then ([], xs) else (out xs, [])
  | .callLit new xs _ _ _ _ caps _ => (out caps ++ if new then [] else out xs, if new then xs else [])
  | .seq a b =>
    let (c, d) := changes bound a
    let (c', d') := changes (d ++ bound) b
    (c ++ c', d ++ d')
  | .label a _ b =>
    let (c, d) := changes bound a
    let (c', d') := changes (d ++ bound) b
    (c ++ c', d ++ d')
  | .block a | .switch a => ((changes bound a).1, [])
  | .ite _ a b => ((changes bound a).1 ++ (changes bound b).1, [])
  | .loop _ p b => ((changes bound p).1 ++ (changes bound b).1, [])
  | .range k v _ b => ((changes (k :: v :: bound) b).1, [])
  | _ => ([], [])
where out (xs : List Id) : List Id := xs.filter fun x => x != 0 && !bound.contains x

/-- Put expressions in front of what is returned. -/
partial def prefixRet (pre : Exprs → Exprs) : Stmt → Stmt
  | .ret es => .ret (pre es)
  | .seq a b => .seq (prefixRet pre a) (prefixRet pre b)
  | .label a l b => .label (prefixRet pre a) l (prefixRet pre b)
  | .block a => .block (prefixRet pre a)
  | .switch a => .switch (prefixRet pre a)
  | .ite c a b => .ite c (prefixRet pre a) (prefixRet pre b)
  | .loop c p b => .loop c p (prefixRet pre b)
  | .range k v e b => .range k v e (prefixRet pre b)
  | s => s

def Ty.zero : Ty → P Val
  | .int => return .int 0
  | .byte => return .byte 0
  | .bool => return .bool false
  | .string => return .bytes []
  | .error => return .nil
  | .slice _ => return .nil
  | .node => return .nil
  | _ => fail "zero value"

mutual
/-- Binary operators from precedence `p` on, left associative. -/
partial def expr (p : Nat := 1) : P Expr := do
  let mut a ← unary
  repeat
    match ← peek with
    | .op o =>
      match prec o with
      | some (q, f) =>
        if q < p then break
        let _ ← next
        let b ← expr (q + 1)
        a := f a b
      | none => break
    | _ => break
  return a

partial def unary : P Expr := do
  if ← eat "!" then return .not (← unary)
  if ← eat "-" then return .neg (← unary)
  postfixE (← primary)

/-- Arguments up to the closing parenthesis, and whether the last is spread. -/
partial def args : P (List Expr × Bool) := do
  let mut out := []
  let mut spread := false
  while !(← eat ")") do
    if ← isId "func" then out := out ++ [← literal]
    else if ← eat "&" then
      let x := code (← ident)
      modify fun s => { s with refs := s.refs ++ [x] }
      out := out ++ [.var x]
    else
      let e ← expr
      out := out ++ [e]
      if let some f := (← get).cb then
        if let .var x := e then
          if x == code f then modify fun s => { s with cbArg := true }
      if let .var x := e then
        if (← get).strPtrs.any fun p => code p == x then modify fun s => { s with refs := s.refs ++ [x] }
    if ← eat "..." then spread := true
    let _ ← eat ","
  return (out, spread)

/-- A function literal: it is kept for the call it is an argument of. -/
partial def literal : P Expr := do
  let _ ← next
  expect "("
  let ps ← params
  let _ ← results
  let old ← get
  modify fun s => { s with pre := [], calls := [], results := [] }
  let b ← braces
  let ids := ps.map fun p => code p.1
  let caps := (changes ids b).1.eraseDups
  let b := prefixRet (fun es => caps.foldr (fun x es => .cons (.var x) es) es) b
  modify fun s => { s with pre := old.pre, calls := old.calls, results := old.results, lit := some (ids, caps, b) }
  return .lit .nil

partial def primary : P Expr := do
  match ← next with
  | .int n => return .lit (.int n)
  | .str b => return .lit (.bytes b)
  | .op "(" => let e ← expr; expect ")"; return e
  | .op "[" => do
    modify fun s => { s with pos := s.pos - 1 }
    match ← type with
    | .slice k =>
      if ← eat "{" then
        let mut es := []
        while !(← eat "}") do
          es := es ++ [← expr]
          let _ ← eat ","
        return .list k (ofList es)
      expect "("
      let e ← expr
      expect ")"
      if k == .bytes then return .conv e else fail "conversion"
    | _ => fail "literal"
  | .id "true" => return .lit (.bool true)
  | .id "false" => return .lit (.bool false)
  | .id "nil" => return .lit .nil
  | .id "len" => expect "("; let e ← expr; expect ")"; return .len e
  | .id "string" =>
    expect "("
    if let (.id "rune", .op "(", .int n, .op ")", .op ")") := (← peek, ← peekAt 1, ← peekAt 2, ← peekAt 3, ← peekAt 4) then
      modify fun s => { s with pos := s.pos + 5 }
      return .lit (.bytes (String.ofList [Char.ofNat n]).toUTF8.toList)
    let e ← expr
    expect ")"
    return .conv e
  | .id "int64" | .id "uint64" => expect "("; let e ← expr; expect ")"; return e
  | .id "make" => do
    expect "("
    if ← isId "map" then
      let _ ← type
      expect ")"
      return .lit (.map [])
    match ← type with
    | .slice k =>
      expect ","
      let n ← expr
      if ← eat "," then
        let c ← expr
        expect ")"
        return .makeCap k n c
      expect ")"
      return .make k n
    | _ => fail "make"
  | .id "append" => do
    expect "("
    match ← args with
    | ([a, b], false) => return .append a b
    | ([a, b], true) => return .appendAll a b
    | _ => fail "append"
  | .id s =>
    if keywords.contains s then fail s!"keyword {s}"
    let mut name := s
    if ← isOp "." then
      if s == "strconv" || s == "fmt" then
        let _ ← next
        name := s ++ "." ++ (← ident)
        unless name == "fmt.Sprintf" || name == "fmt.Errorf" || s == "strconv" do fail "selector"
      else if let some t := (← get).vars.lookup s then
        let _ ← next
        let f ← ident
        if ← eat "(" then
          let (es, spread) ← args
          return ← hoist (structCallee s t f) spread es
        unless ((structs.lookup t).getD []).contains f do fail "field"
        return .var (code (s ++ "." ++ f))
    if ← eat "(" then
      if (← get).cb == some name then fail "callback in an expression"
      let (es, spread) ← args
      return ← hoist (plainCallee name) spread es
    if (← get).vars.any fun v => v.1 == name then fail "a structure"
    return .var (code name)
  | _ => fail "expected an expression"

partial def postfixE (a : Expr) : P Expr := do
  if ← eat "." then
    let f ← ident
    if ← eat "(" then
      let (es, spread) ← args
      if f == "Error" && es.isEmpty then return ← postfixE (.call (code "error.Error") false (ofList [a]))
      return ← postfixE (← hoist (← nodeCallee a f) spread es)
    match field f with
    | some f => return ← postfixE (.field a f)
    | none => fail "field"
  if ← eat "[" then
    if ← eat ":" then
      let h ← expr
      expect "]"
      return ← postfixE (.slice a (.lit (.int 0)) h)
    let i ← expr
    if ← eat ":" then
      if ← eat "]" then return ← postfixE (.sliceFrom a i)
      let h ← expr
      expect "]"
      return ← postfixE (.slice a i h)
    expect "]"
    return ← postfixE (.index a i)
  return a

/-- Assignments, declarations, calls: what may stand in the head of `for` and `if`. -/
partial def simple : P Stmt := do
  -- `*x += e` and `x += e`
  if ← eat "*" then
    let x ← ident
    unless (← get).strPtrs.contains x do fail "pointer"
    expect "+="
    return .assign (code x) (.bin .add (.var (code x)) (← expr))
  if let (.id x, .op "+=") := (← peek, ← peekAt 1) then
    let _ ← next; let _ ← next
    if (← get).strPtrs.contains x then fail "pointer"
    return .assign (code x) (.bin .add (.var (code x)) (← expr))
  -- a list of variables and fields in front of `:=` or `=`
  let start := (← get).pos
  let mut targets : List (List String) := []
  let mut go := true
  while go do
    match ← peek with
    | .id n =>
      let _ ← next
      let mut t := [n]
      while (← isOp ".") do
        let _ ← next
        match ← next with
        | .id f => t := t ++ [f]
        | _ => fail "selector"
      if ← eat "," then targets := targets ++ [t]
      else if (← isOp ":=") || (← isOp "=") then targets := targets ++ [t]; go := false
      else go := false; targets := []
    | _ => go := false; targets := []
  if targets != [] then
    let new ← eat ":="
    if !new then expect "="
    let ts ← targets.mapM target
    if let [t] := ts then
      if let (.var x, some s) := (t, ← composite targets.head!.head! new) then let _ := x; return s
      if let (.id f, .op "(") := (← peek, ← peekAt 1) then
        if (← get).cb == some f then
          let _ ← next; let _ ← next
          let (es, _) ← args
          match t with
          | .var x => return .callback new [x] (ofList es)
          | _ => fail "assignment"
      let e ← expr
      match t with
      | .var x =>
        let s ← get
        if let (.call f spread es, some (ps, caps, b)) := (e, s.lit) then
          modify fun s => { s with lit := none }
          return .callLit new [x] f spread es ps caps b
        if let (.call f spread es, true) := (e, s.cbArg) then
          modify fun s => { s with cbArg := false }
          return .callCb new [x] f spread es
        return if new then .decl x e else .assign x e
      | .field a f => return .setField a f e
      | _ => fail "assignment"
    -- several of them: one call
    let c ← callee
    let (es, spread) ← args
    if (← get).lit.isSome || (← get).cbArg then fail "function as an argument"
    if (← get).cb == some c.name then
      return .callback new (← ts.mapM fun | .var x => pure x | _ => fail "assignment") (ofList es)
    let es := ofList (c.first ++ es)
    let f := code c.name
    if c.outs.isEmpty && ts.all (fun | .var _ => true | _ => false) then
      return .call new (ts.filterMap fun | .var x => some x | _ => none) f spread es
    -- otherwise the results go through new names
    let names ← ts.mapM fun _ => fresh
    let mut out : List Stmt := names.map fun x => .decl x (.lit .nil)
    out := out ++ [.call false (c.outs ++ names) f spread es]
    for (t, x) in ts.zip names do
      match t with
      | .var y => if y != 0 then out := out ++ [if new then .decl y (.var x) else .assign y (.var x)]
      | .field a g => out := out ++ [.setField a g (.var x)]
      | _ => fail "assignment"
    return plain out
  modify fun s => { s with pos := start }
  -- calls that stand alone
  if let (.id f, .op "(") := (← peek, ← peekAt 1) then
    if f == "copy" then
      let _ ← next; let _ ← next
      match ← args with
      | ([.var x, e], false) => return .copy x (.lit (.int 0)) e
      | ([.sliceFrom (.var x) i, e], false) => return .copy x i e
      | _ => fail "copy"
    if (← get).cb == some f then
      let _ ← next; let _ ← next
      let (es, _) ← args
      return .callback false [0, 0] (ofList es)
  if let .id _ ← peek then
    if let some c ← (try (do let c ← callee; pure (some c)) catch _ => pure none) then
      unless (← get).refs.isEmpty do fail "address"
      let (es, spread) ← args
      let void := voids.any fun m => ("." ++ m).toList.isSuffixOf c.name.toList
      let refs := (← get).refs
      modify fun s => { s with refs := [] }
      return .call false (c.outs ++ refs ++ if void then [] else [0]) (code c.name) spread (ofList (c.first ++ es))
    modify fun s => { s with pos := start }
  let a ← unary
  let step (o : BinOp) : P Stmt := do
    let e : Expr := .bin o a (.lit (.int 1))
    match a with
    | .var x => return .assign x e
    | .index (.var x) i => return .store x i e
    | _ => fail "increment"
  if ← eat "++" then return ← step .add
  if ← eat "--" then return ← step .sub
  expect "="
  match a with
  | .index (.var x) i => return .store x i (← expr)
  | .index (.field e f) i => return .setField e f (.upd (.field e f) i (← expr))
  | .field e f => return .setField e f (← expr)
  | _ => fail "assignment"

/-- What stands left of `=`. -/
partial def target (t : List String) : P Expr := do
  match t with
  | [x] => return .var (code x)
  | x :: f :: fs =>
    let base : Expr × List String :=
      match (← get).vars.lookup x with
      | some _ => (.var (code (x ++ "." ++ f)), fs)
      | none => (.var (code x), f :: fs)
    let mut e := base.1
    for f in base.2 do
      match field f with
      | some f => e := .field e f
      | none => fail "field"
    return e
  | [] => fail "target"

/-- The function or method that is called, up to the opening parenthesis. -/
partial def callee : P Callee := do
  let x ← ident
  if ← eat "(" then return plainCallee x
  unless ← isOp "." do fail "call"
  if x == "strconv" then
    let _ ← next
    let f ← ident
    expect "("
    return plainCallee (x ++ "." ++ f)
  let mut e : Expr := .var (code x)
  if let some t := (← get).vars.lookup x then
    let _ ← next
    let f ← ident
    if ← eat "(" then return structCallee x t f
    e := .var (code (x ++ "." ++ f))
  let mut out : Option Callee := none
  while out.isNone do
    expect "."
    let f ← ident
    if ← eat "(" then out := some (← nodeCallee e f)
    else match field f with
      | some f => e := .field e f
      | none => fail "field"
  match out with
  | some c => return c
  | none => fail "call"

/-- `x := &node{…}` and the like, and `x := f(…)` for a function whose result is a structure. -/
partial def composite (x : String) (new : Bool) : P (Option Stmt) := do
  unless new do return none
  let k := if ← isOp "&" then 1 else 0
  match ← peekAt k, ← peekAt (k + 1) with
  | .id t, .op "{" =>
    unless t == "node" || structs.any fun s => s.1 == t do return none
    modify fun s => { s with pos := s.pos + k + 1 }
    let fs ← literalFields
    if t == "node" then
      let get (f : String) (d : Val) : Expr := (fs.lookup f).getD (.lit d)
      return some (.new (code x) (get "label" (.bytes [])) (get "value" .nil) (get "up" .nil))
    modify fun s => { s with vars := (x, t) :: s.vars }
    let mut out : List Stmt := []
    for f in (structs.lookup t).getD [] do
      match fs.lookup f with
      | some e => out := out ++ [.decl (code (x ++ "." ++ f)) e]
      | none => fail "missing field"
    return some (plain out)
  | .id f, .op "(" =>
    match makers.lookup f with
    | some t =>
      let _ ← next; let _ ← next
      let (es, spread) ← args
      modify fun s => { s with vars := (x, t) :: s.vars }
      return some (.call true (fieldsOf x t) (code f) spread (ofList es))
    | none => return none
  | _, _ => return none

/-- `{f: e, …}` -/
partial def literalFields : P (List (String × Expr)) := do
  expect "{"
  let mut fs := []
  while !(← eat "}") do
    let f ← ident
    expect ":"
    fs := fs ++ [(f, ← expr)]
    let _ ← eat ","
  return fs

/-- An expression that is returned; a structure gives its fields. -/
partial def retExpr (t : Option String) : P (List Expr) := do
  if ← eat "&" then
    let x ← ident
    if ← isOp "{" then
      let fs ← literalFields
      match structs.lookup x with
      | some names => return ← names.mapM fun f => match fs.lookup f with | some e => pure e | none => fail "missing field"
      | none => fail "literal"
    match (← get).vars.lookup x with
    | some t => return (fieldsOf x t).map .var
    | none => return [.var (code x)]
  match t with
  | some t =>
    if ← eatId "nil" then return ((structs.lookup t).getD []).map fun _ => .lit .nil
    fail "a structure"
  | none => return [← expr]

partial def stmt : P Stmt := do
  let old := (← get).calls
  modify fun s => { s with calls := [] }
  let s ← stmtCore
  let calls := (← get).calls
  modify fun s => { s with calls := old }
  return plain (calls ++ [s])

partial def stmtCore : P Stmt := do
  match ← peek with
  | .id "var" =>
    let _ ← next
    let mut ns := [← ident]
    while ← eat "," do ns := ns ++ [← ident]
    let t ← type
    if ← eat "=" then return .decl (code ns.head!) (← expr)
    let z ← t.zero
    return plain (ns.map fun n => .decl (code n) (.lit z))
  | .id "return" =>
    let _ ← next
    let s ← get
    if ← isOp ";" then return .ret (ofList s.pre)
    let mut ts := s.results
    let mut es ← retExpr ((ts.head?).getD none)
    while ← eat "," do
      ts := ts.drop 1
      es := es ++ (← retExpr ((ts.head?).getD none))
    if (← get).lit.isSome then fail "function as an argument"
    match es with
    | [.call f spread as] =>
      let cb := (← get).cbArg
      if s.pre.isEmpty && !cb then return .retCall f spread as
      modify fun s => { s with cbArg := false }
      let names ← s.results.mapM fun _ => fresh
      let c : Stmt := if cb then .callCb true names f spread as else .call true names f spread as
      return .seq c (.ret (ofList (s.pre ++ names.map .var)))
    | _ => return .ret (ofList (s.pre ++ es))
  | .id "break" =>
    let _ ← next
    unless ← isOp ";" do fail "label"
    return .brk
  | .id "continue" =>
    let _ ← next
    unless ← isOp ";" do fail "label"
    return .cont
  | .id "goto" => let _ ← next; return .goto (code (← ident))
  | .id "if" => ifStmt
  | .id "for" =>
    let _ ← next
    -- for k, v := range e
    let rng (k v : String) (n : Nat) : P Stmt := do
      modify fun s => { s with pos := s.pos + n }
      let e ← expr
      noCalls
      let b ← braces
      return .range (code k) (code v) e b
    if let (.id k, .op ",", .id v, .op ":=", .id "range") := (← peek, ← peekAt 1, ← peekAt 2, ← peekAt 3, ← peekAt 4) then
      return ← rng k v 5
    if let (.id k, .op ":=", .id "range") := (← peek, ← peekAt 1, ← peekAt 2) then
      return ← rng k "_" 3
    let start := (← get).pos
    let full ← try
        let s ← simple
        if ← eat ";" then pure (some s) else pure none
      catch _ => pure none
    match full with
    | some init =>
      let c ← expr
      expect ";"
      let p ← simple
      noCalls
      let b ← braces
      return block (.seq init (.loop c p b))
    | none =>
      modify fun s => { s with pos := start }
      let c ← expr
      noCalls
      let b ← braces
      return .loop c .skip b
  | .id "switch" =>
    let _ ← next
    let e ← expr
    expect "{"
    let tag := code "switch"
    let mut clauses : List (Option Expr × Stmt) := []
    while !(← eat "}") do
      if ← eatId "default" then
        expect ":"
        clauses := clauses ++ [(none, ← clause)]
      else
        if !(← eatId "case") then fail "expected a case"
        let mut c : Expr := .bin .eq (.var tag) (← expr)
        while ← eat "," do c := .or c (.bin .eq (.var tag) (← expr))
        expect ":"
        clauses := clauses ++ [(some c, ← clause)]
    let s := clauses.foldr (fun (c, s) t => match c with | some c => Stmt.ite c s t | none => s) .skip
    return .block (.seq (.decl tag e) (.switch s))
  | _ => simple

/-- The head of a loop calls nothing that changes variables. -/
partial def noCalls : P Unit := do unless (← get).calls.isEmpty do fail "call in a loop head"

partial def ifStmt : P Stmt := do
  let _ ← next
  let c ← expr
  let s ← braces
  if ← eatId "else" then
    if ← isId "if" then return .ite c s (← ifStmt)
    return .ite c s (← braces)
  return .ite c s .skip

partial def stmts (stop : P Bool) : P Stmt := do
  let mut out : List (Sum Stmt String) := []
  while !(← stop) do
    if ← eat ";" then continue
    if let (.id l, .op ":") := (← peek, ← peekAt 1) then
      if l != "default" then
        let _ ← next; let _ ← next
        out := out ++ [.inr l]
        continue
    out := out ++ [.inl (← stmt)]
    if !(← isOp "}") then expect ";"
  return block (join out)

partial def braces : P Stmt := do expect "{"; stmts (eat "}")

partial def clause : P Stmt := stmts do return (← isId "case") || (← isId "default") || (← isOp "}")
end

/-- Skip a block in braces. -/
partial def skipBraces : P Unit := do
  expect "{"
  let mut n := 1
  while n > 0 do
    match ← next with
    | .op "{" => n := n + 1
    | .op "}" => n := n - 1
    | .eof => fail "unbalanced"
    | _ => pure ()

structure FileRes where
  funcs : List (String × Func) := []
  consts : List (Id × Val) := []
  skipped : List String := []

partial def file : P FileRes := do
  let mut out : FileRes := {}
  repeat
    match ← next with
    | .eof => break
    | .op ";" => continue
    | .id "package" => let _ ← ident
    | .id "import" =>
      match ← next with
      | .str _ => pure ()
      | .op "(" =>
        let mut t ← next
        while t != .op ")" && t != .eof do t ← next
      | _ => fail "import"
    | .id "type" =>
      let n ← ident
      if ← eatId "struct" then
        expect "{"
        let mut fs := []
        while !(← eat "}") do
          if ← eat ";" then continue
          fs := fs ++ [← ident]
          let _ ← type
        let known := if n == "node" then some ["label", "value", "up", "down"] else structs.lookup n
        if let some k := known then
          unless k == fs do fail s!"fields of {n}"
      else fail "type"
    | .id "const" =>
      expect "("
      while !(← eat ")") do
        if ← eat ";" then continue
        let n ← ident
        let _ ← type
        expect "="
        match ← expr with
        | .lit v => out := { out with consts := out.consts ++ [(code n, v)] }
        | _ => fail "constant"
    | .id "func" =>
      let recv ← if ← eat "(" then params else pure []
      let m ← ident
      expect "("
      let ps ← params
      let rs ← results
      let name := match recv with
        | (_, .struct t, _) :: _ => t ++ "." ++ m
        | (_, .node, _) :: _ => "node." ++ m
        | _ => m
      let all := recv ++ ps
      let vars := all.filterMap fun (n, t, _) => match t with | .struct t => some (n, t) | _ => none
      let ids := all.flatMap fun (n, t, _) => match t with | .struct t => fieldsOf n t | _ => [code n]
      let heap := usesHeap name
      let start := (← get).pos
      let isNode := fun t => t == Ty.node || t == .struct "Parser"
      let body ← try (do
          unless heap == (rs.any isNode || all.any fun p => isNode p.2.1) do fail "memory"
          unless ps.all (fun p => match p.2.1 with | .struct _ => false | _ => true) do fail "a structure as an argument"
          let strPtrs := ps.filterMap fun (n, t, _) => if t == .strPtr then some n else none
          let pre := (if heap then [heapVar] else []) ++ (vars.flatMap fun (n, t) => (fieldsOf n t).map .var) ++
            strPtrs.map fun x => .var (code x)
          modify fun s => { s with
            cb := (ps.find? fun (_, t, _) => t == .func).map Prod.fst
            vars := vars
            pre := pre
            results := rs.map fun | .struct t => some t | _ => none
            strPtrs := strPtrs
            calls := [], tmp := 0, lit := none, cbArg := false, refs := [] }
          let b ← braces
          if (← get).lit.isSome || (← get).cbArg then fail "function as an argument"
          unless (← get).refs.isEmpty do fail "address"
          pure (some (if rs.isEmpty && !pre.isEmpty then .seq b (.ret (ofList pre)) else b)))
        catch _ => pure none
      match body with
      | some b =>
        let variadic := (ps.getLast?.map fun (_, _, v) => v).getD false
        out := { out with funcs := out.funcs ++ [(name, ⟨code name, (if heap then [code "heap"] else []) ++ ids, variadic, b⟩)] }
      | none =>
        modify fun s => { s with pos := start }
        skipBraces
        out := { out with skipped := out.skipped ++ [name] }
    | t => fail s!"unexpected {repr t}"
  return out

def readFile (text : String) : Except String FileRes := do
  let toks ← lex text.toList #[]
  let (r, _) ← file.run { toks := toks }
  return r

end Jin.Go.Parse

/-! ### The command -/

namespace Jin.Go

open Lean

deriving instance ToExpr for Err
deriving instance ToExpr for NodeRec
deriving instance ToExpr for Val
deriving instance ToExpr for Kind
deriving instance ToExpr for BinOp
deriving instance ToExpr for Field
deriving instance ToExpr for Expr, Exprs
deriving instance ToExpr for Stmt

open Elab Command Meta

/-- Define a constant with a closed value. -/
def addDef (n : Name) (type value : Lean.Expr) : CommandElabM Unit :=
  liftCoreM <| addAndCompile <| .defnDecl
    { name := n, levelParams := [], type := type, value := value, hints := .abbrev, safety := .safe }

/-- The tree of a statement, with loops and their bodies as constants of their own. -/
partial def quoteStmt (base : Name) (cnt : IO.Ref Nat) : Stmt → CommandElabM Lean.Expr
  | .seq a b => return mkApp2 (mkConst ``Stmt.seq) (← quoteStmt base cnt a) (← quoteStmt base cnt b)
  | .block (.seq a (.loop c p b)) => do
    let a ← quoteStmt base cnt a
    let (k, n) ← body b
    named s!"for{k}" <| mkApp (mkConst ``Stmt.block) <| mkApp2 (mkConst ``Stmt.seq) a <|
      mkApp3 (mkConst ``Stmt.loop) (toExpr c) (toExpr p) n
  | .block a => return mkApp (mkConst ``Stmt.block) (← quoteStmt base cnt a)
  | .ite c a b => return mkApp3 (mkConst ``Stmt.ite) (toExpr c) (← quoteStmt base cnt a) (← quoteStmt base cnt b)
  | .switch a => return mkApp (mkConst ``Stmt.switch) (← quoteStmt base cnt a)
  | .label a l b => return mkApp3 (mkConst ``Stmt.label) (← quoteStmt base cnt a) (toExpr l) (← quoteStmt base cnt b)
  | .loop c p b => do
    let (k, n) ← body b
    named s!"for{k}" <| mkApp3 (mkConst ``Stmt.loop) (toExpr c) (toExpr p) n
  | .range k v e b => do
    let (m, n) ← body b
    named s!"for{m}" <| mkApp4 (mkConst ``Stmt.range) (toExpr k) (toExpr v) (toExpr e) n
  | .callLit new xs f spread args ps caps b => do
    let (k, n) ← lit b
    let _ := k
    return mkAppN (mkConst ``Stmt.callLit) #[toExpr new, toExpr xs, toExpr f, toExpr spread, toExpr args, toExpr ps, toExpr caps, n]
  | s => return toExpr s
where
  named (s : String) (v : Lean.Expr) : CommandElabM Lean.Expr := do
    let n := base ++ .mkSimple s
    addDef n (mkConst ``Stmt) v
    return mkConst n
  lit (b : Stmt) : CommandElabM (Nat × Lean.Expr) := do
    cnt.modify (· + 1)
    let k ← cnt.get
    return (k, ← named s!"lit{k}" (← quoteStmt base cnt b))
  body (b : Stmt) : CommandElabM (Nat × Lean.Expr) := do
    cnt.modify (· + 1)
    let k ← cnt.get
    return (k, ← named s!"body{k}" (← quoteStmt base cnt b))

/-- `go_source name "text"`: read a Go file. -/
elab "go_source " n:ident t:str : command => do
  match Parse.readFile t.getString with
  | .error e => throwError e
  | .ok r =>
    let root := `Jin.Go.Src
    let mut fs : List Lean.Expr := []
    for (s, f) in r.funcs do
      let base := (s.splitOn ".").foldl (fun n s => n ++ .mkSimple s) root
      let cnt ← IO.mkRef 0
      let b ← quoteStmt base cnt f.body
      let v := mkApp4 (mkConst ``Func.mk) (toExpr f.name) (toExpr f.params) (toExpr f.variadic) b
      addDef base (mkConst ``Func) v
      fs := fs ++ [mkConst base]
    let funcs ← liftTermElabM <| mkListLit (mkConst ``Func) fs
    addDef (root ++ n.getId ++ `funcs) (mkApp (mkConst ``List [.zero]) (mkConst ``Func)) funcs
    addDef (root ++ n.getId ++ `consts) (toTypeExpr (List (Id × Val))) (toExpr r.consts)
    addDef (root ++ n.getId ++ `skipped) (toTypeExpr (List String)) (toExpr r.skipped)

/-- `go% name`: the identifier. -/
elab "go% " x:ident : term => return toExpr (Parse.code (x.getId.toString (escape := false)))

end Jin.Go
