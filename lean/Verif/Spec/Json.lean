/-!
# Spec.Json — JSON texts and what the operations of the package mean on them

Nothing here refers to the code of `/repo` or to its translation in `Verif/Model`.
A JSON text is the rendering of a concrete syntax tree that keeps every
whitespace byte, so statements about texts can be exact to the byte.
-/

namespace Jin.Spec

/-- Text. -/
abbrev Text := List UInt8

/-- Whitespace of RFC 8259: space, tab, line feed, carriage return. -/
def isWs (c : UInt8) : Bool := c == 0x20 || c == 0x09 || c == 0x0A || c == 0x0D

/-- A run of whitespace. -/
def Ws (t : Text) : Bool := t.all isWs

/-- Bytes a scalar token (number, `true`, `false`, `null`) may consist of: anything
except whitespace, quotes, backslashes and the six structural characters.  This
is wider than RFC 8259; every number and literal name of the RFC qualifies. -/
def tokByte (c : UInt8) : Bool :=
  !(isWs c || c == 0x22 || c == 0x5C || c == 0x2C || c == 0x3A ||
    c == 0x5B || c == 0x5D || c == 0x7B || c == 0x7D)

/-- The content of a string between its quotes: left to right, either a backslash
followed by any byte, or a byte that is neither quote nor backslash. -/
def strOk : Text → Bool
  | [] => true
  | 0x5C :: _ :: r => strOk r
  | c :: r => c != 0x22 && c != 0x5C && strOk r

/-- An array element with the whitespace around it. -/
structure Elem (α : Type) where
  l : Text
  v : α
  r : Text
deriving Repr, DecidableEq

/-- An object member `l "key" m : l2 value r`. -/
structure Member (α : Type) where
  l : Text
  key : Text
  m : Text
  l2 : Text
  v : α
  r : Text
deriving Repr, DecidableEq

/-- Concrete syntax trees.  `gap` is the whitespace inside an empty container. -/
inductive Json where
  | lit (tok : Text)
  | str (raw : Text)
  | arr (gap : Text) (es : List (Elem Json))
  | obj (gap : Text) (ms : List (Member Json))
deriving Repr

mutual
/-- The text of a tree. -/
def Json.render : Json → Text
  | .lit t => t
  | .str raw => 0x22 :: (raw ++ [0x22])
  | .arr gap es => 0x5B :: ((if es.isEmpty then gap else renderElems es) ++ [0x5D])
  | .obj gap ms => 0x7B :: ((if ms.isEmpty then gap else renderMembers ms) ++ [0x7D])
/-- Elements separated by commas. -/
def renderElems : List (Elem Json) → Text
  | [] => []
  | ⟨l, v, r⟩ :: es => l ++ (v.render ++ (r ++ (if es.isEmpty then [] else 0x2C :: renderElems es)))
/-- Members separated by commas. -/
def renderMembers : List (Member Json) → Text
  | [] => []
  | ⟨l, k, m, l2, v, r⟩ :: ms =>
    l ++ (0x22 :: (k ++ (0x22 :: (m ++ (0x3A :: (l2 ++ (v.render ++ (r ++
      (if ms.isEmpty then [] else 0x2C :: renderMembers ms)))))))))
end

mutual
/-- Lexical well-formedness. -/
def Json.wf : Json → Bool
  | .lit t => !t.isEmpty && t.all tokByte
  | .str raw => strOk raw
  | .arr gap es => Ws gap && wfElems es
  | .obj gap ms => Ws gap && wfMembers ms
def wfElems : List (Elem Json) → Bool
  | [] => true
  | ⟨l, v, r⟩ :: es => Ws l && v.wf && Ws r && wfElems es
def wfMembers : List (Member Json) → Bool
  | [] => true
  | ⟨l, k, m, l2, v, r⟩ :: ms =>
    Ws l && strOk k && Ws m && Ws l2 && v.wf && Ws r && wfMembers ms
end

/-- Is the value an array or an object? -/
def Json.isContainer : Json → Bool
  | .arr _ _ => true
  | .obj _ _ => true
  | _ => false

/-- A whole document: a value with whitespace around it. -/
structure Doc where
  lead : Text
  root : Json
  trail : Text
deriving Repr

def Doc.render (d : Doc) : Text := d.lead ++ (d.root.render ++ d.trail)
def Doc.wf (d : Doc) : Bool := Ws d.lead && d.root.wf && Ws d.trail

/-- What a reader of a value sees: the text, without the quotes of a string. -/
def Json.content : Json → Text
  | .str raw => raw
  | v => v.render

/-! ### Paths -/

/-- Value of a digit string. -/
def decimalValue (t : Text) : Nat := t.foldl (fun a c => a * 10 + (c.toNat - 0x30)) 0

/-- A non-empty string of decimal digits. -/
def isDigits (t : Text) : Bool := !t.isEmpty && t.all (fun c => 0x30 ≤ c && c ≤ 0x39)

/-- Reading a path entry as an integer: an optional sign and decimal digits, in the
range of a 64-bit signed integer. -/
def readInt (t : Text) : Option Int :=
  let v : Option Int :=
    match t with
    | 0x2B :: ds => if isDigits ds then some (decimalValue ds) else none
    | 0x2D :: ds => if isDigits ds then some (-(decimalValue ds : Int)) else none
    | ds => if isDigits ds then some (decimalValue ds) else none
  v.filter fun n => -9223372036854775808 ≤ n ∧ n ≤ 9223372036854775807

/-- The array position a path entry denotes. -/
def readIndex (t : Text) : Option Nat :=
  match readInt t with
  | some (.ofNat n) => some n
  | _ => none

/-- Position of the first member with the given key. -/
def memberIdx (ms : List (Member Json)) (k : Text) : Option Nat :=
  ms.findIdx? (fun m => m.key == k)

/-- One step of a path. -/
def Json.child? (j : Json) (p : Text) : Option Json :=
  match j with
  | .arr _ es => (readIndex p).bind fun n => es[n]?.map Elem.v
  | .obj _ ms => (memberIdx ms p).bind fun n => ms[n]?.map Member.v
  | _ => none

/-- The value a path leads to. -/
def Json.get? (j : Json) : List Text → Option Json
  | [] => some j
  | p :: ps => (j.child? p).bind fun c => c.get? ps

/-- Apply `f` to the direct child a path entry leads to. -/
def Json.updChild (j : Json) (p : Text) (f : Json → Json) : Json :=
  match j with
  | .arr gap es =>
    match readIndex p with
    | some n => .arr gap (es.modify n fun e => { e with v := f e.v })
    | none => .arr gap es
  | .obj gap ms =>
    match memberIdx ms p with
    | some n => .obj gap (ms.modify n fun m => { m with v := f m.v })
    | none => .obj gap ms
  | j => j

/-- Apply `f` to the value a path leads to. -/
def Json.upd (j : Json) (f : Json → Json) : List Text → Json
  | [] => f j
  | p :: ps => j.updChild p fun c => c.upd f ps

/-- Replace the value a path leads to. -/
def Json.set (j : Json) (path : List Text) (x : Json) : Json := j.upd (fun _ => x) path

def Doc.get? (d : Doc) (path : List Text) : Option Json := d.root.get? path
def Doc.upd (d : Doc) (f : Json → Json) (path : List Text) : Doc := { d with root := d.root.upd f path }
def Doc.set (d : Doc) (path : List Text) (x : Json) : Doc := { d with root := d.root.set path x }

/-- The entries of a container. -/
def Json.size : Json → Nat
  | .arr _ es => es.length
  | .obj _ ms => ms.length
  | _ => 0

end Jin.Spec
