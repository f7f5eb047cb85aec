import Verif.Spec.Json
/-!
# Spec.Edit — relations between documents and operations on them
-/

namespace Jin.Spec

/-! ### Formatting -/

mutual
/-- The same tree without any whitespace between tokens. -/
def Json.strip : Json → Json
  | .lit t => .lit t
  | .str raw => .str raw
  | .arr _ es => .arr [] (stripElems es)
  | .obj _ ms => .obj [] (stripMembers ms)
def stripElems : List (Elem Json) → List (Elem Json)
  | [] => []
  | ⟨_, v, _⟩ :: es => ⟨[], v.strip, []⟩ :: stripElems es
def stripMembers : List (Member Json) → List (Member Json)
  | [] => []
  | ⟨_, k, _, _, v, _⟩ :: ms => ⟨[], k, [], [], v.strip, []⟩ :: stripMembers ms
end

mutual
/-- Every string and every key inside the value satisfies `P`. -/
def Json.allStr (P : Text → Bool) : Json → Bool
  | .lit _ => true
  | .str raw => P raw
  | .arr _ es => allStrElems P es
  | .obj _ ms => allStrMembers P ms
def allStrElems (P : Text → Bool) : List (Elem Json) → Bool
  | [] => true
  | ⟨_, v, _⟩ :: es => v.allStr P && allStrElems P es
def allStrMembers (P : Text → Bool) : List (Member Json) → Bool
  | [] => true
  | ⟨_, k, _, _, v, _⟩ :: ms => P k && v.allStr P && allStrMembers P ms
end

/-- No bracket among the bytes. -/
def noBracket (t : Text) : Bool := t.all fun c => c != 0x5B && c != 0x5D && c != 0x7B && c != 0x7D

/-! ### Diverging paths -/

/-- The number of the entry that a path entry selects in a container. -/
def Json.slot? (j : Json) (p : Text) : Option Nat :=
  match j with
  | .arr _ es => (readIndex p).filter (· < es.length)
  | .obj _ ms => memberIdx ms p
  | _ => none

/-- The two paths select different entries of one container: after a common part
they lead to different object members or different array elements. -/
def Json.diverge (j : Json) : List Text → List Text → Prop
  | p :: ps, q :: qs =>
    match j.slot? p, j.slot? q with
    | some a, some b =>
      if a = b then
        match j.child? p with
        | some c => c.diverge ps qs
        | none => False
      else True
    | _, _ => False
  | _, _ => False

def Doc.diverge (d : Doc) (p q : List Text) : Prop := d.root.diverge p q

/-! ### Entries -/

/-- An entry of a container without the whitespace around it. -/
inductive Entry where
  | elem (v : Json)
  | member (key m l2 : Text) (v : Json)

def Entry.val : Entry → Json
  | .elem v => v
  | .member _ _ _ v => v

def Entry.key : Entry → Option Text
  | .elem _ => none
  | .member k _ _ _ => some k

/-- The entries of a container in order: the elements of an array, the members of an
object (with the whitespace around their colon). -/
def Json.entries : Json → List Entry
  | .arr _ es => es.map fun e => .elem e.v
  | .obj _ ms => ms.map fun m => .member m.key m.m m.l2 m.v
  | _ => []

inductive Kind where
  | scalar
  | arr
  | obj
deriving DecidableEq

def Json.kind : Json → Kind
  | .arr _ _ => .arr
  | .obj _ _ => .obj
  | _ => .scalar

/-! ### Where a missing key is noticed -/

/-- The entries after the one that `q` selects. -/
def Json.later (j : Json) (q : Text) : List Entry :=
  match j.slot? q with
  | some n => j.entries.drop (n + 1)
  | none => []

/-- A scalar, with no bracket in its text or its key. -/
def Entry.plain (e : Entry) : Bool :=
  !e.val.isContainer && e.val.allStr noBracket && (e.key.getD []).all fun c => c != 0x5B && c != 0x5D && c != 0x7B && c != 0x7D

/-- A scalar, or a container of at most one entry. -/
def Entry.narrow (e : Entry) : Bool := !e.val.isContainer || decide (e.val.size ≤ 1)

/-- Conditions on the surroundings of the object at path `p`: for the root object, its
last value is a scalar or has no brackets inside strings and keys; for another object,
what follows it in its container is narrow (plain when the object is empty). -/
def Json.missOk (j : Json) (p : List Text) : Bool :=
  match p.getLast? with
  | none =>
    match j.entries.getLast? with
    | none => true
    | some e => !e.val.isContainer || e.val.allStr noBracket
  | some x =>
    match j.get? p.dropLast, j.get? p with
    | some u, some w => (u.later x).all fun e => if w.size = 0 then e.plain else e.narrow
    | _, _ => false

/-- The text of an object from the colon of its last member on; any other value whole. -/
def Json.tailText : Json → Text
  | .obj g ms =>
    match ms.getLast? with
    | some m => 0x3A :: (m.l2 ++ (m.v.render ++ (m.r ++ [0x7D])))
    | none => (Json.obj g ms).render
  | v => v.render

/-- The quoted key `q` does not occur in the text from the last value of the object at
path `p` on, and `q` is not the text the document begins with (nor, for an empty object,
the key that leads to it).  `a` and `b` are the text around the value at `p`. -/
def Doc.fresh (d : Doc) (p : List Text) (q : Text) : Prop :=
  strOk q ∧ ¬ q <+: d.render ∧
  ∃ w a b, d.get? p = some w ∧ (∀ v, (d.set p v).render = a ++ (v.render ++ b)) ∧
    (w.size = 0 → p.getLast? ≠ some q) ∧ ¬ 0x22 :: (q ++ [0x22]) <:+: w.tailText ++ b

/-- Conditions under which it is noticed that the object at `p` has no key `q`. -/
def Doc.clear (d : Doc) (p : List Text) (q : Text) : Prop := d.root.missOk p ∨ d.fresh p q

end Jin.Spec
