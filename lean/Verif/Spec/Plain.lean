import Verif.Spec.Json
/-!
# Spec.Plain — JSON values without layout, and operations on them

Nothing here refers to the code of `/repo` or to its translation in `Verif/Model`.
-/

namespace Jin.Spec

/-- A JSON value: scalars with their text, lists, lists of pairs. -/
inductive Plain where
  | lit (tok : Text)
  | str (raw : Text)
  | arr (es : List Plain)
  | obj (ms : List (Text × Plain))

mutual
/-- The value that a syntax tree stands for. -/
def Json.plain : Json → Plain
  | .lit t => .lit t
  | .str raw => .str raw
  | .arr _ es => .arr (plainElems es)
  | .obj _ ms => .obj (plainMembers ms)
def plainElems : List (Elem Json) → List Plain
  | [] => []
  | ⟨_, v, _⟩ :: es => v.plain :: plainElems es
def plainMembers : List (Member Json) → List (Text × Plain)
  | [] => []
  | ⟨_, k, _, _, v, _⟩ :: ms => (k, v.plain) :: plainMembers ms
end

mutual
/-- The text of a value without any whitespace. -/
def Plain.text : Plain → Text
  | .lit t => t
  | .str raw => 0x22 :: (raw ++ [0x22])
  | .arr es => 0x5B :: (textElems es ++ [0x5D])
  | .obj ms => 0x7B :: (textMembers ms ++ [0x7D])
def textElems : List Plain → Text
  | [] => []
  | v :: es => v.text ++ (if es.isEmpty then [] else 0x2C :: textElems es)
def textMembers : List (Text × Plain) → Text
  | [] => []
  | (k, v) :: ms => 0x22 :: (k ++ 0x22 :: 0x3A :: (v.text ++ (if ms.isEmpty then [] else 0x2C :: textMembers ms)))
end

/-- The child that a path entry selects: of an object the first with that key. -/
def Plain.child? : Plain → Text → Option Plain
  | .arr es, k => (readIndex k).bind fun n => es[n]?
  | .obj ms, k => (ms.find? fun m => m.1 == k).map (·.2)
  | _, _ => none

def Plain.get? (t : Plain) : List Text → Option Plain
  | [] => some t
  | k :: ks => (t.child? k).bind fun c => c.get? ks

/-- Replace the child that a path entry selects. -/
def Plain.setChild (t : Plain) (k : Text) (c : Plain) : Plain :=
  match t with
  | .arr es => .arr (match readIndex k with
    | some n => es.set n c
    | none => es)
  | .obj ms => .obj (match ms.findIdx? fun m => m.1 == k with
    | some n => ms.modify n fun m => (m.1, c)
    | none => ms)
  | t => t

/-- Change the value at a path. -/
def Plain.edit (f : Plain → Option Plain) (t : Plain) : List Text → Option Plain
  | [] => f t
  | k :: ks => (t.child? k).bind fun c => (c.edit f ks).map fun c' => t.setChild k c'

/-- Take an entry out. -/
def Plain.remove (q : Text) : Plain → Option Plain
  | .arr es => (readIndex q).bind fun n => if n < es.length then some (.arr (es.eraseIdx n)) else none
  | .obj ms => if ms.any (fun m => m.1 == q) then some (.obj (ms.eraseP fun m => m.1 == q)) else none
  | _ => none

/-- Put a value at the end of an array. -/
def Plain.push (v : Plain) : Plain → Option Plain
  | .arr es => some (.arr (es ++ [v]))
  | _ => none

/-- Put a value before an element. -/
def Plain.putAt (n : Nat) (v : Plain) : Plain → Option Plain
  | .arr es => if n < es.length then some (.arr (es.take n ++ v :: es.drop n)) else none
  | _ => none

/-- Put a member at the end of an object that has no such key. -/
def Plain.addMember (k : Text) (v : Plain) : Plain → Option Plain
  | .obj ms => if ms.any (fun m => m.1 == k) then none else some (.obj (ms ++ [(k, v)]))
  | _ => none

/-- Change the first key `q` to `new`, which must not be there. -/
def Plain.rename (q new : Text) : Plain → Option Plain
  | .obj ms =>
    if ms.any (fun m => m.1 == new) then none
    else (ms.findIdx? fun m => m.1 == q).map fun n => .obj (ms.modify n fun m => (new, m.2))
  | _ => none

/-- Mutations of a document. -/
inductive Edit where
  | set (p : List Text) (v : Json)
  | delete (p : List Text) (q : Text)
  | add (p : List Text) (v : Json)
  | insert (p : List Text) (n : Nat) (v : Json)
  | addKeyValue (p : List Text) (k : Text) (v : Json)
  | setKey (p : List Text) (q new : Text)

/-- What a mutation does to a value. -/
def Edit.on (t : Plain) : Edit → Option Plain
  | .set p v => t.edit (fun _ => some v.plain) p
  | .delete p q => t.edit (Plain.remove q) p
  | .add p v => t.edit (Plain.push v.plain) p
  | .insert p n v => t.edit (Plain.putAt n v.plain) p
  | .addKeyValue p k v => t.edit (Plain.addMember k v.plain) p
  | .setKey p q new => t.edit (Plain.rename q new) p

/-- The values and keys given are JSON. -/
def Edit.args : Edit → Bool
  | .set _ v | .add _ v => v.wf
  | .insert _ n v => v.wf && decide ((n : Int) ≤ 9223372036854775807)
  | .delete _ _ => true
  | .addKeyValue _ k v => strOk k && v.wf
  | .setKey _ _ new => strOk new

/-- The path leads to an entry of the value, or to a container of the right kind; `Insert` not before the last of several elements. -/
def Edit.applies (t : Plain) : Edit → Bool
  | .set p _ => !p.isEmpty && (t.get? p).isSome
  | .delete p q => (t.get? (p ++ [q])).isSome
  | .add p _ => match t.get? p with
    | some (.arr _) => true
    | _ => false
  | .insert p n _ => match t.get? p with
    | some (.arr es) => decide (n + 1 < es.length) || decide (n = 0 ∧ es.length = 1)
    | _ => false
  | .addKeyValue p _ _ => match t.get? p with
    | some (.obj _) => true
    | _ => false
  | .setKey p q _ => match t.get? p with
    | some (.obj ms) => ms.any fun m => m.1 == q
    | _ => false

/-- The mutations that look for a key that is not there. -/
def Edit.looks : Edit → Bool
  | .addKeyValue _ _ _ | .setKey _ _ _ => true
  | _ => false

end Jin.Spec
