import Verif.Spec.Edit
/-!
# Spec.Tree — paths as the parsed tree resolves them
-/

namespace Jin.Spec

/-- A decimal number without sign and without superfluous zeros. -/
def plainIndex (t : Text) : Bool := isDigits t && (t == [0x30] || t.head? != some 0x30)

/-- An array of one element which is a scalar. -/
def lone : List (Elem Json) → Bool
  | [e] => !e.v.isContainer
  | _ => false

/-- One step in the tree: indices have to be written plainly, and the element of a
one-element array is not there when it is a scalar. -/
def Json.treeChild? (j : Json) (p : Text) : Option Json :=
  match j with
  | .arr _ es => if lone es || !plainIndex p then none else es[decimalValue p]?.map Elem.v
  | .obj _ ms => (memberIdx ms p).bind fun n => ms[n]?.map Member.v
  | _ => none

/-- The value a path leads to in the tree. -/
def Json.treeGet? (j : Json) : List Text → Option Json
  | [] => some j
  | p :: ps => (j.treeChild? p).bind fun c => c.treeGet? ps

/-- Every entry of the path that goes into an array is written plainly. -/
def Json.plainPath (j : Json) : List Text → Bool
  | [] => true
  | p :: ps => (if j.kind = .arr then plainIndex p else true) && (j.child? p).all fun c => c.plainPath ps

end Jin.Spec
