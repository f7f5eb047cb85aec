import Verif.Spec.Edit
/-!
# Spec.Format — the indented text of a value
-/

namespace Jin.Spec

/-- A line feed and `d` tabs. -/
def newline (d : Nat) : Text := 10 :: List.replicate d 9

mutual
/-- The value at depth `d`, one element or member per line, indented with tabs, one space
after each colon; an empty container takes two line feeds. -/
def Json.indent (d : Nat) : Json → Json
  | .lit t => .lit t
  | .str t => .str t
  | .arr _ es => .arr (newline (d + 1) ++ newline d) (indentElems d es)
  | .obj _ ms => .obj (newline (d + 1) ++ newline d) (indentMembers d ms)
def indentElems (d : Nat) : List (Elem Json) → List (Elem Json)
  | [] => []
  | [⟨_, v, _⟩] => [⟨newline (d + 1), v.indent (d + 1), newline d⟩]
  | ⟨_, v, _⟩ :: e :: es => ⟨newline (d + 1), v.indent (d + 1), []⟩ :: indentElems d (e :: es)
def indentMembers (d : Nat) : List (Member Json) → List (Member Json)
  | [] => []
  | [⟨_, k, _, _, v, _⟩] => [⟨newline (d + 1), k, [], [32], v.indent (d + 1), newline d⟩]
  | ⟨_, k, _, _, v, _⟩ :: e :: es => ⟨newline (d + 1), k, [], [32], v.indent (d + 1), []⟩ :: indentMembers d (e :: es)
end

/-- The content does not end with a backslash. -/
def noTrailBs (raw : Text) : Bool := raw.getLast? != some 92

end Jin.Spec
