/-!
# Spec.Utf8 — texts in UTF-8

`String.utf8EncodeChar` is Lean's encoder of one character.  Nothing here refers to the code of `/repo` or its translation.
-/

namespace Jin.Spec

/-- The bytes are the UTF-8 encoding of a list of characters. -/
def Utf8 (t : List UInt8) : Prop := ∃ cs : List Char, t = cs.flatMap String.utf8EncodeChar

end Jin.Spec
