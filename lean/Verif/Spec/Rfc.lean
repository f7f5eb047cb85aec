import Verif.Spec.Edit

/-!
# Spec.Rfc — the grammar of RFC 8259

JSON texts as sets of byte strings, read off the grammar of RFC 8259 sections 2–7, with no
reference to trees.  Bytes from 0x80 up are allowed anywhere inside a string, so every
UTF-8 encoded text of the RFC is included.  `Json.strict` picks out the trees whose
scalars and strings are those of the RFC.
-/

namespace Jin.Spec

/-- States of the automaton of section 6: `number = [ minus ] int [ frac ] [ exp ]`. -/
inductive NumSt where
  | start | minus | zero | int | dot | frac | e | sign | exp
deriving DecidableEq

/-- `DIGIT`. -/
def isNumDigit (c : UInt8) : Bool := 0x30 ≤ c && c ≤ 0x39

/-- One byte of a number. -/
def NumSt.step : NumSt → UInt8 → Option NumSt
  | .start, c => if c == 0x2D then some .minus else if c == 0x30 then some .zero else if isNumDigit c then some .int else none
  | .minus, c => if c == 0x30 then some .zero else if isNumDigit c then some .int else none
  | .zero, c => if c == 0x2E then some .dot else if c == 0x65 || c == 0x45 then some .e else none
  | .int, c => if isNumDigit c then some .int else if c == 0x2E then some .dot else if c == 0x65 || c == 0x45 then some .e else none
  | .dot, c => if isNumDigit c then some .frac else none
  | .frac, c => if isNumDigit c then some .frac else if c == 0x65 || c == 0x45 then some .e else none
  | .e, c => if c == 0x2B || c == 0x2D then some .sign else if isNumDigit c then some .exp else none
  | .sign, c => if isNumDigit c then some .exp else none
  | .exp, c => if isNumDigit c then some .exp else none

/-- States a number may end in. -/
def NumSt.final : NumSt → Bool
  | .zero | .int | .frac | .exp => true
  | _ => false

def NumSt.run (s : NumSt) : Text → Bool
  | [] => s.final
  | c :: r => match s.step c with
    | some s' => s'.run r
    | none => false

/-- `number`, section 6. -/
def rnumber (t : Text) : Bool := NumSt.start.run t

/-- `HEXDIG`. -/
def isHex (c : UInt8) : Bool := isNumDigit c || (0x41 ≤ c && c ≤ 0x46) || (0x61 ≤ c && c ≤ 0x66)

/-- The byte after a backslash, other than `u`: `" \ / b f n r t`. -/
def isEsc (c : UInt8) : Bool :=
  c == 0x22 || c == 0x5C || c == 0x2F || c == 0x62 || c == 0x66 || c == 0x6E || c == 0x72 || c == 0x74

/-- `*char`, section 7: the content of a string. -/
def rchars : Text → Bool
  | [] => true
  | 0x5C :: 0x75 :: a :: b :: c :: d :: r => isHex a && isHex b && isHex c && isHex d && rchars r
  | 0x5C :: c :: r => isEsc c && rchars r
  | c :: r => 0x20 ≤ c && c != 0x22 && c != 0x5C && rchars r

/-- `false / null / true`, section 3. -/
def rname (t : Text) : Bool :=
  t == [0x66, 0x61, 0x6C, 0x73, 0x65] || t == [0x6E, 0x75, 0x6C, 0x6C] || t == [0x74, 0x72, 0x75, 0x65]

mutual
/-- `value`, section 3. -/
inductive RValue : Text → Prop
  | name {t : Text} : rname t → RValue t
  | number {t : Text} : rnumber t → RValue t
  | string {t : Text} : rchars t → RValue (0x22 :: (t ++ [0x22]))
  | emptyArray {w : Text} : Ws w → RValue (0x5B :: (w ++ [0x5D]))
  | array {t : Text} : RElems t → RValue (0x5B :: (t ++ [0x5D]))
  | emptyObject {w : Text} : Ws w → RValue (0x7B :: (w ++ [0x7D]))
  | object {t : Text} : RMembers t → RValue (0x7B :: (t ++ [0x7D]))
/-- `value *( value-separator value )`, section 5, with the whitespace around the values. -/
inductive RElems : Text → Prop
  | one {l v r : Text} : Ws l → RValue v → Ws r → RElems (l ++ (v ++ r))
  | more {l v r t : Text} : Ws l → RValue v → Ws r → RElems t → RElems (l ++ (v ++ (r ++ 0x2C :: t)))
/-- `member *( value-separator member )`, section 4. -/
inductive RMembers : Text → Prop
  | one {l k m l2 v r : Text} : Ws l → rchars k → Ws m → Ws l2 → RValue v → Ws r →
      RMembers (l ++ (0x22 :: (k ++ (0x22 :: (m ++ (0x3A :: (l2 ++ (v ++ r))))))))
  | more {l k m l2 v r t : Text} : Ws l → rchars k → Ws m → Ws l2 → RValue v → Ws r → RMembers t →
      RMembers (l ++ (0x22 :: (k ++ (0x22 :: (m ++ (0x3A :: (l2 ++ (v ++ (r ++ 0x2C :: t)))))))))
end

/-- `JSON-text = ws value ws`, section 2. -/
def RText (t : Text) : Prop := ∃ l v r, Ws l ∧ RValue v ∧ Ws r ∧ t = l ++ (v ++ r)

mutual
/-- All names, numbers, strings and keys of the tree are those of the RFC. -/
def Json.strict : Json → Bool
  | .lit t => rname t || rnumber t
  | .str raw => rchars raw
  | .arr _ es => strictElems es
  | .obj _ ms => strictMembers ms
def strictElems : List (Elem Json) → Bool
  | [] => true
  | ⟨_, v, _⟩ :: es => v.strict && strictElems es
def strictMembers : List (Member Json) → Bool
  | [] => true
  | ⟨_, k, _, _, v, _⟩ :: ms => rchars k && v.strict && strictMembers ms
end

/-- An entry whose key and value are those of the RFC. -/
def Entry.strict : Entry → Bool
  | .elem v => v.strict
  | .member k _ _ v => rchars k && v.strict

mutual
/-- The tree without what its text does not show: the gap of a container that has entries. -/
def Json.norm : Json → Json
  | .lit t => .lit t
  | .str raw => .str raw
  | .arr gap es => .arr (if es.isEmpty then gap else []) (normElems es)
  | .obj gap ms => .obj (if ms.isEmpty then gap else []) (normMembers ms)
def normElems : List (Elem Json) → List (Elem Json)
  | [] => []
  | ⟨l, v, r⟩ :: es => ⟨l, v.norm, r⟩ :: normElems es
def normMembers : List (Member Json) → List (Member Json)
  | [] => []
  | ⟨l, k, m, l2, v, r⟩ :: ms => ⟨l, k, m, l2, v.norm, r⟩ :: normMembers ms
end

end Jin.Spec
