import Verif.Model.Basic
/-!
# Model.Strconv — the parts of Go's `strconv` and `fmt` the package calls

These are library functions, not code of `/repo`; the definitions follow their
documented behaviour and are part of the trusted base (see DESIGN.md).
-/

namespace Jin

/-- ASCII digit test. -/
def isDigit (c : UInt8) : Bool := 48 ≤ c && c ≤ 57

/-- Value of a decimal digit string, `none` if a byte is not a digit. -/
def digitsVal (acc : Nat) : Bytes → Option Nat
  | [] => some acc
  | c :: cs => if isDigit c then digitsVal (acc * 10 + (c.toNat - 48)) cs else none

/-- Unsigned part: at least one digit, digits only. -/
def parseNat (s : Bytes) : Option Nat :=
  match s with
  | [] => none
  | _ => digitsVal 0 s

/-- `strconv.ParseInt(s, 10, bits)`: optional sign, at least one digit, value in
the signed `bits`-bit range. -/
def parseIntBits (bits : Nat) (s : Bytes) : Option Int :=
  let r : Option Int :=
    match s with
    | 43 :: ds => (parseNat ds).map (fun n => (n : Int))
    | 45 :: ds => (parseNat ds).map (fun n => -(n : Int))
    | ds => (parseNat ds).map (fun n => (n : Int))
  match r with
  | none => none
  | some v => if -(2 ^ (bits - 1) : Int) ≤ v ∧ v < 2 ^ (bits - 1) then some v else none

/-- `strconv.Atoi` on a 64-bit platform. -/
def atoi (s : Bytes) : Option Int := parseIntBits 64 s

/-- Digit character of `strconv` (`0-9a-z`). -/
def digitChar (d : Nat) : UInt8 := if d < 10 then UInt8.ofNat (48 + d) else UInt8.ofNat (87 + d)

/-- Digits of `n` in base `b`, most significant first (`b ≥ 2`). -/
def natDigits (b : Nat) (n : Nat) : Bytes :=
  if _h : n < b ∨ b < 2 then [digitChar n]
  else natDigits b (n / b) ++ [digitChar (n % b)]
termination_by n
decreasing_by
  have : 2 ≤ b := by omega
  exact Nat.div_lt_self (by omega) (by omega)

/-- `strconv.Itoa`. -/
def itoa (n : Int) : Bytes :=
  if n < 0 then 45 :: natDigits 10 n.natAbs else natDigits 10 n.natAbs

/-- `strconv.FormatInt(n, base)` / `FormatUint`: panics when the base is outside
`2 … 36`. -/
def formatInt (n : Int) (base : Nat) : Out Bytes :=
  if base < 2 ∨ 36 < base then .panic
  else .ok (if n < 0 then 45 :: natDigits base n.natAbs else natDigits base n.natAbs)

/-- `strconv.ParseFloat(s, 64)` and `strconv.FormatFloat(x, 'f', -1, 64)` as
uninterpreted functions over an arbitrary type `F` of float64 values: every
theorem about code that calls them holds for whatever these functions do,
and states as a hypothesis whatever it needs of them. -/
structure FloatLib (F : Type) where
  parse : Bytes → Option F
  format : F → Bytes

/-- Does `strconv.ParseFloat(s, 64)` succeed? -/
def FloatLib.accepts {F : Type} (fl : FloatLib F) (s : Bytes) : Bool := (fl.parse s).isSome

/-- The Go literal `"true"`. -/
def bTrue : Bytes := [116, 114, 117, 101]
/-- The Go literal `"false"`. -/
def bFalse : Bytes := [102, 97, 108, 115, 101]
/-- The Go literal `"null"`. -/
def bNull : Bytes := [110, 117, 108, 108]

/-- ASCII text of a Lean string literal; used only in examples. -/
def str (s : String) : Bytes := s.toUTF8.toList

example : bTrue = str "true" ∧ bFalse = str "false" ∧ bNull = str "null" := by decide +kernel

end Jin
