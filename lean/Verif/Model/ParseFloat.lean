import Verif.Model.Strconv
/-!
# Model.ParseFloat — what `strconv.ParseFloat(s, 64)` accepts

A library function, not code of `/repo`; written from the documentation of `strconv.ParseFloat`
(Go 1.13 and later): Go syntax for floating point literals, decimal or hexadecimal, with an optional
sign; underscores between digits; the words `nan`, `inf` and `infinity` in any case, the last two
with an optional sign; an error too when the nearest value is out of range.  The package only looks at
whether there is an error (utils.go:94-97, inter_type.go:76), so the value is left out.  As in the
library an exponent stops growing once it is 10000 or more.
-/

namespace Jin

/-- `lower` of package strconv: `c | ('x' - 'X')`. -/
def lowerByte (c : UInt8) : UInt8 := c ||| 32

/-- A digit in base 10 or 16. -/
def digitOf (hex : Bool) (c : UInt8) : Option Nat :=
  if 48 ≤ c && c ≤ 57 then some (c.toNat - 48)
  else if hex && 97 ≤ lowerByte c && lowerByte c ≤ 102 then some ((lowerByte c).toNat - 87)
  else none

/-- The mantissa: its digits as a number, how many follow the point, whether there is one, and the rest. -/
structure Mant where
  val : Nat
  frac : Nat
  some : Bool
  rest : Bytes

def readMant (hex : Bool) (dot : Bool) (val frac : Nat) (any : Bool) : Bytes → Mant
  | [] => ⟨val, frac, any, []⟩
  | c :: cs =>
    if c == 95 then readMant hex dot val frac any cs
    else if c == 46 then if dot then ⟨val, frac, any, c :: cs⟩ else readMant hex true val frac any cs
    else match digitOf hex c with
      | some d => readMant hex dot (val * (if hex then 16 else 10) + d) (if dot then frac + 1 else frac) true cs
      | none => ⟨val, frac, any, c :: cs⟩

/-- The digits of the exponent, with underscores; `none` if something else follows. -/
def readExpo (e : Nat) : Bytes → Option Nat
  | [] => some e
  | c :: cs =>
    if c == 95 then readExpo e cs
    else if isDigit c then readExpo (if e < 10000 then e * 10 + (c.toNat - 48) else e) cs
    else none

/-- The sign of the exponent, and what follows. -/
def expSign : Bytes → Bool × Bytes
  | 43 :: ds => (false, ds)
  | 45 :: ds => (true, ds)
  | ds => (false, ds)

/-- The exponent: whether it is negative, and its digits. -/
def readExp (hex : Bool) : Bytes → Option (Bool × Nat)
  | [] => if hex then none else some (false, 0)
  | c :: cs =>
    if lowerByte c == (if hex then 112 else 101) then
      match (expSign cs).2 with
      | [] => none
      | d :: ds => if isDigit d then (readExpo 0 (d :: ds)).map fun e => ((expSign cs).1, e) else none
    else none

/-- `underscoreOK` of package strconv behind sign and base prefix; `saw` is `0` after a digit or prefix, `1` after an
underscore, `2` otherwise. -/
def underscores (hex : Bool) (saw : Nat) : Bytes → Bool
  | [] => saw != 1
  | c :: cs =>
    if (digitOf hex c).isSome then underscores hex 0 cs
    else if c == 95 then saw == 0 && underscores hex 1 cs
    else saw != 1 && underscores hex 2 cs

/-- The nearest 64-bit floating point number to `val · base ^ (±e) / base' ^ frac` is out of range. -/
def outOfRange (hex : Bool) (val frac : Nat) (neg : Bool) (e : Nat) : Bool :=
  let b := if hex then 2 else 10
  let down := (if hex then 4 * frac else frac) + if neg then e else 0
  decide ((2 ^ 1024 - 2 ^ 970) * b ^ down ≤ val * b ^ (if neg then 0 else e))

/-- A decimal or hexadecimal number behind the sign. -/
def floatBody (hex : Bool) (s : Bytes) : Bool :=
  let m := readMant hex false 0 0 false s
  m.some && match readExp hex m.rest with
    | none => false
    | some (neg, e) => underscores hex (if hex then 0 else 2) s && !outOfRange hex m.val m.frac neg e

/-- A word in any case. -/
def sameWord (s w : Bytes) : Bool := s.map lowerByte == w

/-- Unsigned. -/
def floatUnsigned (s : Bytes) : Bool :=
  sameWord s [105, 110, 102] || sameWord s [105, 110, 102, 105, 110, 105, 116, 121] ||
  match s with
  | 48 :: x :: d :: r => if lowerByte x == 120 then floatBody true (d :: r) else floatBody false s
  | _ => floatBody false s

/-- Whether `strconv.ParseFloat(s, 64)` gives no error. -/
def parseFloatOk (s : Bytes) : Bool :=
  match s with
  | 43 :: r => floatUnsigned r
  | 45 :: r => floatUnsigned r
  | _ => floatUnsigned s || sameWord s [110, 97, 110]

end Jin
