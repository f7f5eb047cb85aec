import Verif.Model.ParseFloat
/-!
# Model.Float — the 64-bit floating point numbers of `strconv`

Library functions, not code of `/repo`; written from the documentation of package strconv. A `float64` is its 64 bits
(`math.Float64bits`). `ParseFloat(s, 64)` gives the nearest number "rounded using IEEE754 unbiased rounding";
`FormatFloat(x, 'f', -1, 64)` prints without exponent "the smallest number of digits necessary such that ParseFloat will return f
exactly", and among those the digits closest to `x`. What `ParseFloat` accepts is in `Model/ParseFloat`.

Bits without sign: `k · 2^52 + m` for the number `m · 2^k / 2^1074`, where `m < 2^53`, and `2^52 ≤ m` unless `k = 0`.
-/

namespace Jin

/-- The smallest positive number is `1 / floatUnit`. -/
def floatUnit : Nat := 2 ^ 1074

/-- Bits of the infinity, and of `math.NaN()`. -/
def infBits : Nat := 2047 * 2 ^ 52
def nanBits : Nat := 0x7FF8000000000001

/-- The bits of the number nearest to `num / den`; of two, the one with even bits. -/
def nearBits (num den : Nat) : Nat :=
  let n := num * floatUnit
  let k := (n / den).log2 - 52
  let d := den * 2 ^ k
  let m := n / d
  let r := n % d
  k * 2 ^ 52 + (if 2 * r < d ∨ 2 * r = d ∧ m % 2 = 0 then m else m + 1)

/-- Of a number with bits `b`: how often it has `2^-1074`. -/
def unitsOf (b : Nat) : Nat :=
  if b / 2 ^ 52 = 0 then b else (b % 2 ^ 52 + 2 ^ 52) * 2 ^ (b / 2 ^ 52 - 1)

/-! ### `ParseFloat` -/

/-- The bits for a decimal or hexadecimal number behind the sign, if it is accepted. -/
def bodyBits (hex : Bool) (s : Bytes) : Nat :=
  let m := readMant hex false 0 0 false s
  match readExp hex m.rest with
  | none => 0
  | some (neg, e) =>
    let b := if hex then 2 else 10
    nearBits (m.val * b ^ (if neg then 0 else e)) (b ^ ((if hex then 4 * m.frac else m.frac) + if neg then e else 0))

def unsignedBits (s : Bytes) : Nat :=
  if sameWord s [105, 110, 102] || sameWord s [105, 110, 102, 105, 110, 105, 116, 121] then infBits
  else match s with
    | 48 :: x :: d :: r => if lowerByte x == 120 then bodyBits true (d :: r) else bodyBits false s
    | _ => bodyBits false s

/-- `strconv.ParseFloat(s, 64)`. -/
def parseFloat (s : Bytes) : Option UInt64 :=
  if parseFloatOk s then
    some (UInt64.ofNat (match s with
      | 43 :: r => unsignedBits r
      | 45 :: r => 2 ^ 63 + unsignedBits r
      | _ => if sameWord s [110, 97, 110] then nanBits else unsignedBits s))
  else none

/-! ### `FormatFloat` -/

/-- The numbers `c / 10^f` with `c` a multiple of `10^j` beside the number with bits `b`, if one has bits `b`; the nearer if both have. -/
def nearDigits (b : Nat) (j f : Nat) : Option (Nat × Nat) :=
  let n := unitsOf b * 10 ^ f
  let u := 10 ^ j
  let q := n / (floatUnit * u)
  let lo := q * u
  let hi := (q + 1) * u
  if nearBits lo (10 ^ f) = b then
    if nearBits hi (10 ^ f) = b then
      let r := n - lo * floatUnit
      let r' := hi * floatUnit - n
      if r < r' ∨ r = r' ∧ q % 2 = 0 then some (lo, f) else some (hi, f)
    else some (lo, f)
  else if nearBits hi (10 ^ f) = b then some (hi, f)
  else none

/-- From the power of ten above the number with bits `b` down to `10^-1074`. -/
def scales (b : Nat) : List (Nat × Nat) :=
  (List.range ((natDigits 10 (unitsOf b / floatUnit)).length + 1)).reverse.map (fun j => (j, 0)) ++ (List.range 1074).map fun f => (0, f + 1)

/-- The shortest decimal number with bits `b`. -/
def shortest (b : Nat) : Nat × Nat := ((scales b).findSome? fun s => nearDigits b s.1 s.2).getD (0, 0)

/-- The last `f` digits of `n`. -/
def padDigits : Nat → Nat → Bytes
  | 0, _ => []
  | f + 1, n => padDigits f (n / 10) ++ [UInt8.ofNat (48 + n % 10)]

/-- `c / 10^f` without exponent. -/
def positional (c f : Nat) : Bytes :=
  natDigits 10 (c / 10 ^ f) ++ if f = 0 then [] else 46 :: padDigits f (c % 10 ^ f)

/-- `strconv.FormatFloat(x, 'f', -1, 64)`. -/
def formatFloat (x : UInt64) : Bytes :=
  let b := x.toNat % 2 ^ 63
  let neg := decide (2 ^ 63 ≤ x.toNat)
  if infBits < b then str "NaN"
  else if b = infBits then if neg then str "-Inf" else str "+Inf"
  else (if neg then [45] else []) ++ positional (shortest b).1 (shortest b).2

/-- The two functions as the library of the package. -/
def goFloats : FloatLib UInt64 := ⟨parseFloat, formatFloat⟩

end Jin
