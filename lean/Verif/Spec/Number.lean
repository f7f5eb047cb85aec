import Verif.Spec.Rfc
/-!
# Spec.Number — the parts of a number, and its size
-/

namespace Jin.Spec

/-- The exponent of a number: `e` or `E`, an optional sign, digits. -/
structure ExpText where
  e : UInt8
  sign : Text
  digits : Text

/-- A number of RFC 8259 section 6 in parts: `[ minus ] int [ frac ] [ exp ]`. -/
structure NumText where
  neg : Bool
  int : Text
  frac : Option Text
  exp : Option ExpText

def ExpText.text (x : ExpText) : Text := x.e :: (x.sign ++ x.digits)
def NumText.text (n : NumText) : Text :=
  (if n.neg then [0x2D] else []) ++ (n.int ++ ((match n.frac with | none => [] | some f => 0x2E :: f) ++ (match n.exp with | none => [] | some x => x.text)))

def ExpText.wf (x : ExpText) : Prop :=
  (x.e = 0x65 ∨ x.e = 0x45) ∧ (x.sign = [] ∨ x.sign = [0x2B] ∨ x.sign = [0x2D]) ∧ isDigits x.digits

/-- The digits are digits, and there are some; `int` may begin with zeros here, so this is somewhat more than RFC 8259. -/
def NumText.wf (n : NumText) : Prop :=
  isDigits n.int ∧ (∀ f, n.frac = some f → isDigits f) ∧ ∀ x, n.exp = some x → x.wf

/-- The digits of the exponent as a number. -/
def NumText.expo (n : NumText) : Nat := match n.exp with | none => 0 | some x => decimalValue x.digits

def NumText.expNeg (n : NumText) : Bool := match n.exp with | none => false | some x => x.sign == [0x2D]

def NumText.fraction (n : NumText) : Text := n.frac.getD []

/-- The number is, up to its sign, `digits · 10 ^ tens / 10 ^ tenths`. -/
def NumText.digits (n : NumText) : Nat := decimalValue (n.int ++ n.fraction)
def NumText.tens (n : NumText) : Nat := if n.expNeg then 0 else n.expo
def NumText.tenths (n : NumText) : Nat := n.fraction.length + if n.expNeg then n.expo else 0

/-- From here on the nearest number of 53 binary digits is `2 ^ 1024`, which a 64-bit floating point number cannot be: the
largest is `2 ^ 1024 - 2 ^ 971`, and this is half of `2 ^ 971` above it. -/
def floatLimit : Nat := 2 ^ 1024 - 2 ^ 970

/-- Too large for a 64-bit floating point number. -/
def NumText.tooBig (n : NumText) : Prop := floatLimit * 10 ^ n.tenths ≤ n.digits * 10 ^ n.tens

/-- The number with the bits `b` (without the sign) in IEEE 754 binary64, counted in `2^-1074`: the lowest 52 bits are the
fraction, those above are the exponent. -/
def floatUnits (b : Nat) : Nat :=
  if b / 2 ^ 52 = 0 then b else (2 ^ 52 + b % 2 ^ 52) * 2 ^ (b / 2 ^ 52 - 1)

/-- With these bits or more there is no number, but infinity and NaN. -/
def noFloat : Nat := 2047 * 2 ^ 52

/-- How far the number with the bits `b` is from `num / den`, counted in `2^-1074 / den`. -/
def floatError (num den b : Nat) : Nat := ((floatUnits b * den : Int) - num * 2 ^ 1074).natAbs

/-- `b` are the bits of the 64-bit floating point number that is nearest to `num / den`; of two equally near, the even one. -/
def IsNearest (num den b : Nat) : Prop :=
  b < noFloat ∧ ∀ b', b' < noFloat → b' ≠ b → floatError num den b < floatError num den b' ∨ floatError num den b = floatError num den b' ∧ b % 2 = 0

end Jin.Spec
