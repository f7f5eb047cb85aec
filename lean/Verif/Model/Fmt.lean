import Verif.Model.Utils
/-!
# Model.Fmt — what the package uses of `fmt`

`fmt.Sprintf` and `fmt.Errorf` with the verbs `%v`, `%-6v` and `%02d` (errors.go:46-133, parse_utils.go:157-165, make.go:178, :318).
-/

namespace Jin

/-- The number of bytes of the rune that a string begins with, as `utf8.DecodeRuneInString` takes it: 1 for a byte that
begins no rune in UTF-8. -/
def runeLen : Bytes → Nat
  | a :: b :: r =>
    let lo : UInt8 := if a == 0xE0 then 0xA0 else if a == 0xF0 then 0x90 else 0x80
    let hi : UInt8 := if a == 0xED then 0x9F else if a == 0xF4 then 0x8F else 0xBF
    let n : Nat := if a < 0xC2 then 1 else if a < 0xE0 then 2 else if a < 0xF0 then 3 else if a < 0xF5 then 4 else 1
    let tail (c : UInt8) : Bool := 0x80 ≤ c && c ≤ 0xBF
    if n == 1 || !(lo ≤ b && b ≤ hi) then 1
    else if n == 2 then 2
    else match r with
      | c :: r =>
        if !tail c then 1
        else if n == 3 then 3
        else match r with
          | e :: _ => if tail e then 4 else 1
          | [] => 1
      | [] => 1
  | _ => 1

/-- `utf8.RuneCountInString` -/
def runeCount : Bytes → Nat
  | [] => 0
  | a :: r => 1 + runeCount (r.drop (runeLen (a :: r) - 1))
termination_by s => s.length
decreasing_by simp only [List.length_drop, List.length_cons]; omega

example : runeCount (str "aé└€😀z") = 6 ∧ runeCount [0xC3, 0x28, 0xFF, 0xE2, 0x82] = 5 := by decide +kernel

/-- The spaces that `%-6v` puts behind a string. -/
def pad6 (s : Bytes) : Bytes := List.replicate (6 - runeCount s) 32

/-- `%02d` of a number that is not negative. -/
def twoDigits (n : Nat) : Bytes := if n < 10 then 48 :: itoa n else itoa n

/-- An argument of `fmt`: a string or an integer. -/
inductive FmtArg where
  | text (s : Bytes)
  | num (n : Int)
deriving DecidableEq, Repr

/-- `%v` -/
def FmtArg.plain : FmtArg → Bytes
  | .text s => s
  | .num n => itoa n

/-- `fmt.Sprintf`; `none` for verbs other than these and for arguments that do not go with them. -/
def sprintf : Bytes → List FmtArg → Option Bytes
  | [], [] => some []
  | [], _ :: _ => none
  | 37 :: 118 :: f, a :: as => (sprintf f as).map (a.plain ++ ·)                                      -- %v
  | 37 :: 45 :: 54 :: 118 :: f, .text s :: as => (sprintf f as).map (s ++ pad6 s ++ ·)                -- %-6v
  | 37 :: 48 :: 50 :: 100 :: f, .num n :: as => if n < 0 then none else (sprintf f as).map (twoDigits n.toNat ++ ·)   -- %02d
  | c :: f, as => if c == 37 then none else (sprintf f as).map (c :: ·)

example : sprintf (str "key '%v' %-6v|%02d") [.text (str "a"), .text (str "└x"), .num 8] = some (str "key 'a' └x    |08") := by decide +kernel

end Jin
