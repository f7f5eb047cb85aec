import Verif.Spec.Json
/-!
# Spec.Scan — what a left-to-right reading of any bytes knows

Texts that are not JSON have no tree.  What can be said of them is which bytes lie in strings and
how many brackets are open.
-/

namespace Jin.Spec

/-- Inside a string; the next byte is escaped; a string has ended; brackets open. -/
structure Scan where
  inStr : Bool
  esc : Bool
  closed : Bool
  depth : Int
deriving DecidableEq, Repr

def Scan.init : Scan := ⟨false, false, false, 0⟩

/-- One byte. -/
def Scan.step (s : Scan) (c : UInt8) : Scan :=
  if s.inStr then
    if s.esc then { s with esc := false }
    else if c = 92 then { s with esc := true }
    else if c = 34 then { s with inStr := false, closed := true }
    else s
  else if c = 34 then { s with inStr := true }
  else if c = 91 ∨ c = 123 then { s with depth := s.depth + 1 }
  else if c = 93 ∨ c = 125 then { s with depth := s.depth - 1 }
  else s

/-- The whole text. -/
def scan (t : Text) : Scan := t.foldl Scan.step .init

/-- The text `t` ends directly inside the bracket that it begins with: not in a string, one bracket
open, and at least one all the way. -/
def Direct (t : Text) : Prop :=
  (scan t).inStr = false ∧ (scan t).depth = 1 ∧ ∀ p q, t = p ++ q → p ≠ [] → 1 ≤ (scan p).depth

/-- A colon directly inside the bracket comes after a string. -/
def Named (t : Text) : Prop := ∀ pre post, t = pre ++ 58 :: post → Direct pre → (scan pre).closed = true

/-- Directly inside the bracket, a byte of `seps` and one of `ends` are not separated by whitespace
alone of a length that is `bad`. -/
def Given (seps ends : List UInt8) (bad : Nat → Prop) (t : Text) : Prop :=
  ∀ pre c ws e post, t = pre ++ c :: (ws ++ e :: post) → c ∈ seps → e ∈ ends → Ws ws → bad ws.length → ¬ Direct pre

end Jin.Spec
