import Verif.Spec.Eq
import Verif.Model.Strconv
/-!
# Props.Sample — documents used to show that hypotheses can be met
-/

namespace Jin.Sample
open Spec

/-- Text of a string literal. -/
abbrev s (x : String) : Text := str x

/-- A member without whitespace. -/
def mem (k : Text) (v : Json) : Member Json := ⟨[], k, [], [], v, []⟩
/-- An element without whitespace. -/
def el (v : Json) : Elem Json := ⟨[], v, []⟩

/-- ` 10 ,"x]\\\\" , {"k":null}, [] ` -/
def elems : List (Elem Json) := [
  ⟨s " ", .lit (s "10"), s " "⟩,
  ⟨[], .str (s "x]\\\\"), s " "⟩,
  ⟨s " ", .obj [] [mem (s "k") (.lit (s "null"))], []⟩,
  ⟨s " ", .arr [] [], s " "⟩]

/-- ` "p":{"q":true }, "r":-1.5e3` -/
def members : List (Member Json) := [
  ⟨s " ", s "p", [], [], .obj [] [⟨[], s "q", [], [], .lit (s "true"), s " "⟩], []⟩,
  ⟨s " ", s "r", [], [], .lit (s "-1.5e3"), []⟩]

/-- The members of the root of `doc`. -/
def rootMembers : List (Member Json) := [
  ⟨[], s "a", [], s " ", .lit (s "1"), []⟩,
  ⟨s " ", s "b\\\"]", s " ", [], .arr [] elems, []⟩,
  mem (s "a") (.lit (s "2")),
  ⟨[], s "o", [], [], .obj [] members, []⟩]

/-- The document
`⏎{"a": 1, "b\"]" :[ 10 ,"x]\\" , {"k":null}, [] ],"a":2,"o":{ "p":{"q":true }, "r":-1.5e3}}␣`:
whitespace in many places, an escaped quote and a bracket in a key, a string with a
bracket and an escaped backslash, a duplicate key, nesting. -/
def doc : Doc where
  lead := s "\n"
  root := .obj [] rootMembers
  trail := s " "

example : doc.render =
    s "\n{\"a\": 1, \"b\\\"]\" :[ 10 ,\"x]\\\\\" , {\"k\":null}, [] ],\"a\":2,\"o\":{ \"p\":{\"q\":true }, \"r\":-1.5e3}} " := by
  decide +kernel

theorem doc_wf : doc.wf := by decide +kernel

/-- Path to the string `x]\\` of `doc`. -/
def toStr : List Text := [s "b\\\"]", s "1"]
/-- Path to `true`. -/
def toTrue : List Text := [s "o", s "p", s "q"]
/-- Path to the array. -/
def toArr : List Text := [s "b\\\"]"]
/-- Path to the object `o`. -/
def toObj : List Text := [s "o"]
/-- Path to the number `10`. -/
def toTen : List Text := [s "b\\\"]", s "0"]

theorem get_str : doc.get? toStr = some (.str (s "x]\\\\")) := by decide +kernel
theorem get_true : doc.get? toTrue = some (.lit bTrue) := by decide +kernel
theorem get_arr : doc.get? toArr = some (.arr [] elems) := by decide +kernel
theorem get_obj : doc.get? toObj = some (.obj [] members) := by decide +kernel
theorem get_root : doc.get? [] = some (.obj [] rootMembers) := by decide +kernel
theorem get_ten : doc.get? toTen = some (.lit (s "10")) := by decide +kernel

end Jin.Sample
