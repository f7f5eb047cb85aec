import Verif.Go.Sem
import Verif.Go.Source
import Verif.Model.Make
import Verif.Model.Fmt
/-!
# Go.Package — the package as a program

Its functions and constants are the trees read from the text.  Given otherwise: what it calls of `strconv`, as in
`Model.Strconv`; `fmt`, as in `Model.Fmt`, where values of type `interface{}` are given as the text that is printed for them; the
functions of `errors.go` (`Err` and `errEqual` of the model; `Go.Errors` runs their text); `byteArrayToString` of `utils.go`,
which has no effect on a value.
-/

namespace Jin.Go

/-- A parser of `strconv`: the value and no error, or an error. -/
def orErr (x : Option Val) (bad : Val) : R (List Val) :=
  match x with
  | some v => .ok [v, .nil]
  | none => .ok [bad, .err (.other [])]

/-- Values as arguments of `fmt`. -/
def fmtArgs : List Val → Option (List FmtArg)
  | [] => some []
  | .bytes s :: vs => (fmtArgs vs).map (.text s :: ·)
  | .int n :: vs => (fmtArgs vs).map (.num n :: ·)
  | _ => none

/-- What is imported, and errors.go:29-133. -/
def lib (fl : FloatLib UInt64) (f : Id) (args : List Val) : R (List Val) :=
  if f == go% strconv.Atoi then
    match args with
    | [.bytes s] => orErr ((atoi s).map .int) (.int (atoiBad s))
    | _ => .stuck
  else if f == go% strconv.Itoa then
    match args with
    | [.int n] => .ok [.bytes (itoa n)]
    | _ => .stuck
  else if f == go% strconv.ParseInt then
    match args with
    | [.bytes s, .int 10, .int bits] => orErr ((parseIntBits bits.toNat s).map .int) (.int 0)
    | _ => .stuck
  else if f == go% strconv.ParseFloat then
    match args with
    | [.bytes s, .int 64] => orErr ((fl.parse s).map .float) (.float 0)
    | _ => .stuck
  else if f == go% strconv.FormatFloat then
    match args with
    | [.float x, .int 102, .int (-1), .int 64] => .ok [.bytes (fl.format x)]
    | _ => .stuck
  else if f == go% strconv.FormatInt || f == go% strconv.FormatUint then
    match args with
    | [.int n, .int base] =>
      match formatInt n base.toNat with
      | .ok b => .ok [.bytes b]
      | _ => .panic
    | _ => .stuck
  else if f == go% fmt.Sprintf then
    match args with
    | .bytes f :: vs =>
      match (fmtArgs vs).bind (sprintf f) with
      | some b => .ok [.bytes b]
      | none => .stuck
    | _ => .stuck
  else if f == go% fmt.Errorf then
    match args with
    | .bytes f :: vs =>
      match (fmtArgs vs).bind (sprintf f) with
      | some b => .ok [.err (.other b)]
      | none => .stuck
    | _ => .stuck
  else if f == go% error.Error then
    match args with
    | [.err e] => .ok [.bytes e.msg]
    | _ => .stuck
  else if f == go% byteArrayToString then
    match args with
    | [.bytes s] => .ok [.bytes s]
    | [.nil] => .ok [.bytes []]
    | _ => .stuck
  else if f == go% ErrEqual then
    match args with
    | [.nil, .int code] => .ok [.bool (errEqual none code)]
    | [.err e, .int code] => .ok [.bool (errEqual (some e) code)]
    | _ => .stuck
  else
    match args with
    | [] =>
      if f == go% errNullPath then .ok [.err .nullPath]
      else if f == go% errEmptyArray then .ok [.err .emptyArray]
      else if f == go% errIndexExpected then .ok [.err .indexExpected]
      else if f == go% errObjectExpected then .ok [.err .objectExpected]
      else if f == go% errArrayExpected then .ok [.err .arrayExpected]
      else if f == go% errIndexOutOfRange then .ok [.err .indexOutOfRange]
      else if f == go% errNullKey then .ok [.err .nullKey]
      else if f == go% errEmpty then .ok [.err .empty]
      else .stuck
    | [.int n] => if f == go% errBadJSON then .ok [.err (.badJSON n)] else .stuck
    | [.bytes b] =>
      if f == go% errKeyNotFound then .ok [.err (.keyNotFound b)]
      else if f == go% errKeyAlreadyExist then .ok [.err (.keyAlreadyExist b)]
      else if f == go% errIntegerParse then .ok [.err (.integerParse b)]
      else if f == go% errFloatParse then .ok [.err (.floatParse b)]
      else if f == go% errBoolParse then .ok [.err (.boolParse b)]
      else if f == go% errStringArrayParse then .ok [.err (.stringArrayParse b)]
      else if f == go% errIntegerArrayParse then .ok [.err (.integerArrayParse b)]
      else if f == go% errFloatArrayParse then .ok [.err (.floatArrayParse b)]
      else if f == go% errBoolArrayParse then .ok [.err (.boolArrayParse b)]
      else .stuck
    | _ => .stuck

/-- The package. -/
def jin (fl : FloatLib UInt64) : Prog where
  funcs := Src.utils.funcs ++ Src.inter_core.funcs ++ Src.inter_get.funcs ++ Src.inter_set.funcs ++ Src.inter_add.funcs ++
    Src.inter_delete.funcs ++ Src.inter_type.funcs ++ Src.inter_iter.funcs ++ Src.others.funcs ++ Src.make.funcs ++
    Src.walk.funcs ++ Src.sequence.funcs ++ Src.jin_object.funcs ++ Src.jin_object_add.funcs ++ Src.jin_object_get.funcs ++
    Src.jin_object_set.funcs ++ Src.jin_object_others.funcs ++ Src.parse_core.funcs ++ Src.parse_utils.funcs ++ Src.parse_get.funcs ++
    Src.parse_set.funcs ++ Src.parse_add.funcs ++ Src.parse_delete.funcs
  consts := Src.errors.consts ++ Src.inter_type.consts
  lib := lib fl

end Jin.Go
