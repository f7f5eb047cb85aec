import Verif.Go.Run
/-!
# Go.Errors — the text of errors.go

Its functions as a program of their own: the errors they make have the messages of `Err`, and `ErrEqual` reads the code back.
-/

namespace Jin.Go

/-- errors.go as a program. -/
def errs (fl : FloatLib UInt64) : Prog where
  funcs := Src.errors.funcs
  consts := Src.errors.consts
  lib := lib fl

/-- What the functions of errors.go see when they run. -/
def errCtx (fl : FloatLib UInt64) (fuel depth : Nat) : Ctx Unit := (errs fl).ctx fuel depth fun _ _ => .stuck

section
variable {fl : FloatLib UInt64} {fuel d : Nat} {sp : Bool}

theorem err_run {f : Id} {g : Func} (h : (errs fl).funcs.find? (fun g => g.name == f) = some g)
    (fuel depth : Nat) (spread : Bool) (args : List Val) :
    (errs fl).fn fuel (depth + 1) f spread args =
      (g.run (errCtx fl fuel depth) fuel spread args ()).bind fun r => .ok r.2 := by
  simp only [Prog.fn, Prog.fnIn, h]
  rfl

theorem err_lib {f : Id} (h : (errs fl).funcs.find? (fun g => g.name == f) = none)
    (fuel depth : Nat) (spread : Bool) (args : List Val) : (errs fl).fn fuel (depth + 1) f spread args = lib fl f args := by
  simp only [Prog.fn, Prog.fnIn, h]
  show ((lib fl f args).bind _).bind _ = _
  cases lib fl f args <;> rfl

theorem errCtx_fn (f : Id) (spread : Bool) (args : List Val) : (errCtx fl fuel d).fn f spread args = (errs fl).fn fuel d f spread args := rfl
theorem errCtx_const (x : Id) : (errCtx fl fuel d).const x = Src.errors.consts.lookup x := rfl

/-! ### `fmt.Errorf` with the formats of errors.go -/

theorem sprintf_lit (f : Bytes) (as : List FmtArg) : ∀ P : Bytes, (37 : UInt8) ∉ P → sprintf (P ++ f) as = (sprintf f as).map (P ++ ·)
  | [], _ => by simp
  | c :: P, h => by
    rw [List.mem_cons, not_or] at h
    have hc : ¬ c = 37 := fun e => h.1 e.symm
    rw [List.cons_append, sprintf, sprintf_lit f as P h.2]
    · simp [hc, Function.comp_def]
    all_goals intros; simp_all

theorem twoDigits_eq : ∀ n : Fin 100, twoDigits n.1 = fmt02 n.1 := by decide +kernel

theorem sprintf_02 {c : Int} (h0 : 0 ≤ c) (h1 : c < 100) : sprintf [37, 48, 50, 100] [.num c] = some (fmt02 c.toNat) := by
  have e := twoDigits_eq ⟨c.toNat, by omega⟩
  have h : ¬ c < 0 := by omega
  simp [sprintf, h]
  exact e

theorem sprintf_code (P : Bytes) (hP : (37 : UInt8) ∉ P) {c : Int} (h0 : 0 ≤ c) (h1 : c < 100) :
    sprintf (P ++ bCode ++ [37, 48, 50, 100]) [.num c] = some (P ++ bCode ++ fmt02 c.toNat) := by
  rw [sprintf_lit _ _ _ (by rw [List.mem_append, not_or]; exact ⟨hP, by decide +kernel⟩), sprintf_02 h0 h1, Option.map_some]

theorem sprintf_arg (P Q : Bytes) (hP : (37 : UInt8) ∉ P) (hQ : (37 : UInt8) ∉ Q) (a : FmtArg) {c : Int} (h0 : 0 ≤ c) (h1 : c < 100) :
    sprintf (P ++ 37 :: 118 :: (Q ++ bCode ++ [37, 48, 50, 100])) [a, .num c] = some (P ++ (a.plain ++ (Q ++ bCode ++ fmt02 c.toNat))) := by
  rw [sprintf_lit _ _ _ hP, sprintf, sprintf_code Q hQ h0 h1, Option.map_some, Option.map_some]

theorem run_Errorf (f : Bytes) (vs : List Val) {as : List FmtArg} {b : Bytes} (h1 : fmtArgs vs = some as) (h2 : sprintf f as = some b) :
    (errs fl).fn fuel (d + 1) (go% fmt.Errorf) sp (.bytes f :: vs) = .ok [.err (.other b)] := by
  rw [err_lib rfl]
  show (match (fmtArgs vs).bind (sprintf f) with | some b => R.ok [Val.err (.other b)] | none => R.stuck) = _
  rw [h1, Option.bind_some, h2]

/-! ### The functions -/

/-- A function of errors.go without parameters. -/
theorem run_err0 {f : Id} {g : Func} (hg : (errs fl).funcs.find? (fun g => g.name == f) = some g) {x : Id} {b P : Bytes} {c : Int}
    (hp : g.params = []) (hb : g.body = .retCall (go% fmt.Errorf) false (.cons (.lit (.bytes b)) (.cons (.var x) .nil)))
    (hx : Src.errors.consts.lookup x = some (.int c)) (h0 : 0 ≤ c) (h1 : c < 100) (hP : b = P ++ bCode ++ [37, 48, 50, 100]) (hn : (37 : UInt8) ∉ P) :
    (errs fl).fn fuel (d + 2) f sp [] = .ok [.err (.other (P ++ bCode ++ fmt02 c.toNat))] := by
  rw [err_run hg]
  have e := run_Errorf (fl := fl) (fuel := fuel) (d := d) (sp := false) b [.int c] rfl (by rw [hP]; exact sprintf_code P hn h0 h1)
  simp only [Func.run, hp, bindParams, hb, R.bind, exec, evals, eval, Env.get, errCtx_const, hx, Res.ofR, errCtx_fn, e]

theorem run_err1 {f : Id} {g : Func} (hg : (errs fl).funcs.find? (fun g => g.name == f) = some g) {x y : Id} {b P Q : Bytes} {c : Int} {v : Val} {a : FmtArg}
    (hp : g.params = [y]) (hv : g.variadic = false) (hb : g.body = .retCall (go% fmt.Errorf) false (.cons (.lit (.bytes b)) (.cons (.var y) (.cons (.var x) .nil))))
    (hxy : Nat.beq x y = false) (ha : fmtArgs [v] = some [a])
    (hx : Src.errors.consts.lookup x = some (.int c)) (h0 : 0 ≤ c) (h1 : c < 100) (hP : b = P ++ 37 :: 118 :: (Q ++ bCode ++ [37, 48, 50, 100]))
    (hn : (37 : UInt8) ∉ P) (hm : (37 : UInt8) ∉ Q) :
    (errs fl).fn fuel (d + 2) f sp [v] = .ok [.err (.other (P ++ (a.plain ++ (Q ++ bCode ++ fmt02 c.toNat))))] := by
  rw [err_run hg]
  have ha' : fmtArgs [v, .int c] = some [a, .num c] := by
    cases v with
    | bytes s => cases ha; rfl
    | int n => cases ha; rfl
    | _ => cases ha
  have e := run_Errorf (fl := fl) (fuel := fuel) (d := d) (sp := false) b [v, .int c] ha' (by rw [hP]; exact sprintf_arg P Q hn hm a h0 h1)
  have hy : Nat.beq y y = true := Nat.beq_refl y
  simp only [Func.run, hp, hv, bindParams, hb, R.bind, exec, evals, eval, Env.get, errCtx_const, hx, Res.ofR, errCtx_fn, e, Bool.false_and,
    Bool.false_eq_true, if_false, hxy, hy, cond_true, cond_false]

/-- The call of errors.go that makes an error of the package. -/
def maker : Err → Id × List Val
  | .nullPath => (go% errNullPath, [])
  | .emptyArray => (go% errEmptyArray, [])
  | .indexExpected => (go% errIndexExpected, [])
  | .objectExpected => (go% errObjectExpected, [])
  | .arrayExpected => (go% errArrayExpected, [])
  | .indexOutOfRange => (go% errIndexOutOfRange, [])
  | .keyNotFound b => (go% errKeyNotFound, [.bytes b])
  | .badJSON n => (go% errBadJSON, [.int n])
  | .keyAlreadyExist b => (go% errKeyAlreadyExist, [.bytes b])
  | .integerParse b => (go% errIntegerParse, [.bytes b])
  | .floatParse b => (go% errFloatParse, [.bytes b])
  | .boolParse b => (go% errBoolParse, [.bytes b])
  | .stringArrayParse b => (go% errStringArrayParse, [.bytes b])
  | .integerArrayParse b => (go% errIntegerArrayParse, [.bytes b])
  | .floatArrayParse b => (go% errFloatArrayParse, [.bytes b])
  | .boolArrayParse b => (go% errBoolArrayParse, [.bytes b])
  | .nullKey => (go% errNullKey, [])
  | .empty => (go% errEmpty, [])
  | .other m => (go% fmt.Errorf, [.bytes m])

/-- The name of its code. -/
def codeName : Err → Id
  | .nullPath => go% ErrCodeNullPath
  | .emptyArray => go% ErrCodeEmptyArray
  | .indexExpected => go% ErrCodeIndexExpected
  | .objectExpected => go% ErrCodeObjectExpected
  | .arrayExpected => go% ErrCodeArrayExpected
  | .indexOutOfRange => go% ErrCodeIndexOutOfRange
  | .keyNotFound _ => go% ErrCodeKeyNotFound
  | .badJSON _ => go% ErrCodeBadJSON
  | .keyAlreadyExist _ => go% ErrCodeKeyAlreadyExist
  | .integerParse _ => go% ErrCodeIntegerParse
  | .floatParse _ => go% ErrCodeFloatParse
  | .boolParse _ => go% ErrCodeBoolParse
  | .stringArrayParse _ => go% ErrCodeStringArrayParse
  | .integerArrayParse _ => go% ErrCodeIntegerArrayParse
  | .floatArrayParse _ => go% ErrCodeFloatArrayParse
  | .boolArrayParse _ => go% ErrCodeBoolArrayParse
  | .nullKey => go% ErrCodeNullKey
  | .empty => go% ErrCodeEmpty
  | .other _ => 0

theorem code_text (e : Err) (h : e.code ≠ none) : ∃ c, e.code = some c ∧ 0 ≤ c ∧ c < 100 ∧ Src.errors.consts.lookup (codeName e) = some (.int c) := by
  cases e with
  | other m => exact absurd rfl h
  | _ => exact ⟨_, rfl, by omega, by omega, rfl⟩

/-- The text of errors.go makes the errors that `Go.Package` gives, up to how they are written: their messages are the same. -/
theorem text_errors (e : Err) (h : e.code ≠ none) : (errs fl).fn fuel (d + 2) (maker e).1 sp (maker e).2 = .ok [.err (.other e.msg)] := by
  cases e with
  | nullPath =>
    exact run_err0 (g := Src.errNullPath) (P := Err.text .nullPath) (c := 0) rfl rfl rfl rfl (by omega) (by omega) (by decide +kernel) (by decide +kernel)
  | emptyArray =>
    exact run_err0 (g := Src.errEmptyArray) (P := Err.text .emptyArray) (c := 2) rfl rfl rfl rfl (by omega) (by omega) (by decide +kernel) (by decide +kernel)
  | indexExpected =>
    exact run_err0 (g := Src.errIndexExpected) (P := Err.text .indexExpected) (c := 3) rfl rfl rfl rfl (by omega) (by omega) (by decide +kernel) (by decide +kernel)
  | objectExpected =>
    exact run_err0 (g := Src.errObjectExpected) (P := Err.text .objectExpected) (c := 5) rfl rfl rfl rfl (by omega) (by omega) (by decide +kernel) (by decide +kernel)
  | arrayExpected =>
    exact run_err0 (g := Src.errArrayExpected) (P := Err.text .arrayExpected) (c := 6) rfl rfl rfl rfl (by omega) (by omega) (by decide +kernel) (by decide +kernel)
  | indexOutOfRange =>
    exact run_err0 (g := Src.errIndexOutOfRange) (P := Err.text .indexOutOfRange) (c := 7) rfl rfl rfl rfl (by omega) (by omega) (by decide +kernel) (by decide +kernel)
  | keyNotFound b =>
    refine (run_err1 (g := Src.errKeyNotFound) (P := str "error: key '") (Q := str "' not found") (c := 8) (a := .text b) rfl rfl rfl rfl rfl rfl rfl (by omega) (by omega) (by decide +kernel) (by decide +kernel) (by decide +kernel)).trans ?_
    simp only [Err.msg, Err.text, Err.code, FmtArg.plain, List.append_assoc]
  | badJSON n =>
    refine (run_err1 (g := Src.errBadJSON) (P := str "error: bad json format. at:'") (Q := str "'") (c := 9) (a := .num n) rfl rfl rfl rfl rfl rfl rfl (by omega) (by omega) (by decide +kernel) (by decide +kernel) (by decide +kernel)).trans ?_
    simp only [Err.msg, Err.text, Err.code, FmtArg.plain, List.append_assoc]
  | keyAlreadyExist b =>
    refine (run_err1 (g := Src.errKeyAlreadyExist) (P := str "error: key '") (Q := str "' already exist") (c := 11) (a := .text b) rfl rfl rfl rfl rfl rfl rfl (by omega) (by omega) (by decide +kernel) (by decide +kernel) (by decide +kernel)).trans ?_
    simp only [Err.msg, Err.text, Err.code, FmtArg.plain, List.append_assoc]
  | integerParse b =>
    refine (run_err1 (g := Src.errIntegerParse) (P := str "parse error: '") (Q := str "' cannot be converted to int.") (c := 12) (a := .text b) rfl rfl rfl rfl rfl rfl rfl (by omega) (by omega) (by decide +kernel) (by decide +kernel) (by decide +kernel)).trans ?_
    simp only [Err.msg, Err.text, Err.code, FmtArg.plain, List.append_assoc]
  | floatParse b =>
    refine (run_err1 (g := Src.errFloatParse) (P := str "parse error: '") (Q := str "' cannot be converted to float.") (c := 13) (a := .text b) rfl rfl rfl rfl rfl rfl rfl (by omega) (by omega) (by decide +kernel) (by decide +kernel) (by decide +kernel)).trans ?_
    simp only [Err.msg, Err.text, Err.code, FmtArg.plain, List.append_assoc]
  | boolParse b =>
    refine (run_err1 (g := Src.errBoolParse) (P := str "parse error: '") (Q := str "' cannot be converted to bool.") (c := 14) (a := .text b) rfl rfl rfl rfl rfl rfl rfl (by omega) (by omega) (by decide +kernel) (by decide +kernel) (by decide +kernel)).trans ?_
    simp only [Err.msg, Err.text, Err.code, FmtArg.plain, List.append_assoc]
  | stringArrayParse b =>
    refine (run_err1 (g := Src.errStringArrayParse) (P := str "parse error: '") (Q := str "' cannot be converted to []string.") (c := 15) (a := .text b) rfl rfl rfl rfl rfl rfl rfl (by omega) (by omega) (by decide +kernel) (by decide +kernel) (by decide +kernel)).trans ?_
    simp only [Err.msg, Err.text, Err.code, FmtArg.plain, List.append_assoc]
  | integerArrayParse b =>
    refine (run_err1 (g := Src.errIntegerArrayParse) (P := str "parse error: '") (Q := str "' cannot be converted to []int.") (c := 16) (a := .text b) rfl rfl rfl rfl rfl rfl rfl (by omega) (by omega) (by decide +kernel) (by decide +kernel) (by decide +kernel)).trans ?_
    simp only [Err.msg, Err.text, Err.code, FmtArg.plain, List.append_assoc]
  | floatArrayParse b =>
    refine (run_err1 (g := Src.errFloatArrayParse) (P := str "parse error: '") (Q := str "' cannot be converted to []float.") (c := 17) (a := .text b) rfl rfl rfl rfl rfl rfl rfl (by omega) (by omega) (by decide +kernel) (by decide +kernel) (by decide +kernel)).trans ?_
    simp only [Err.msg, Err.text, Err.code, FmtArg.plain, List.append_assoc]
  | boolArrayParse b =>
    refine (run_err1 (g := Src.errBoolArrayParse) (P := str "parse error: '") (Q := str "' cannot be converted to []bool.") (c := 18) (a := .text b) rfl rfl rfl rfl rfl rfl rfl (by omega) (by omega) (by decide +kernel) (by decide +kernel) (by decide +kernel)).trans ?_
    simp only [Err.msg, Err.text, Err.code, FmtArg.plain, List.append_assoc]
  | nullKey =>
    exact run_err0 (g := Src.errNullKey) (P := Err.text .nullKey) (c := 19) rfl rfl rfl rfl (by omega) (by omega) (by decide +kernel) (by decide +kernel)
  | empty =>
    exact run_err0 (g := Src.errEmpty) (P := Err.text .empty) (c := 20) rfl rfl rfl rfl (by omega) (by omega) (by decide +kernel) (by decide +kernel)
  | other m => exact absurd rfl h

/-- What `Go.Package` gives in place of these functions. -/
theorem lib_errors (e : Err) (h : e.code ≠ none) : lib fl (maker e).1 (maker e).2 = .ok [.err e] := by
  cases e with
  | nullPath => rfl
  | emptyArray => rfl
  | indexExpected => rfl
  | objectExpected => rfl
  | arrayExpected => rfl
  | indexOutOfRange => rfl
  | keyNotFound b => rfl
  | badJSON n => rfl
  | keyAlreadyExist b => rfl
  | integerParse b => rfl
  | floatParse b => rfl
  | boolParse b => rfl
  | stringArrayParse b => rfl
  | integerArrayParse b => rfl
  | floatArrayParse b => rfl
  | boolArrayParse b => rfl
  | nullKey => rfl
  | empty => rfl
  | other m => exact absurd rfl h

theorem run_Error (e : Err) : (errs fl).fn fuel (d + 1) (go% error.Error) sp [.err e] = .ok [.bytes e.msg] := err_lib rfl ..
theorem run_errAtoi (s : Bytes) : (errs fl).fn fuel (d + 1) (go% strconv.Atoi) sp [.bytes s] = orErr ((atoi s).map .int) (.int (atoiBad s)) := err_lib rfl ..

/-- `ErrEqual` of the text is `errEqual`. -/
theorem text_ErrEqual (e : Option Err) (n : Int) :
    (errs fl).fn fuel (d + 2) (go% ErrEqual) sp [match e with | some e => .err e | none => .nil, .int n] = .ok [.bool (errEqual e n)] := by
  rw [err_run (g := Src.ErrEqual) rfl]
  cases e with
  | none => run_go [Func.run, Src.ErrEqual, bindParams, errEqual]
  | some e =>
    by_cases hl : e.msg.length < 2
    · have hi : ((e.msg.length : Nat) : Int) < 2 := by omega
      run_go [Func.run, Src.ErrEqual, bindParams, errEqual, errCtx_fn, run_Error, hl, hi, decide_true]
    · have hi : ¬ ((e.msg.length : Nat) : Int) < 2 := by omega
      have hc : cut e.msg ((e.msg.length : Int) - 2) e.msg.length = .ok (e.msg.drop (e.msg.length - 2)) := by
        have h2 : ((e.msg.length : Int) - 2).toNat = e.msg.length - 2 := by omega
        rw [cut, if_pos (by omega), h2, Int.toNat_natCast, List.take_of_length_le (by simp)]
      cases ha : atoi (e.msg.drop (e.msg.length - 2)) with
      | none => run_go [Func.run, Src.ErrEqual, bindParams, errEqual, errCtx_fn, run_Error, run_errAtoi, hl, hi, hc, ha, decide_false, Option.map_none, orErr]
      | some c => run_go [Func.run, Src.ErrEqual, bindParams, errEqual, errCtx_fn, run_Error, run_errAtoi, hl, hi, hc, ha, decide_false, Option.map_some, orErr]

end

end Jin.Go
