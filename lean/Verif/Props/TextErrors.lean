import Verif.Go.Errors
import Verif.Props.Errors
/-!
# Property C110: the errors of the text

The functions of errors.go are run from their text, as a program of its own.  The rest of the text runs with `Go.Package` in
their place, which gives the errors by name; the two make errors with the same message, and `ErrEqual` sees nothing else.
-/

namespace Jin.Go

/-- **C110** The function of errors.go that makes the error `e` gives an error whose message is the text of the error, ` error_code: `
and the two digits of its code; the code is the constant of errors.go with its name; `ErrEqual` of the text on the error is true
for exactly that code, and false on nil. -/
theorem C110_errors (fl : FloatLib UInt64) (fuel d : Nat) (sp : Bool) (e : Err) (c : Int) (hc : e.code = some c) :
    Src.errors.consts.lookup (codeName e) = some (.int c) ∧
    ∃ v : Err, (errs fl).fn fuel (d + 2) (maker e).1 sp (maker e).2 = .ok [.err v] ∧
      v.msg = e.text ++ str " error_code: " ++ [digitChar (c.toNat / 10), digitChar (c.toNat % 10)] ∧
      ∀ n, (errs fl).fn fuel (d + 2) (go% ErrEqual) sp [.err v, .int n] = .ok [.bool (decide (n = c))] ∧
        (errs fl).fn fuel (d + 2) (go% ErrEqual) sp [.nil, .int n] = .ok [.bool false] := by
  have h : e.code ≠ none := by rw [hc]; simp
  obtain ⟨c', h1, -, -, h2⟩ := code_text e h
  rw [hc] at h1
  cases h1
  have hb : bCode = str " error_code: " := by decide +kernel
  refine ⟨h2, .other e.msg, text_errors e h, ?_, fun n => ⟨?_, text_ErrEqual none n⟩⟩
  · show e.msg = _
    rw [Err.msg, hc, hb]
    rfl
  · have := text_ErrEqual (fl := fl) (fuel := fuel) (d := d) (sp := sp) (some (.other e.msg)) n
    refine this.trans ?_
    have hs : errEqual (some (.other e.msg)) n = errEqual (some e) n := rfl
    rw [hs, Bool.eq_iff_iff.2 ((C58_errEqual e c n hc).1.trans decide_eq_true_iff.symm)]

/-- **C110** What stands in the place of these functions when the rest of the text runs makes errors of the same message, and answers
`ErrEqual` on them as the text of `ErrEqual` does on its own. -/
theorem C110_in_place (fl : FloatLib UInt64) (fuel d : Nat) (sp : Bool) (e : Err) (c : Int) (hc : e.code = some c) :
    ∃ v, (errs fl).fn fuel (d + 2) (maker e).1 sp (maker e).2 = .ok [.err v] ∧ lib fl (maker e).1 (maker e).2 = .ok [.err e] ∧ v.msg = e.msg ∧
      ∀ n, (errs fl).fn fuel (d + 2) (go% ErrEqual) sp [.err v, .int n] = lib fl (go% ErrEqual) [.err e, .int n] := by
  have h : e.code ≠ none := by rw [hc]; simp
  exact ⟨.other e.msg, text_errors e h, lib_errors e h, rfl, fun n => text_ErrEqual (some (.other e.msg)) n⟩

/-- The error of a missing key `k`, and what it is asked for. -/
example (fl : FloatLib UInt64) : (errs fl).fn 0 2 (go% errKeyNotFound) false [.bytes (str "k")] = .ok [.err (.other (str "error: key 'k' not found error_code: 08"))] ∧
    (errs fl).fn 0 2 (go% ErrEqual) false [.err (.other (str "error: key 'k' not found error_code: 08")), .int 8] = .ok [.bool true] ∧
    Src.errors.consts.lookup (go% ErrCodeKeyNotFound) = some (.int 8) ∧
    (errs fl).fn 0 2 (go% errBadJSON) false [.int (-12)] = .ok [.err (.other (str "error: bad json format. at:'-12' error_code: 09"))] := by
  have m1 : (Err.keyNotFound (str "k")).msg = str "error: key 'k' not found error_code: 08" := by decide +kernel
  have m2 : (Err.badJSON (-12)).msg = str "error: bad json format. at:'-12' error_code: 09" := by decide +kernel
  have t1 : errEqual (some (.other (str "error: key 'k' not found error_code: 08"))) 8 = true := by decide +kernel
  refine ⟨?_, ?_, rfl, ?_⟩
  · rw [← m1]; exact text_errors (.keyNotFound (str "k")) (by simp [Err.code])
  · have := text_ErrEqual (fl := fl) (fuel := 0) (d := 0) (sp := false) (some (.other (str "error: key 'k' not found error_code: 08"))) 8
    rw [t1] at this
    exact this
  · rw [← m2]; exact text_errors (.badJSON (-12)) (by simp [Err.code])

end Jin.Go
