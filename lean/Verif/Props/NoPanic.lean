import Verif.Proof.NoPanic
import Verif.Model.Set
/-!
# Props.NoPanic — C06
-/

namespace Jin

theorem settled_iff {json : Bytes} : Settled json ↔ ∀ c, json.getLast? = some c → c ∉ [32, 9, 10, 13, 58, 44, 91] := by
  simp [Settled, needsNext, space, and_assoc]

theorem settled_closed {json : Bytes} (h : json.getLast? = some 93 ∨ json.getLast? = some 125) :
    ∀ c, json.getLast? = some c → c ∉ [32, 9, 10, 13, 58, 44, 91] := by
  intro c hc
  rcases h with h | h <;> rw [h] at hc <;> cases hc <;> decide

/-- **C06, stronger** On arbitrary bytes whose last byte is not whitespace, a colon, a comma or
an opening square bracket, `Get` returns a piece of the text or an error; it never panics. -/
theorem C06_get_settled (json : Bytes) (path : List Bytes)
    (hj : ∀ c, json.getLast? = some c → c ∉ [32, 9, 10, 13, 58, 44, 91]) (hp : path ≠ []) :
    (∃ e, Get json path = .err e) ∨ ∃ before w after, Get json path = .ok w ∧ json = before ++ w ++ after := by
  obtain ⟨h1, h2⟩ := core_inv (settled_iff.2 hj) hp
  have hlen : (path.length == 0) = false := by
    cases path with
    | nil => exact absurd rfl hp
    | cons => rfl
  unfold Get
  simp only [hlen, Bool.false_eq_true, if_false]
  cases h : core json false path with
  | panic => exact absurd h h1
  | err e => exact .inl ⟨e, rfl⟩
  | ok l =>
    obtain ⟨h3, h4⟩ := h2 l h
    refine .inr ⟨json.take l.start, (json.drop l.start).take (l.stop - l.start), json.drop l.stop, ?_, ?_⟩
    · simp only [Out.bind_ok, slice]
      rw [if_pos ⟨by omega, by omega, by omega⟩]
      simp
    · have e : json.drop l.stop = (json.drop l.start).drop (l.stop - l.start) := by
        rw [List.drop_drop]; congr 1; omega
      rw [e, List.append_assoc, List.take_append_drop, List.take_append_drop]

/-- None of these last bytes can be allowed: each ends a text on which `Get` panics. -/
theorem C06_settled_sharp : ∀ c ∈ ([32, 9, 10, 13, 58, 44, 91] : List UInt8),
    ∃ json path, path ≠ [] ∧ json.getLast? = some c ∧ Get json path = .panic := by
  intro c hc
  simp only [List.mem_cons, List.not_mem_nil, or_false] at hc
  rcases hc with rfl | rfl | rfl | rfl | rfl | rfl | rfl
  · exact ⟨str "{\"a\": ", [str "a"], by decide, by decide +kernel, by decide +kernel⟩
  · exact ⟨str "{\"a\":\t", [str "a"], by decide, by decide +kernel, by decide +kernel⟩
  · exact ⟨str "[1,\n", [str "1"], by decide, by decide +kernel, by decide +kernel⟩
  · exact ⟨str "[[\r", [str "0", str "0"], by decide, by decide +kernel, by decide +kernel⟩
  · exact ⟨str "{\"a\":", [str "a"], by decide, by decide +kernel, by decide +kernel⟩
  · exact ⟨str "[1,", [str "1"], by decide, by decide +kernel, by decide +kernel⟩
  · exact ⟨str "[[", [str "0", str "0"], by decide, by decide +kernel, by decide +kernel⟩

/-- **C06** On arbitrary bytes ending with a closing bracket `Get` returns a piece of the
text or an error; it never panics. -/
theorem C06_get_no_panic (json : Bytes) (path : List Bytes)
    (hj : json.getLast? = some 93 ∨ json.getLast? = some 125) (hp : path ≠ []) :
    (∃ e, Get json path = .err e) ∨ ∃ before w after, Get json path = .ok w ∧ json = before ++ w ++ after :=
  C06_get_settled json path (settled_closed hj) hp

/-- The same for the readers built on it. -/
theorem C06_typed_no_panic (json : Bytes) (path : List Bytes)
    (hj : json.getLast? = some 93 ∨ json.getLast? = some 125) (hp : path ≠ []) :
    GetString json path ≠ .panic ∧ GetInt json path ≠ .panic ∧ GetBool json path ≠ .panic := by
  rcases C06_get_no_panic json path hj hp with ⟨e, he⟩ | ⟨_, w, _, he, -⟩
  · simp [GetString, GetInt, GetBool, he, Out.bind_err]
  · simp only [GetString, GetInt, GetBool, he, Out.bind_ok]
    refine ⟨by simp, ?_, ?_⟩
    · cases atoi w <;> simp
    · (repeat' split) <;> simp

/-- Garbage, unbalanced and truncated-inside texts meet the hypothesis … -/
example : Get (str "{\"a\":[1,{]") [str "a", str "1", str "x"] = .err (.keyNotFound (str "x")) ∧
    Get (str "]") [str "a"] = .err (.badJSON 0) ∧ Get (str "x,\":}") [str "0"] = .err (.keyNotFound (str "0")) := by
  decide +kernel
/-- … and without it the panic is real. -/
theorem C06_needs_bracket : Get (str "{\"a\": ") [str "a"] = .panic ∧ Get (str "  ") [str "a"] = .panic := by
  decide +kernel

end Jin
