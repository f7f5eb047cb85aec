import Verif.Go.ParserAddNil
import Verif.Props.Parser
/-!
# Props.ParserNil — C140: `Parser.AddKeyValue` with a nil value
-/

namespace Jin
open Spec

section
variable {h : NHeap} {up : Option Nat} {t : PTree} {p : ParserP} {P : Parser}

/-- The models on pointers and on trees agree. -/
theorem addKeyValueNil_sim (hr : Rep h p P up t) (key : Bytes) (path : List Bytes) :
    PRel h up t (p.AddKeyValueNil h key path) (P.AddKeyValueNil key path) := by
  unfold ParserP.AddKeyValueNil Parser.AddKeyValueNil
  by_cases hk0 : (key.length == 0) = true
  · rw [if_pos hk0, if_pos hk0]; exact hr.same
  rw [if_neg hk0, if_neg hk0, get_sim hr path]
  cases hget : P.Get path with
  | panic => trivial
  | err e => exact hr.same
  | ok json =>
    simp only
    by_cases h0 : (path.length == 0) = true
    · rw [if_pos h0, if_pos h0, hr.core]
      simp only [hr.holds.here.cell]
      rw [child_any hr.holds.here, hr.erase]
      by_cases hany : (P.core.down.any fun d => d.label == key) = true
      · rw [if_pos hany, if_pos hany]; exact hr.same
      rw [if_neg hany, if_neg hany]
      cases henc : enclosed json 123 125 .objectExpected with
      | some e => exact hr.same
      | none =>
        simp only
        by_cases hk : key.length ≥ 2
        · rw [if_pos hk, if_pos hk]; trivial
        rw [if_neg hk, if_neg hk]
        refine member_sim (C := .ok false) (key := key) (newVal := []) (R := fun h q _ =>
            match beforeLast p.json (44 :: memberText key []) with
            | .ok json' => .done ⟨t.ptr, json'⟩ (h.attach t.ptr q) none
            | _ => .panic)
          (S := fun n _ =>
            match beforeLast P.json (44 :: memberText key []) with
            | .ok json' => .done ⟨P.core.addChild n, json'⟩ none
            | _ => .panic) hr fun h' d c hd => ?_
        obtain ⟨t', b1, b2, -, -⟩ := hd.attach (path := []) rfl
        rw [hr.json]
        cases hbl : beforeLast P.json (44 :: memberText key []) with
        | ok json' =>
          have := b1.done (json := json') (e := none) hr.core (n := P.core.addChild d.erase) (by rw [b2, updAt_nil, hr.erase])
          rwa [hr.core] at this
        | err e => trivial
        | panic => trivial
    · rw [if_neg h0, if_neg h0]
      obtain ⟨pre, x, hpx, htake, hdl⟩ := snoc_cases h0
      rcases hr.walk path with ⟨s, h1, h2, h3⟩ | ⟨e, h1, h2, h3⟩
      · rw [h2]
        have h1' := h1
        rw [hpx] at h1'
        obtain ⟨u, a, b, hu, hdn, hl, ha, hs, v, hv⟩ := parent hr.holds.here h1'
        have hwu : P.core.walk path.dropLast = .ok u.erase := by
          rcases hr.walk pre with ⟨u2, e1, e2, e3⟩ | ⟨e, e1, e2, e3⟩
          · rw [hu] at e1; cases e1; rw [hdl, e3]
          · rw [hu] at e1; cases e1
        rw [hwu]
        simp only [hs.cell, Option.bind_some, hv.cell]
        rw [child_any hv]
        by_cases hany : (u.erase.down.any fun d => d.label == key) = true
        · rw [if_pos hany, if_pos hany]; exact hr.same
        rw [if_neg hany, if_neg hany]
        cases henc : enclosed json 123 125 .objectExpected with
        | some e => exact hr.same
        | none =>
          simp only
          by_cases hk : key.length ≥ 2
          · rw [if_pos hk, if_pos hk]; trivial
          rw [if_neg hk, if_neg hk]
          exact member_sim (C := .ok false) (key := key) (newVal := []) (R := fun h q _ =>
              match Jin.AddKeyValue p.json key none path with
              | .panic => .panic
              | .done json' (some e) => .done { p with json := json' } (h.attach s.ptr q) (some e)
              | .done json' none => finishP p json' (prefixes path 1 path.length) q (h.attach s.ptr q))
            (S := fun n _ =>
              match Jin.AddKeyValue P.json key none path with
              | .panic => .panic
              | .done json' (some e) => .done ⟨P.core.updAt (·.addChild n) path, json'⟩ (some e)
              | .done json' none => finish json' (P.core.updAt (·.addChild n) path) (prefixes path 1 path.length)) hr fun h' d c hd => by
            obtain ⟨t', b1, b2, ⟨s', b3, b5⟩, b4⟩ := hd.attach h1
            rw [hr.json]
            have herase : t'.erase = P.core.updAt (·.addChild d.erase) path := by rw [b2, hr.erase]
            cases hj : Jin.AddKeyValue P.json key none path with
            | panic => trivial
            | done json' e =>
              cases e with
              | some e => exact b1.done hr.core herase
              | none => exact Now.finish (Nat.le_refl 1) (Nat.le_refl _) hr.core b1 (by rw [List.take_length]; exact b3) (by rw [b5]; exact b4) herase
      · have : P.Get path = .err e := by
          unfold Parser.Get
          rw [if_neg h0, h3]; rfl
        rw [hget] at this
        cases this

end

/-- **C140 (partial)** Below the root, a call that reports no error does to the text what `AddKeyValue` does with nil: the member gets `null`.  Missing: the root,
and keys of two bytes and more. -/
theorem C140_nested_partial {p p' : Parser} {k : Bytes} {path : List Bytes} (hp : path ≠ []) (h : p.AddKeyValueNil k path = .done p' none) :
    AddKeyValue p.json k none path = .done p'.json none := by
  have hl : (path.length == 0) = false := by cases path <;> simp_all
  unfold Parser.AddKeyValueNil at h
  simp only [hl, Bool.false_eq_true, if_false] at h
  repeat' split at h
  all_goals first | (cases h; done) | skip
  all_goals (rw [finish_json h]; assumption)

/-- With a key of two bytes or more no call succeeds, in any state: it reports an error and leaves the parser as it is, or it panics. -/
theorem C140_long {P : Parser} {k : Bytes} {path : List Bytes} (hk : 2 ≤ k.length) :
    P.AddKeyValueNil k path = .panic ∨ ∃ e, P.AddKeyValueNil k path = .done P (some e) := by
  unfold Parser.AddKeyValueNil
  repeat' split
  all_goals first | exact .inl rfl | exact .inr ⟨_, rfl⟩ | omega

/-- … and it panics whenever a call with the value `null` would succeed. -/
theorem C140_long_panics {P P' : Parser} {k : Bytes} {path : List Bytes} (hk : 2 ≤ k.length) (h : P.AddKeyValue k (str "null") path = .done P' none) :
    P.AddKeyValueNil k path = .panic := by
  unfold Parser.AddKeyValue at h
  unfold Parser.AddKeyValueNil
  repeat' split at h
  all_goals first | (cases h; done) | skip
  all_goals simp_all
  all_goals omega

/-- At the root, a call that reports no error puts a comma, the key and a colon in front of the last byte of the text, and no value. -/
theorem C140_root {P P' : Parser} {k : Bytes} {a : Bytes} {c : UInt8} (hj : P.json = a ++ [c]) (h : P.AddKeyValueNil k [] = .done P' none) :
    P'.json = a ++ 44 :: 34 :: (k ++ [34, 58, c]) ∧ k.length = 1 := by
  have h0 : (([] : List Bytes).length == 0) = true := rfl
  unfold Parser.AddKeyValueNil at h
  simp only [hj, beforeLast_ok, h0, if_true] at h
  repeat' split at h
  all_goals first | (cases h; done) | skip
  cases h
  have : k.length ≠ 0 := by intro hz; simp_all
  exact ⟨by simp [memberText], by omega⟩

/-- **C140 does not hold**: at the root the member has no value, with a key of two bytes the call panics, and below the root, where the text gets `null`, `Get`
of the parser gives an empty value. -/
theorem C140_fails :
    session (str "{\"a\":1}") (·.AddKeyValueNil (str "k") []) Parser.json = some (str "{\"a\":1,\"k\":}", none) ∧
    (∃ P, Parse (str "{\"a\":1}") = .ok P ∧ P.AddKeyValueNil (str "key") [] = .panic) ∧
    session (str "{\"o\":{\"a\":1}}") (·.AddKeyValueNil (str "k") [str "o"]) (fun P => (P.json, P.Get [str "o", str "k"])) =
      some ((str "{\"o\":{\"a\":1,\"k\":null}}", .ok []), none) := by
  refine ⟨by decide +kernel, ?_, by decide +kernel⟩
  have h : (match Parse (str "{\"a\":1}") with
      | .ok P => (match P.AddKeyValueNil (str "key") [] with | .panic => true | _ => false)
      | _ => false) = true := by decide +kernel
  split at h
  · next P hP =>
    refine ⟨P, hP, ?_⟩
    split at h
    · assumption
    · cases h
  · cases h

/-- With the value `null` in place of nil the call succeeds. -/
example : session (str "{\"a\":1}") (·.AddKeyValue (str "key") (str "null") []) Parser.json = some (str "{\"a\":1,\"key\":null}", none) := by decide +kernel

end Jin

namespace Jin.Go
open Spec

variable (fl : FloatLib UInt64)

/-- **C140 for the text** What a program gets that parses a text and calls `AddKeyValue` with nil. -/
theorem C140_text_session {json : Bytes} {P : Parser} (hP : Parse json = .ok P) (key : Bytes) (path : List Bytes) :
    ∃ h c, Call1 fl (go% Parse) [.heap [], .bytes json] (.ok [.heap h, .ptr c, .bytes P.json, .nil]) ∧
      match P.AddKeyValueNil key path with
      | .panic => Call fl (go% Parser.AddKeyValue) [.heap h, .ptr c, .bytes P.json, .bytes key, .nil] path .panic
      | .done P' e => ∃ h' c', Call fl (go% Parser.AddKeyValue) [.heap h, .ptr c, .bytes P.json, .bytes key, .nil] path
          (.ok [.heap h', .ptr c', .bytes P'.json, errVal e]) := by
  have hs := parse_sim json []
  have ht := text_Parse fl (h := []) (by intro q r hr; simp at hr) (json := json)
  cases hx : ParseP json [] with
  | panic => rw [hx, hP] at hs; exact hs.elim
  | err e => rw [hx, hP] at hs; exact hs.elim
  | ok x =>
    obtain ⟨p, h⟩ := x
    rw [hx] at ht
    rw [hx, hP] at hs
    obtain ⟨⟨up, t, hr, -⟩, -, -⟩ := hs
    obtain ⟨t1, t2, t3, -⟩ := ht
    refine ⟨h, p.core, hr.json ▸ t1, ?_⟩
    have hc := text_Parser_AddKeyValueNil fl t2 p t3 key path
    have hm := addKeyValueNil_sim hr key path
    rw [hr.json] at hc
    cases hq : P.AddKeyValueNil key path with
    | panic =>
      rw [hq] at hm
      cases hy : p.AddKeyValueNil h key path with
      | panic => rw [hy] at hc; exact hc
      | done _ _ _ => rw [hy] at hm; exact hm.elim
    | done P' e =>
      rw [hq] at hm
      cases hy : p.AddKeyValueNil h key path with
      | panic => rw [hy] at hm; exact hm.elim
      | done p' h' e' =>
        rw [hy] at hc hm
        obtain ⟨rfl, t', hr', -⟩ := hm
        exact ⟨h', p'.core, hr'.json ▸ hc⟩

/-- **C140 for the text (partial)** Below the root, whatever is in the memory: a call that reports no error does to the text what `AddKeyValue` does with nil. -/
theorem C140_text_nested_partial {h h' : NHeap} (hh : Closed h) {p : ParserP} (hp : p.core < h.length) {c : Nat} {key j : Bytes} {path : List Bytes} (h0 : path ≠ [])
    (hc : Call fl (go% Parser.AddKeyValue) [.heap h, .ptr p.core, .bytes p.json, .bytes key, .nil] path (.ok [.heap h', .ptr c, .bytes j, .nil])) :
    Call fl (go% AddKeyValue) [.bytes p.json, .bytes key, .nil] path (.ok [.bytes j, .nil]) := by
  have e := hc.unique (text_Parser_AddKeyValueNil fl hh p hp key path)
  have ht := text_AddKeyValue fl p.json path key none
  have key' : Jin.AddKeyValue p.json key none path = .done j none := by
    have hl : (path.length == 0) = false := by cases path <;> simp_all
    unfold ParserP.AddKeyValueNil at e
    simp only [hl, Bool.false_eq_true, if_false] at e
    repeat' split at e
    all_goals first | (simp [presVals, errVal] at e; done) | skip
    next hj =>
      rw [hj]
      revert e
      unfold finishP
      split
      · simp [presVals]
      · intro e
        simp only [presVals, R.ok.injEq, List.cons.injEq, Val.bytes.injEq] at e
        rw [e.2.2.1]
  rw [key'] at ht
  exact ht

/-- **C140 does not hold of the text.** -/
theorem C140_text_fails : ∃ h c, Call1 fl (go% Parse) [.heap [], .bytes (str "{\"a\":1}")] (.ok [.heap h, .ptr c, .bytes (str "{\"a\":1}"), .nil]) ∧
    (∃ h' c', Call fl (go% Parser.AddKeyValue) [.heap h, .ptr c, .bytes (str "{\"a\":1}"), .bytes (str "k"), .nil] []
      (.ok [.heap h', .ptr c', .bytes (str "{\"a\":1,\"k\":}"), .nil])) ∧
    Call fl (go% Parser.AddKeyValue) [.heap h, .ptr c, .bytes (str "{\"a\":1}"), .bytes (str "key"), .nil] [] .panic := by
  obtain ⟨w, ⟨P, hP, hp⟩, -⟩ := C140_fails
  have hj : session (str "{\"a\":1}") (fun P => .done P none) Parser.json = some (str "{\"a\":1}", none) := by decide +kernel
  obtain ⟨P1, P2, e1, e2, e3⟩ := session_some w
  obtain ⟨P3, P4, e4, e5, e6⟩ := session_some hj
  rw [hP] at e1 e4
  cases e1
  cases e4
  cases e5
  obtain ⟨h, c, h1, h2⟩ := C140_text_session fl hP (str "key") []
  obtain ⟨h', c', h3, h4⟩ := C140_text_session fl hP (str "k") []
  have hu := h1.unique h3
  simp only [R.ok.injEq, List.cons.injEq, Val.heap.injEq, Val.ptr.injEq] at hu
  obtain ⟨rfl, rfl, -⟩ := hu
  rw [hp] at h2
  rw [e2] at h4
  simp only [e3] at h4
  rw [e6] at h1 h2 h4
  exact ⟨h, c, h1, h4, h2⟩

end Jin.Go
